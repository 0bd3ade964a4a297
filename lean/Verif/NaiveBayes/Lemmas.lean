import Verif.NaiveBayes.Spec
import Mathlib.Tactic.Ring
import Mathlib.Tactic.Linarith
import Mathlib.Tactic.Positivity
import Mathlib.Tactic.FieldSimp
import Mathlib.Algebra.BigOperators.Group.List.Basic
import Mathlib.Algebra.Order.BigOperators.Group.List

set_option linter.unusedSectionVars false

namespace Scigo.NaiveBayes

variable {α : Type _}

section
variable [Add α] [Sub α] [Mul α] [Div α] [Zero α] [One α] [NatCast α] [IntCast α]
  [LT α] [DecidableLT α]

theorem hasNegative_iff (X : Mat α) :
    hasNegative X = true ↔ ∃ i < X.r, ∃ j < X.c, X.at' i j < 0 := by
  simp [hasNegative]

theorem validateInput_ok (X y : Mat α) : validateInput X y = .ok () ↔ ValidData X y := by
  unfold validateInput ValidData
  by_cases h1 : X.r = y.r
  · by_cases h2 : y.c = 1
    · by_cases h3 : hasNegative X = true
      · have := (hasNegative_iff X).1 h3
        obtain ⟨i, hi, j, hj, hneg⟩ := this
        simp only [h1, h2, h3, ne_eq, not_true_eq_false, if_false, if_true]
        constructor
        · intro h; cases h
        · intro h; exact absurd hneg (h.2.2 i (h1 ▸ hi) j hj)
      · have h4 : ∀ i < X.r, ∀ j < X.c, ¬ X.at' i j < 0 := by
          intro i hi j hj hneg
          exact h3 ((hasNegative_iff X).2 ⟨i, hi, j, hj, hneg⟩)
        simp only [Bool.not_eq_true] at h3
        rw [h1] at h4
        simp [h1, h2, h3]
        exact h4
    · simp [h1, h2]
  · simp [h1]

theorem validateInput_err (X y : Mat α) (h : ¬ ValidData X y) :
    ∃ e, validateInput X y = .err e := by
  cases hv : validateInput X y with
  | ok u => exact absurd ((validateInput_ok X y).1 hv) h
  | err e => exact ⟨e, rfl⟩
  | panic m =>
    unfold validateInput at hv
    split_ifs at hv

/-- the part of the state that is not recomputed by `updateModel` -/
def NB.core (s : NB α) : NB α := { s with logPrior := [], featLogProb := [], fitted := false }

theorem updateModel_core (log : α → α) (s : NB α) : s.core.updateModel log = s.updateModel log := rfl

theorem core_updateModel (log : α → α) (s : NB α) : (s.updateModel log).core = s.core := rfl

theorem core_countRow (toInt : α → Int) (X y : Mat α) (s : NB α) (i : Nat) :
    (s.countRow toInt X y i).core = s.core.countRow toInt X y i := by
  unfold NB.countRow
  have : s.core.classIndex = s.classIndex := rfl
  rw [this]
  split <;> rfl

theorem core_foldl (toInt : α → Int) (X y : Mat α) (l : List Nat) (s : NB α) :
    (l.foldl (NB.countRow toInt X y) s).core = l.foldl (NB.countRow toInt X y) s.core := by
  induction l generalizing s with
  | nil => rfl
  | cons i l ih => rw [List.foldl_cons, List.foldl_cons, ih, core_countRow]

theorem countRow_classes (toInt : α → Int) (X y : Mat α) (s : NB α) (i : Nat) :
    (s.countRow toInt X y i).classes = s.classes ∧ (s.countRow toInt X y i).nFeatures = s.nFeatures := by
  unfold NB.countRow
  split <;> exact ⟨rfl, rfl⟩

theorem foldl_countRow_classes (toInt : α → Int) (X y : Mat α) (l : List Nat) (s : NB α) :
    (l.foldl (NB.countRow toInt X y) s).classes = s.classes ∧
    (l.foldl (NB.countRow toInt X y) s).nFeatures = s.nFeatures := by
  induction l generalizing s with
  | nil => exact ⟨rfl, rfl⟩
  | cons i l ih =>
    rw [List.foldl_cons, (ih _).1, (ih _).2]
    exact countRow_classes toInt X y s i

theorem countRow_congr (toInt : α → Int) (X y X' y' : Mat α) (s : NB α) (i i' : Nat)
    (hx : X.row i = X'.row i') (hy : y.at' i 0 = y'.at' i' 0) :
    s.countRow toInt X y i = s.countRow toInt X' y' i' := by
  unfold NB.countRow
  rw [hx, hy]

/-- counting the stacked rows is counting the first batch, then the second -/
theorem foldl_append (toInt : α → Int) (X y X' y' : Mat α) (hr : X.r = y.r)
    (hc : X.c = X'.c) (s : NB α) :
    (List.range (appendRows X X').r).foldl (NB.countRow toInt (appendRows X X') (appendRows y y')) s
      = (List.range X'.r).foldl (NB.countRow toInt X' y')
          ((List.range X.r).foldl (NB.countRow toInt X y) s) := by
  change (List.range (X.r + X'.r)).foldl _ s = _
  rw [List.range_add, List.foldl_append, List.foldl_map]
  have h1 : (List.range X.r).foldl (NB.countRow toInt (appendRows X X') (appendRows y y')) s
      = (List.range X.r).foldl (NB.countRow toInt X y) s := by
    apply List.foldl_ext
    intro t i hi
    rw [List.mem_range] at hi
    apply countRow_congr
    · unfold Mat.row
      apply List.map_congr_left
      intro j _
      simp [appendRows, hi]
    · simp [appendRows, ← hr, hi]
  rw [h1]
  apply List.foldl_ext
  intro t i hi
  apply countRow_congr
  · unfold Mat.row
    change (List.range X.c).map _ = _
    rw [hc]
    apply List.map_congr_left
    intro j _
    simp [appendRows]
  · simp [appendRows, ← hr]

theorem valid_append {X y X' y' : Mat α} (h : ValidData X y) (h' : ValidData X' y')
    (hc : X.c = X'.c) : ValidData (appendRows X X') (appendRows y y') := by
  refine ⟨?_, h.2.1, ?_⟩
  · change X.r + X'.r = y.r + y'.r
    rw [h.1, h'.1]
  · intro i hi j hj
    change i < X.r + X'.r at hi
    change j < X.c at hj
    simp only [appendRows]
    split_ifs with hlt
    · exact h.2.2 i hlt j hj
    · exact h'.2.2 (i - X.r) (by omega) j (by omega)

/-- what `PartialFit` does with valid data of the right width -/
theorem partialFit_valid (log : α → α) (toInt : α → Int) (iter : List Int → List Int) (X y : Mat α)
    (cls : Option (List Int)) (s : NB α) (hv : ValidData X y)
    (hc : s.classes ≠ none → X.c = s.nFeatures) :
    s.partialFit log toInt iter X y cls
      = (((List.range X.r).foldl (NB.countRow toInt X y)
          (s.begin toInt iter X y cls)).updateModel log,
        .ok ()) := by
  unfold NB.partialFit
  rw [(validateInput_ok X y).2 hv]
  dsimp only
  have hnc : ¬ X.c ≠ (s.begin toInt iter X y cls).nFeatures := by
    rw [not_not]
    unfold NB.begin
    cases hcl : s.classes with
    | none => rfl
    | some c => exact hc (by simp [hcl])
  rw [if_neg hnc]

theorem partialFit_append (log : α → α) (toInt : α → Int) (iter : List Int → List Int)
    (X y X' y' : Mat α) (cls cls' : Option (List Int)) (s : NB α)
    (h : ValidData X y) (h' : ValidData X' y') (hxc : X.c = X'.c)
    (hs : s.classes ≠ none → X.c = s.nFeatures)
    (hcls : s.classes = none → cls ≠ none) :
    (s.partialFit log toInt iter X y cls).2 = .ok () ∧
    (s.partialFit log toInt iter X y cls).1.partialFit log toInt iter X' y' cls'
      = s.partialFit log toInt iter (appendRows X X') (appendRows y y') cls ∧
    (s.partialFit log toInt iter X y cls).1.classes ≠ none ∧
    (s.partialFit log toInt iter X y cls).1.nFeatures = X.c := by
  rw [partialFit_valid log toInt iter X y cls s h hs]
  set s0 : NB α := (s.begin toInt iter X y cls) with hs0
  have h0c : s0.classes ≠ none ∧ s0.nFeatures = X.c := by
    rw [hs0]
    unfold NB.begin
    cases hcl : s.classes with
    | none => exact ⟨by simp [NB.initCounts], rfl⟩
    | some c => exact ⟨by simp [hcl], (hs (by simp [hcl])).symm⟩
  set s1 := ((List.range X.r).foldl (NB.countRow toInt X y) s0) with hs1
  have h1 := foldl_countRow_classes toInt X y (List.range X.r) s0
  have h1c : (s1.updateModel log).classes ≠ none := by
    change s1.classes ≠ none
    rw [hs1, h1.1]; exact h0c.1
  have h1n : (s1.updateModel log).nFeatures = X.c := by
    change s1.nFeatures = X.c
    rw [hs1, h1.2]; exact h0c.2
  refine ⟨rfl, ?_, h1c, h1n⟩
  rw [partialFit_valid log toInt iter X' y' cls' _ h' (fun _ => by rw [h1n, hxc]),
    partialFit_valid log toInt iter _ _ cls s (valid_append h h' hxc) hs]
  have hm :  (s1.updateModel log).begin toInt iter X' y' cls' = s1.updateModel log := by
    unfold NB.begin
    cases hcl : (s1.updateModel log).classes with
    | none => exact absurd hcl h1c
    | some c => rfl
  have hm' : s.begin toInt iter (appendRows X X') (appendRows y y') cls = s0 := by
    rw [hs0]
    unfold NB.begin
    cases hcl : s.classes with
    | none =>
      cases hc : cls with
      | none => exact absurd hc (hcls hcl)
      | some c => rfl
    | some c => rfl
  rw [hm, hm', foldl_append toInt X y X' y' h.1 hxc s0, ← hs1]
  congr 1
  rw [← updateModel_core, core_foldl, core_updateModel, ← core_foldl, updateModel_core]

end

end Scigo.NaiveBayes
