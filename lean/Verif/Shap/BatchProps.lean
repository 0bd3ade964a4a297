import Verif.Shap.Batch
import Verif.Shap.Props
import Verif.LGB.PredictParallelProps

/-!
# C257: SHAP values of a matrix, row by row
-/

set_option linter.unusedSectionVars false

namespace Scigo.Shap

open Scigo.LGB

/-! ## Lemmas -/

theorem map_ok_inv {β γ : Type} {o : Outcome β} {f : β → γ} {c : γ} (h : o.map f = .ok c) : ∃ b, o = .ok b ∧ f b = c := by
  cases o with
  | ok b => exact ⟨b, rfl, Outcome.ok.inj h⟩
  | err e => cases h
  | panic e => cases h

section
variable {α : Type} [LE α] [DecidableLE α] [LT α] [DecidableLT α] [Zero α] [Add α] [Sub α] [Neg α] [Mul α] [Div α] [BEq α] [One α]

theorem treeShap_length {ofNat : Nat → α} {toInt : α → Int} {t : LGB.Tree α} {x s : List α} (h : treeShap ofNat toInt t x = .ok s) :
    s.length = x.length := by
  rw [treeShap] at h
  split at h
  · cases h; simp
  cases hp : path toInt t x (t.nodes.length + 1) 0 with
  | err e => rw [hp] at h; cases h
  | panic e => rw [hp] at h; cases h
  | ok ids =>
    rw [hp, Outcome.bind_ok] at h
    split at h
    · cases h; simp
    split at h
    · cases h; simp
    obtain ⟨b, -, rfl⟩ := map_ok_inv h
    simp

theorem sampleShap_length {ofNat : Nat → α} {toInt : α → Int} {m : LGB.Model α} {x s : List α} (h : sampleShap ofNat toInt m x = .ok s) :
    s.length = x.length := by
  have key : ∀ (ts : List (LGB.Tree α)) (acc : List α), acc.length = x.length → overTrees ofNat toInt m.learningRate x ts acc = .ok s →
      s.length = x.length := by
    intro ts
    induction ts with
    | nil => intro acc ha h; cases h; exact ha
    | cons t ts ih =>
      intro acc ha h
      rw [overTrees] at h
      split at h
      · exact ih acc ha h
      · cases ht : treeShap ofNat toInt t x with
        | err e => rw [ht] at h; cases h
        | panic e => rw [ht] at h; cases h
        | ok s' =>
          rw [ht, Outcome.bind_ok] at h
          refine ih _ ?_ h
          have := treeShap_length ht
          simp [addTree]
          omega
  exact key m.trees _ (by simp) h

theorem interactions_list {ofNat : Nat → α} {tenth : α} {toInt : α → Int} {m : LGB.Model α} {X : Mat α} {n : Nat} {Ms : List (Nat → Nat → α)}
    (h : calculateInteractions ofNat tenth toInt m X n = .ok Ms) :
    Ms.length = n ∧ (0 < n → 0 < X.c) ∧ ∀ i < n, ∃ M, Ms[i]? = some M ∧ interactions ofNat tenth toInt m (rowOf X i) = .ok M := by
  induction n generalizing Ms with
  | zero => cases h; simp
  | succ n ih =>
    rw [calculateInteractions] at h
    cases hl : calculateInteractions ofNat tenth toInt m X n with
    | err e => rw [hl] at h; cases h
    | panic e => rw [hl] at h; cases h
    | ok l =>
      rw [hl, Outcome.bind_ok] at h
      split at h
      · cases h
      rename_i hc
      obtain ⟨M, hM, rfl⟩ := map_ok_inv h
      obtain ⟨i1, i2, i3⟩ := ih hl
      refine ⟨by simp [i1], fun _ => by omega, fun i hi => ?_⟩
      by_cases hin : i < n
      · obtain ⟨M', a, b⟩ := i3 i hin
        exact ⟨M', by rw [List.getElem?_append_left (by omega)]; exact a, b⟩
      · obtain rfl : i = n := by omega
        exact ⟨M, by rw [List.getElem?_append_right (by omega), i1]; simp, hM⟩

/-! ## Properties -/

/-- **C257**: if `CalculateSHAP` returns, the matrix was not empty; there is one list of values for every row and one value for every column; the list
of row `i` is the one of that row alone; the base value is the initial score, or 0 if there are no trees. -/
theorem shap_rows (ofNat : Nat → α) (toInt : α → Int) (m : LGB.Model α) (X : Mat α) (rows : List (List α)) (b : α)
    (h : calculate ofNat toInt m X = .ok (rows, b)) :
    0 < X.r ∧ 0 < X.c ∧ rows.length = X.r ∧ (∀ i < X.r, (rows.getD i []).length = X.c ∧
      sampleShap ofNat toInt m ((List.range X.c).map (X.at' i)) = .ok (rows.getD i [])) ∧
    (m.trees = [] → b = 0) ∧ (m.trees ≠ [] → b = m.initScore) := by
  unfold calculate at h
  split at h
  · cases h
  rename_i hd
  obtain ⟨rs, hr, e⟩ := map_ok_inv h
  obtain ⟨rfl, rfl⟩ := Prod.mk.injEq .. ▸ e
  obtain ⟨h1, h2⟩ := (forRows_ok _ _).1 hr
  refine ⟨by omega, by omega, h1, fun i hi => ⟨?_, h2 i hi⟩, fun ht => ?_, fun ht => ?_⟩
  · rw [sampleShap_length (h2 i hi)]
    simp [rowOf]
  · rw [baseValue, if_pos ht]
  · rw [baseValue, if_neg ht]

/-- **C257**: the values of a row do not depend on the other rows of the matrix, nor on how many there are. -/
theorem shap_row_local (ofNat : Nat → α) (toInt : α → Int) (m : LGB.Model α) (X Y : Mat α) (rows rows' : List (List α)) (b b' : α)
    (h : calculate ofNat toInt m X = .ok (rows, b)) (h' : calculate ofNat toInt m Y = .ok (rows', b')) (i j : Nat) (hi : i < X.r) (hj : j < Y.r)
    (hc : X.c = Y.c) (heq : ∀ k < X.c, X.at' i k = Y.at' j k) : rows.getD i [] = rows'.getD j [] ∧ b = b' := by
  obtain ⟨-, -, -, a1, a2, a3⟩ := shap_rows ofNat toInt m X rows b h
  obtain ⟨-, -, -, c1, c2, c3⟩ := shap_rows ofNat toInt m Y rows' b' h'
  have e : (List.range X.c).map (X.at' i) = (List.range Y.c).map (Y.at' j) := by
    rw [← hc]
    exact List.map_congr_left fun k hk => heq k (List.mem_range.1 hk)
  have e1 := (a1 i hi).2
  rw [e, (c1 j hj).2] at e1
  refine ⟨(Outcome.ok.inj e1).symm, ?_⟩
  by_cases ht : m.trees = []
  · rw [a2 ht, c2 ht]
  · rw [a3 ht, c3 ht]

/-- **C257**: the interaction matrices belong to the rows; each is symmetric and has the SHAP values of the row on its diagonal. -/
theorem interactions_rows (ofNat : Nat → α) (tenth : α) (toInt : α → Int) (m : LGB.Model α) (X : Mat α) (Ms : List (Nat → Nat → α))
    (h : calculateInteractions ofNat tenth toInt m X X.r = .ok Ms) :
    Ms.length = X.r ∧ ∀ i < X.r, ∃ M, Ms[i]? = some M ∧ (∀ j < X.c, ∀ k < X.c, M j k = M k j) ∧
      ∀ rows b, calculate ofNat toInt m X = .ok (rows, b) → ∀ j < X.c, M j j = (rows.getD i []).getD j 0 := by
  obtain ⟨h1, h2, h3⟩ := interactions_list h
  refine ⟨h1, fun i hi => ?_⟩
  obtain ⟨M, e1, e2⟩ := h3 i hi
  have hlen : (rowOf X i).length = X.c := by simp [rowOf]
  obtain ⟨s, hs, hM⟩ := interactions_symmetric ofNat tenth toInt m _ M e2
  rw [hlen] at hM
  refine ⟨M, e1, fun j hj k hk => ((hM j hj).2 k hk).1, fun rows b hc j hj => ?_⟩
  obtain ⟨-, -, -, a, -⟩ := shap_rows ofNat toInt m X rows b hc
  have := (a i hi).2
  rw [show (List.range X.c).map (X.at' i) = rowOf X i from rfl, hs] at this
  rw [(hM j hj).1, Outcome.ok.inj this]

/-- **C257**: `PredictSHAP` of an estimator that was not trained is an error, otherwise it is `CalculateSHAP` of its model. -/
theorem predictSHAP_fitted (ofNat : Nat → α) (toInt : α → Int) (X : Mat α) (m : LGB.Model α) :
    (∃ e, predictSHAP ofNat toInt none X = .err e) ∧ predictSHAP ofNat toInt (some m) X = calculate ofNat toInt m X :=
  ⟨⟨_, rfl⟩, rfl⟩

end

section
variable {α : Type} [Field α] [LinearOrder α] [IsStrictOrderedRing α]

/-- **C257, as far as it holds** (exact arithmetic): for a model of numerical trees over the first `k` columns, `PredictSHAP` of a matrix that is not empty and
has at least `k` columns returns, and for every row base value and values add up to the initial score and the weighted distances of the leaves
from the mean leaves. Missing: matrices with too few columns are not refused (`narrow_matrix_explained`). -/
theorem predictSHAP_returns_partial (ofNat : Nat → α) (hof : ∀ n, ofNat n = (n : α)) (toInt : α → Int) (k : Nat) (m : LGB.Model α) (X : Mat α) (hr : 0 < X.r)
    (hc : 0 < X.c) (hk : k ≤ X.c) (hn : m.numClass ≤ 2) (hne : m.trees ≠ []) (ds : List (DTree α))
    (hs : List.Forall₂ (fun t d => Plain k t ∧ Stores t 0 d) m.trees ds) :
    ∃ rows b, predictSHAP ofNat toInt (some m) X = .ok (rows, b) ∧ ∀ i < X.r,
      b + (rows.getD i []).sum = m.initScore + m.learningRate * (ds.map fun d =>
        (d.eval toInt ((List.range X.c).map (X.at' i)) - mean d) * weight toInt ((List.range X.c).map (X.at' i)) d).sum := by
  have hrow : ∀ i, (rowOf X i).length = X.c := fun i => by simp [rowOf]
  have key := fun i => shap_sum ofNat hof toInt k m (rowOf X i) (by rw [hrow]; exact hk) hn hne ds hs
  choose s h1 h2 h3 h4 using key
  have hf : forRows X (sampleShap ofNat toInt m) X.r = .ok ((List.range X.r).map s) := by
    rw [forRows_ok]
    refine ⟨by simp, fun i hi => ?_⟩
    rw [h1, List.getD_eq_getElem _ _ (by simpa using hi)]
    simp
  refine ⟨(List.range X.r).map s, baseValue m, ?_, fun i hi => ?_⟩
  · show calculate ofNat toInt m X = _
    rw [calculate, if_neg (by omega), hf]
    rfl
  · rw [List.getD_eq_getElem _ _ (by simpa using hi)]
    simp only [List.getElem_map, List.getElem_range]
    exact h4 i

end

/-- one row of one column; the tree of the example asks about two -/
def exNarrow : Mat ℚ := ⟨1, 1, fun _ _ => 1⟩

/-- one row of three columns -/
def exWide : Mat ℚ := ⟨1, 3, fun _ j => [1, 3, 4].getD j 0⟩

/-- the result, for the examples -/
def valuesOf {β : Type} : Outcome β → Option β
  | .ok a => some a
  | _ => none

/-- a tree asking about the features 0, 1 and 2, and two of the columns -/
def exDeep : LGB.Tree ℚ := { exTree with nodes := [sp 1 2 0 (1/2), lf 3, sp 3 4 1 2, lf 5, sp 5 6 2 1, lf 6, lf 7] }

/-- one row of two columns -/
def exShort : Mat ℚ := ⟨1, 2, fun _ j => [1, 3].getD j 0⟩

/-- whether a function panicked, for the examples -/
def panicked {β : Type} : Outcome β → Bool
  | .panic _ => true
  | _ => false

/-- **C257 is false of the code**: a matrix with fewer columns than the model was trained on is not refused: the way through the tree ends at the question
about the missing column, and the value there, 0, is explained instead of a prediction, here as -5 against the mean 5 of the leaves. The interactions of
such a matrix panic. -/
theorem narrow_matrix_explained :
    valuesOf (predictSHAP (fun n => (n : ℚ)) Rat.floor (some (exModel exTree 1)) exNarrow) = some ([[-5]], 10) ∧
    (valuesOf (predictSHAP (fun n => (n : ℚ)) Rat.floor (some (exModel exDeep 1)) exShort)).isSome = true ∧
    panicked (calculateInteractions (fun n => (n : ℚ)) (1/10) Rat.floor (exModel exDeep 1) exShort 1) = true := by
  decide +kernel

/-- the interactions of `exWide` exist, one matrix for its row -/
example : (valuesOf (calculateInteractions (fun n => (n : ℚ)) (1/10) Rat.floor (exModel exTree 1) exWide exWide.r)).map
    (fun Ms => Ms.map fun M => (List.range 3).map fun i => (List.range 3).map (M i)) = some [[[1, 1/2, 0], [1/2, 1, 0], [0, 0, 0]]] := by decide +kernel

example : valuesOf (predictSHAP (fun n => (n : ℚ)) Rat.floor (some (exModel exTree 1)) exWide) = some ([[1, 1, 0]], 10) := by decide +kernel

example : Plain 2 exTree ∧ 2 ≤ exWide.c ∧ (exModel exTree 1).trees ≠ [] := ⟨exTree_plain, by decide, by decide +kernel⟩

end Scigo.Shap
