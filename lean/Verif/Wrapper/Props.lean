import Verif.Wrapper.Train
import Verif.LGB.PredictParallelProps
import Verif.Trainer.FitProps

/-!
# C160–C163: what a fitted `LGBMClassifier` answers
-/

set_option linter.unusedSectionVars false

namespace Scigo.Wrapper

open Scigo.LGB (ENum)
open Scigo.Trainer (bind_ok_inv)

variable {α : Type}

/-! ## Classes -/

/-- the labels of a training set are the strictly increasing list of the truncated targets -/
theorem extractClasses_spec (toInt : α → Int) {iter : List Int → List Int} (hi : MapKeys iter) (y : Mat α) :
    (extractClasses toInt iter y).Pairwise (· < ·) ∧ ∀ c, c ∈ extractClasses toInt iter y ↔ ∃ i < y.r, toInt (y.at' i 0) = c := by
  obtain ⟨hp, hs⟩ := exchangeSort_spec (iter ((List.range y.r).map (fun i => toInt (y.at' i 0))))
  obtain ⟨hn, hm⟩ := hi ((List.range y.r).map (fun i => toInt (y.at' i 0)))
  have hn' := hp.nodup_iff.2 hn
  refine ⟨hs.imp₂ (fun a b h1 h2 => lt_of_le_of_ne h1 h2) hn', fun c => ?_⟩
  unfold extractClasses
  rw [hp.mem_iff, hm]
  simp

/-- the three ways of training a classifier -/
inductive TrainedBy (c : α) [Zero α] (toInt : α → Int) (iter : List Int → List Int)
    (train : Request α → Mat α → Mat α → Outcome (LGB.Model α)) (m : Clf α) (X y : Mat α) (m' : Clf α) (o : Outcome Unit) : Prop
  | fit (h : m.fit c toInt iter train X y = (m', o))
  | weighted (w : Option (List α)) (h : m.fitWeighted c toInt iter train X y w = (m', o))
  | init (s : α) (w : Option (List α)) (h : m.fitWithInit c toInt iter train X y s w = (m', o))

/-- what a request for these classes asks for -/
def Asks (classes : List Int) (r : Request α) : Prop :=
  (classes.length = 2 ∧ r.objective = "binary" ∧ r.numClass = 1) ∨
  (2 < classes.length ∧ r.objective = "multiclass" ∧ r.numClass = classes.length)

section
variable [Zero α]

theorem fitBody_inv (toInt : α → Int) (iter : List Int → List Int) (train : Request α → Mat α → Mat α → Outcome (LGB.Model α))
    (req : Clf α → Request α) (hreq : ∀ m, (req m).objective = m.objective ∧ (req m).numClass = m.numClass) (m : Clf α) (X y : Mat α) :
    (m.fitBody toInt iter train req X y).1.classes = extractClasses toInt iter y ∧
    (m.fitBody toInt iter train req X y).1.opts = m.opts ∧
    (∀ op, (m.fitBody toInt iter train req X y).2.recovered op = .ok () → (m.fitBody toInt iter train req X y).1.nFeatures = X.c ∧
      (m.fitBody toInt iter train req X y).1.fitted = true ∧
      ∃ r model, Asks (extractClasses toInt iter y) r ∧ train r X y = .ok model ∧ (m.fitBody toInt iter train req X y).1.model = some model) ∧
    (∀ op, (m.fitBody toInt iter train req X y).2.recovered op ≠ .ok () → (m.fitBody toInt iter train req X y).1.model = m.model ∧
      (m.fitBody toInt iter train req X y).1.fitted = m.fitted) := by
  unfold Clf.fitBody
  simp only
  cases hso : Clf.setObjective { m with classes := extractClasses toInt iter y } with
  | none => exact ⟨rfl, rfl, fun op h => by simp at h, fun _ _ => ⟨rfl, rfl⟩⟩
  | some m1 =>
    have hm1 : m1.classes = extractClasses toInt iter y ∧ m1.opts = m.opts ∧ m1.model = m.model ∧ m1.fitted = m.fitted ∧
        ((m1.classes.length = 2 ∧ m1.objective = "binary" ∧ m1.numClass = 1) ∨
         (2 < m1.classes.length ∧ m1.objective = "multiclass" ∧ m1.numClass = m1.classes.length)) := by
      unfold Clf.setObjective at hso
      by_cases h2 : (extractClasses toInt iter y).length = 2
      · rw [if_pos h2] at hso
        cases hso
        exact ⟨rfl, rfl, rfl, rfl, Or.inl ⟨h2, rfl, rfl⟩⟩
      · rw [if_neg h2] at hso
        by_cases h3 : (extractClasses toInt iter y).length > 2
        · rw [if_pos h3] at hso
          cases hso
          exact ⟨rfl, rfl, rfl, rfl, Or.inr ⟨h3, rfl, rfl⟩⟩
        · rw [if_neg h3] at hso
          cases hso
    obtain ⟨a1, a2, a3, a4, a5⟩ := hm1
    simp only
    cases ht : train (req { m1 with nFeatures := X.c }) X y with
    | ok model =>
      refine ⟨a1, a2, fun op _ => ⟨rfl, rfl, req { m1 with nFeatures := X.c }, model, ?_, ht, rfl⟩, fun op h => absurd rfl h⟩
      obtain ⟨e1, e2⟩ := hreq { m1 with nFeatures := X.c }
      unfold Asks
      rw [e1, e2, ← a1]
      exact a5
    | err e => exact ⟨a1, a2, fun op h => by simp at h, fun _ _ => ⟨a3, a4⟩⟩
    | panic e => exact ⟨a1, a2, fun op h => by simp at h, fun _ _ => ⟨a3, a4⟩⟩

/-- what a classifier knows after a successful training -/
structure Knows (toInt : α → Int) (train : Request α → Mat α → Mat α → Outcome (LGB.Model α)) (X y : Mat α) (m : Clf α) : Prop where
  rows : X.r = y.r
  column : y.c = 1
  sorted : m.classes.Pairwise (· < ·)
  seen : ∀ c, c ∈ m.classes ↔ ∃ i < y.r, toInt (y.at' i 0) = c
  width : m.nFeatures = X.c
  fitted : m.fitted = true
  model : ∃ r model, Asks m.classes r ∧ train r X y = .ok model ∧ m.model = some model

/-- **C160** (law-free): after a successful `Fit`, `FitWeighted` or `FitWithInit` the known classes are the distinct truncated labels in increasing
order, there are at least two, and the stored model was trained on the arguments with the objective for that number of classes. -/
theorem trained_knows (c : α) (toInt : α → Int) {iter : List Int → List Int} (hi : MapKeys iter)
    (train : Request α → Mat α → Mat α → Outcome (LGB.Model α)) (m : Clf α) (X y : Mat α) (m' : Clf α)
    (h : TrainedBy c toInt iter train m X y m' (.ok ())) : Knows toInt train X y m' := by
  have key : ∀ (req : Clf α → Request α) (op : String), (∀ m, (req m).objective = m.objective ∧ (req m).numClass = m.numClass) → X.r = y.r → y.c = 1 →
      ((m.fitBody toInt iter train req X y).1, (m.fitBody toInt iter train req X y).2.recovered op) = (m', Outcome.ok ()) → Knows toInt train X y m' := by
    intro req op hreq h1 h2 h
    obtain ⟨b1, b2, b3, -⟩ := fitBody_inv toInt iter train req hreq m X y
    obtain ⟨e1, e2⟩ := Prod.mk.inj h
    obtain ⟨c1, c2, r, model, c3, c4, c5⟩ := b3 op e2
    rw [e1] at b1 c1 c2 c5
    obtain ⟨d1, d2⟩ := extractClasses_spec toInt hi y
    refine ⟨h1, h2, b1 ▸ d1, fun c => by rw [b1]; exact d2 c, c1, c2, r, model, by rw [b1]; exact c3, c4, c5⟩
  cases h with
  | fit h =>
    unfold Clf.fit at h
    by_cases h1 : X.r ≠ y.r
    · rw [if_pos h1] at h; cases h
    rw [if_neg h1] at h
    by_cases h2 : y.c ≠ 1
    · rw [if_pos h2] at h; cases h
    rw [if_neg h2] at h
    exact key _ _ (fun m => ⟨rfl, rfl⟩) (not_not.1 h1) (not_not.1 h2) h
  | weighted w h =>
    unfold Clf.fitWeighted at h
    by_cases h1 : X.r ≠ y.r
    · rw [if_pos h1] at h; cases h
    rw [if_neg h1] at h
    by_cases h2 : y.c ≠ 1
    · rw [if_pos h2] at h; cases h
    rw [if_neg h2] at h
    by_cases h3 : w.isSome ∧ (w.getD []).length ≠ X.r
    · rw [if_pos h3] at h; cases h
    rw [if_neg h3] at h
    exact key _ _ (fun m => ⟨rfl, rfl⟩) (not_not.1 h1) (not_not.1 h2) h
  | init s w h =>
    unfold Clf.fitWithInit at h
    by_cases h1 : X.r ≠ y.r
    · rw [if_pos h1] at h; cases h
    rw [if_neg h1] at h
    by_cases h2 : y.c ≠ 1
    · rw [if_pos h2] at h; cases h
    rw [if_neg h2] at h
    by_cases h3 : w.isSome ∧ (w.getD []).length ≠ X.r
    · rw [if_pos h3] at h; cases h
    rw [if_neg h3] at h
    exact key _ _ (fun m => ⟨rfl, rfl⟩) (not_not.1 h1) (not_not.1 h2) h

/-! ## A call of `Fit` that fails -/

/-- **C161**, what holds (law-free): a training that returns an error leaves the stored model, the fitted mark and the options as they were; if an
argument was rejected (rows of `X` and `y` differ, `y` has other than one column, wrong number of weights) nothing at all changes. Missing: the
classes, the objective and the expected width, see `one_class_refit_changes_predictions`. -/
theorem failed_fit_keeps_model_partial (c : α) (toInt : α → Int) (iter : List Int → List Int)
    (train : Request α → Mat α → Mat α → Outcome (LGB.Model α)) (m : Clf α) (X y : Mat α) (m' : Clf α) (o : Outcome Unit)
    (h : TrainedBy c toInt iter train m X y m' o) (ho : o ≠ .ok ()) :
    m'.model = m.model ∧ m'.fitted = m.fitted ∧ m'.opts = m.opts ∧ (∀ e, o ≠ .panic e) ∧
    (X.r ≠ y.r ∨ y.c ≠ 1 → m' = m ∧ ∃ a b x, o = .err (.dimension a b x)) ∧
    (∀ w, w.length ≠ X.r → (m.fitWeighted c toInt iter train X y (some w)).1 = m ∧ ∀ s, (m.fitWithInit c toInt iter train X y s (some w)).1 = m) := by
  have hw : ∀ w : List α, w.length ≠ X.r → (m.fitWeighted c toInt iter train X y (some w)).1 = m ∧
      ∀ s, (m.fitWithInit c toInt iter train X y s (some w)).1 = m := by
    intro w hw
    have h3 : (some w).isSome ∧ ((some w).getD []).length ≠ X.r := ⟨rfl, hw⟩
    constructor
    · unfold Clf.fitWeighted
      by_cases h1 : X.r ≠ y.r
      · rw [if_pos h1]
      rw [if_neg h1]
      by_cases h2 : y.c ≠ 1
      · rw [if_pos h2]
      rw [if_neg h2, if_pos h3]
    · intro s
      unfold Clf.fitWithInit
      by_cases h1 : X.r ≠ y.r
      · rw [if_pos h1]
      rw [if_neg h1]
      by_cases h2 : y.c ≠ 1
      · rw [if_pos h2]
      rw [if_neg h2, if_pos h3]
  have key : ∀ (req : Clf α → Request α) (op : String), (∀ m, (req m).objective = m.objective ∧ (req m).numClass = m.numClass) → ¬ (X.r ≠ y.r) → ¬ (y.c ≠ 1) →
      ((m.fitBody toInt iter train req X y).1, (m.fitBody toInt iter train req X y).2.recovered op) = (m', o) →
      m'.model = m.model ∧ m'.fitted = m.fitted ∧ m'.opts = m.opts ∧ (∀ e, o ≠ .panic e) ∧
        (X.r ≠ y.r ∨ y.c ≠ 1 → m' = m ∧ ∃ a b x, o = .err (.dimension a b x)) := by
    intro req op hreq h1 h2 h
    obtain ⟨b1, b2, b3, b4⟩ := fitBody_inv toInt iter train req hreq m X y
    obtain ⟨e1, e2⟩ := Prod.mk.inj h
    obtain ⟨c1, c2⟩ := b4 op (by rw [e2]; exact ho)
    rw [e1] at c1 c2 b2
    refine ⟨c1, c2, b2, ?_, fun hh => absurd hh (not_or.2 ⟨h1, h2⟩)⟩
    intro e he
    rw [he] at e2
    cases hb : (m.fitBody toInt iter train req X y).2 with
    | ok u => rw [hb] at e2; cases e2
    | err u => rw [hb] at e2; cases e2
    | panic u => rw [hb] at e2; cases e2
  have reject : ∀ (a b : Int) (x : Nat), ((m, Outcome.err (GoErr.dimension a b x)) : Clf α × Outcome Unit) = (m', o) → m'.model = m.model ∧ m'.fitted = m.fitted ∧ m'.opts = m.opts ∧
      (∀ e, o ≠ .panic e) ∧ (X.r ≠ y.r ∨ y.c ≠ 1 → m' = m ∧ ∃ a b x, o = .err (.dimension a b x)) := by
    intro a b x h
    obtain ⟨rfl, rfl⟩ := Prod.mk.inj h
    refine ⟨rfl, rfl, rfl, ?_, fun _ => ⟨rfl, a, b, x, rfl⟩⟩
    intro e he
    cases he
  suffices hs : m'.model = m.model ∧ m'.fitted = m.fitted ∧ m'.opts = m.opts ∧ (∀ e, o ≠ .panic e) ∧
      (X.r ≠ y.r ∨ y.c ≠ 1 → m' = m ∧ ∃ a b x, o = .err (.dimension a b x)) from
    ⟨hs.1, hs.2.1, hs.2.2.1, hs.2.2.2.1, hs.2.2.2.2, hw⟩
  cases h with
  | fit h =>
    unfold Clf.fit at h
    by_cases h1 : X.r ≠ y.r
    · rw [if_pos h1] at h; exact reject _ _ _ h
    rw [if_neg h1] at h
    by_cases h2 : y.c ≠ 1
    · rw [if_pos h2] at h; exact reject _ _ _ h
    rw [if_neg h2] at h
    exact key _ _ (fun m => ⟨rfl, rfl⟩) h1 h2 h
  | weighted w h =>
    unfold Clf.fitWeighted at h
    by_cases h1 : X.r ≠ y.r
    · rw [if_pos h1] at h; exact reject _ _ _ h
    rw [if_neg h1] at h
    by_cases h2 : y.c ≠ 1
    · rw [if_pos h2] at h; exact reject _ _ _ h
    rw [if_neg h2] at h
    by_cases h3 : w.isSome ∧ (w.getD []).length ≠ X.r
    · rw [if_pos h3] at h; exact reject _ _ _ h
    rw [if_neg h3] at h
    exact key _ _ (fun m => ⟨rfl, rfl⟩) h1 h2 h
  | init s w h =>
    unfold Clf.fitWithInit at h
    by_cases h1 : X.r ≠ y.r
    · rw [if_pos h1] at h; exact reject _ _ _ h
    rw [if_neg h1] at h
    by_cases h2 : y.c ≠ 1
    · rw [if_pos h2] at h; exact reject _ _ _ h
    rw [if_neg h2] at h
    by_cases h3 : w.isSome ∧ (w.getD []).length ≠ X.r
    · rw [if_pos h3] at h; exact reject _ _ _ h
    rw [if_neg h3] at h
    exact key _ _ (fun m => ⟨rfl, rfl⟩) h1 h2 h

end

/-! ## Labels -/

section predict
variable [BEq α] [LE α] [DecidableLE α] [LT α] [DecidableLT α] [Zero α] [One α] [Add α] [Sub α] [Neg α] [Mul α] [Div α]

theorem pickClass_ok {cs : List Int} {ps : List α} {best : α} {c0 c : Int} (h : pickClass cs ps best c0 = .ok c) : c ∈ cs ∨ c = c0 := by
  induction cs generalizing ps best c0 with
  | nil => cases h; exact Or.inr rfl
  | cons k ks ih =>
    cases ps with
    | nil => cases h
    | cons p ps =>
      rw [pickClass] at h
      split_ifs at h
      · rcases ih h with h | h
        · exact Or.inl (List.mem_cons_of_mem _ h)
        · exact Or.inl (h ▸ List.mem_cons_self ..)
      · rcases ih h with h | h
        · exact Or.inl (List.mem_cons_of_mem _ h)
        · exact Or.inr h

theorem pickClass_length {cs : List Int} {ps : List α} {best : α} {c0 c : Int} (h : pickClass cs ps best c0 = .ok c) : cs.length ≤ ps.length := by
  induction cs generalizing ps best c0 with
  | nil => simp
  | cons k ks ih =>
    cases ps with
    | nil => cases h
    | cons p ps =>
      rw [pickClass] at h
      split_ifs at h
      · simpa using ih h
      · simpa using ih h

theorem labelsOf_ok {half : α} {classes : List Int} {rows : List (List α)} {ls : List Int} (h : labelsOf half classes rows = .ok ls) :
    ls.length = rows.length ∧ ∀ (i : Nat) r, rows[i]? = some r → ∃ c, ls[i]? = some c ∧ labelOf half classes r = .ok c := by
  induction rows generalizing ls with
  | nil => cases h; exact ⟨rfl, fun i r h => by simp at h⟩
  | cons r rs ih =>
    rw [labelsOf] at h
    obtain ⟨c, h1, h⟩ := bind_ok_inv h
    obtain ⟨cs, h2, h⟩ := bind_ok_inv h
    cases h
    obtain ⟨e1, e2⟩ := ih h2
    refine ⟨by simp [e1], fun i r' hr => ?_⟩
    cases i with
    | zero => cases hr; exact ⟨c, rfl, h1⟩
    | succ i => exact e2 i r' hr

theorem rowsOf_get (P : Mat α) (i : Nat) (hi : i < P.r) : (rowsOf P)[i]? = some (P.row i) := by
  unfold rowsOf
  rw [List.getElem?_map, List.getElem?_range hi]
  rfl

/-- inverting `Predict` -/
theorem predict_ok {N : ENum α} {half : α} {m : Clf α} {X : Mat α} {ls : List Int} (h : m.predict N half X = .ok ls) :
    m.fitted = true ∧ (X.c : Int) = m.nFeatures ∧ ∃ P, m.predictProba N X = .ok P ∧ ls.length = P.r ∧
      ∀ i < P.r, ∃ c, ls[i]? = some c ∧ labelOf half m.classes (P.row i) = .ok c := by
  unfold Clf.predict at h
  by_cases h1 : m.fitted = false
  · rw [if_pos h1] at h; cases h
  rw [if_neg h1] at h
  by_cases h2 : (X.c : Int) ≠ m.nFeatures
  · rw [if_pos h2] at h; cases h
  rw [if_neg h2] at h
  obtain ⟨P, h3, h⟩ := bind_ok_inv h
  obtain ⟨e1, e2⟩ := labelsOf_ok h
  refine ⟨by simpa using h1, not_not.1 h2, P, h3, by rw [e1]; simp [rowsOf], fun i hi => e2 i _ (rowsOf_get P i hi)⟩

/-- inverting `PredictProba` -/
theorem predictProba_ok {N : ENum α} {m : Clf α} {X P : Mat α} (h : m.predictProba N X = .ok P) :
    ∃ model, m.model = some model ∧ predictorProba N model X = .ok P := by
  unfold Clf.predictProba at h
  by_cases h1 : m.fitted = false
  · rw [if_pos h1] at h; cases h
  rw [if_neg h1] at h
  by_cases h2 : (X.c : Int) ≠ m.nFeatures
  · rw [if_pos h2] at h; cases h
  rw [if_neg h2] at h
  cases hm : m.model with
  | none => rw [hm] at h; cases h
  | some model => rw [hm] at h; exact ⟨model, rfl, h⟩

theorem proba_rows {N : ENum α} {model : LGB.Model α} {X P : Mat α} (h : predictorProba N model X = .ok P) : P.r = X.r := by
  unfold predictorProba at h
  obtain ⟨Q, h1, h⟩ := bind_ok_inv h
  have hq := (LGB.batch_ok h1).2.2.1
  split_ifs at h <;> cases h <;> exact hq

theorem labelOf_mem {half : α} {cs : List Int} {row : List α} {c : Int} (h : labelOf half cs row = .ok c) : c ∈ cs ∨ (cs.length ≠ 2 ∧ c = 0) := by
  unfold labelOf at h
  split at h
  · next c0 c1 =>
    split at h
    · cases h
    · cases h
      split_ifs <;> simp
  · next hne =>
    rcases pickClass_ok h with h | h
    · exact Or.inl h
    · refine Or.inr ⟨fun hl => ?_, h⟩
      obtain ⟨a, b, rfl⟩ := List.length_eq_two.1 hl
      exact hne a b rfl

/-- **C160** (law-free): one label per row; with two classes every label is one of the two, with more it is one of the classes or 0. -/
theorem predicts_known_classes (N : ENum α) (half : α) (m : Clf α) (X : Mat α) (ls : List Int) (h : m.predict N half X = .ok ls) :
    ls.length = X.r ∧ ∀ c ∈ ls, c ∈ m.classes ∨ (m.classes.length ≠ 2 ∧ c = 0) := by
  obtain ⟨-, -, P, h1, h2, h3⟩ := predict_ok h
  obtain ⟨model, -, h4⟩ := predictProba_ok h1
  refine ⟨h2.trans (proba_rows h4), fun c hc => ?_⟩
  obtain ⟨i, hi, rfl⟩ := List.mem_iff_getElem.1 hc
  obtain ⟨c, e1, e2⟩ := h3 i (h2 ▸ hi)
  rw [List.getElem?_eq_getElem hi] at e1
  cases e1
  exact labelOf_mem e2

end predict

/-! ## Agreement of `Predict` and `PredictProba` -/

section order
variable [LinearOrder α] [Zero α] [One α] [Add α] [Sub α] [Neg α] [Mul α] [Div α]

/-- `c` is the class of the first largest probability of `row` -/
def FirstBest (classes : List Int) (row : List α) (c : Int) : Prop :=
  ∃ (j : Nat) (p : α), classes[j]? = some c ∧ row[j]? = some p ∧ (∀ (k : Nat) q, k < classes.length → row[k]? = some q → q ≤ p) ∧
    ∀ (k : Nat) q, k < j → row[k]? = some q → q < p

theorem pickClass_best {cs : List Int} {ps : List α} {best : α} {c0 c : Int} (h : pickClass cs ps best c0 = .ok c) :
    (∀ (k : Nat) q, k < cs.length → ps[k]? = some q → q ≤ best) ∧ c = c0 ∨ (∃ p, (∃ j : Nat, cs[j]? = some c ∧ ps[j]? = some p ∧ best < p ∧
      (∀ (k : Nat) q, k < cs.length → ps[k]? = some q → q ≤ p) ∧ ∀ (k : Nat) q, k < j → ps[k]? = some q → q < p)) := by
  induction cs generalizing ps best c0 with
  | nil => cases h; exact Or.inl ⟨fun k q hk => by simp at hk, rfl⟩
  | cons a ks ih =>
    cases ps with
    | nil => cases h
    | cons p ps =>
      rw [pickClass] at h
      by_cases hb : best < p
      · rw [if_pos hb] at h
        rcases ih h with ⟨h1, rfl⟩ | ⟨p', j, e1, e2, e3, e4, e5⟩
        · refine Or.inr ⟨p, 0, rfl, rfl, hb, fun k q hk hq => ?_, fun k q hk => by omega⟩
          cases k with
          | zero => cases hq; exact le_rfl
          | succ k => exact h1 k q (by simpa using hk) hq
        · refine Or.inr ⟨p', j + 1, e1, e2, hb.trans e3, fun k q hk hq => ?_, fun k q hk hq => ?_⟩
          · cases k with
            | zero => cases hq; exact e3.le
            | succ k => exact e4 k q (by simpa using hk) hq
          · cases k with
            | zero => cases hq; exact e3
            | succ k => exact e5 k q (by omega) hq
      · rw [if_neg hb] at h
        have hb := not_lt.1 hb
        rcases ih h with ⟨h1, rfl⟩ | ⟨p', j, e1, e2, e3, e4, e5⟩
        · refine Or.inl ⟨fun k q hk hq => ?_, rfl⟩
          cases k with
          | zero => cases hq; exact hb
          | succ k => exact h1 k q (by simpa using hk) hq
        · refine Or.inr ⟨p', j + 1, e1, e2, e3, fun k q hk hq => ?_, fun k q hk hq => ?_⟩
          · cases k with
            | zero => cases hq; exact hb.trans e3.le
            | succ k => exact e4 k q (by simpa using hk) hq
          · cases k with
            | zero => cases hq; exact hb.trans_lt e3
            | succ k => exact e5 k q (by omega) hq

theorem row_get (P : Mat α) (i j : Nat) (hj : j < P.c) : (P.row i)[j]? = some (P.at' i j) := by
  unfold Mat.row
  rw [List.getElem?_map, List.getElem?_range hj]
  rfl

theorem row_length (P : Mat α) (i : Nat) : (P.row i).length = P.c := by simp [Mat.row]

theorem labelOf_two {half : α} {cs : List Int} {row : List α} {c : Int} (h : labelOf half cs row = .ok c) :
    cs.length ≤ row.length ∧ (∀ c0 c1, cs = [c0, c1] → ∃ p, row[1]? = some p ∧ c = if half ≤ p then c1 else c0) ∧
    (cs.length ≠ 2 → pickClass cs row 0 0 = .ok c) := by
  unfold labelOf at h
  split at h
  · next c0 c1 =>
    split at h
    · cases h
    · next p hp =>
      cases h
      obtain ⟨hlt, -⟩ := List.getElem?_eq_some_iff.1 hp
      refine ⟨hlt, ?_, fun h => absurd rfl h⟩
      rintro a b e
      cases e
      exact ⟨p, hp, rfl⟩
  · next hne =>
    exact ⟨pickClass_length h, fun a b e => absurd e (hne a b), fun _ => h⟩

/-- **C162** (law-free, any linear order): the labels of `Predict` follow from the matrix of `PredictProba`. With two classes the larger one is
returned exactly if its probability is at least `half`. With more classes and a positive probability in the row the first most probable class is
returned. -/
theorem predict_follows_proba (N : ENum α) (half : α) (m : Clf α) (X : Mat α) (ls : List Int) (h : m.predict N half X = .ok ls) :
    ∃ P, m.predictProba N X = .ok P ∧ P.r = X.r ∧ m.classes.length ≤ P.c ∧ ls.length = P.r ∧ ∀ i < P.r, ∃ c, ls[i]? = some c ∧
      (∀ c0 c1, m.classes = [c0, c1] → c = if half ≤ P.at' i 1 then c1 else c0) ∧
      (m.classes.length ≠ 2 → (∃ j < m.classes.length, 0 < P.at' i j) → FirstBest m.classes (P.row i) c) ∧
      (m.classes.length ≠ 2 → (∀ j < m.classes.length, P.at' i j ≤ 0) → c = 0) := by
  obtain ⟨-, -, P, h1, h2, h3⟩ := predict_ok h
  obtain ⟨model, -, h4⟩ := predictProba_ok h1
  have hX : P.r ≠ 0 := by
    rw [proba_rows h4]
    obtain ⟨Q, hq, -⟩ := bind_ok_inv h4
    exact (LGB.batch_ok hq).2.1
  have hcols : m.classes.length ≤ P.c := by
    obtain ⟨c, -, e⟩ := h3 0 (Nat.pos_of_ne_zero hX)
    rw [← row_length P 0]
    exact (labelOf_two e).1
  refine ⟨P, h1, proba_rows h4, hcols, h2, fun i hi => ?_⟩
  obtain ⟨c, e1, e2⟩ := h3 i hi
  obtain ⟨-, e4, e5⟩ := labelOf_two e2
  refine ⟨c, e1, fun c0 c1 hc => ?_, fun hne ⟨j, hj, hp⟩ => ?_, fun hne hall => ?_⟩
  · obtain ⟨p, hp, hc'⟩ := e4 c0 c1 hc
    have : 1 < P.c := by rw [hc] at hcols; exact hcols
    rw [row_get P i 1 this] at hp
    cases hp
    exact hc'
  · rcases pickClass_best (e5 hne) with ⟨h1, -⟩ | ⟨p, j', f1, f2, -, f3, f4⟩
    · exact absurd hp (not_lt.2 (h1 j _ hj (row_get P i j (by omega))))
    · exact ⟨j', p, f1, f2, f3, f4⟩
  · rcases pickClass_best (e5 hne) with ⟨-, h1⟩ | ⟨p, j', f1, f2, f0, f3, f4⟩
    · exact h1
    · obtain ⟨hj, -⟩ := List.getElem?_eq_some_iff.1 f1
      rw [row_get P i j' (by omega)] at f2
      cases f2
      exact absurd f0 (not_lt.2 (hall j' hj))

/-- **C162** (law-free): `PredictLogProba` has the shape of `PredictProba`, its entries are the logarithms of the positive probabilities and
minus infinity elsewhere; it fails exactly as `PredictProba` does. -/
theorem log_proba_of_proba (N : ENum α) (log : α → α) (ninf : α) (m : Clf α) (X : Mat α) :
    (∀ P, m.predictProba N X = .ok P → ∃ L, m.predictLogProba N log ninf X = .ok L ∧ L.r = P.r ∧ L.c = P.c ∧
      ∀ i j, (0 < P.at' i j → L.at' i j = log (P.at' i j)) ∧ (P.at' i j ≤ 0 → L.at' i j = ninf)) ∧
    (∀ e, m.predictProba N X = .err e → m.predictLogProba N log ninf X = .err e) ∧
    (∀ e, m.predictProba N X = .panic e → m.predictLogProba N log ninf X = .panic e) := by
  refine ⟨fun P h => ⟨⟨P.r, P.c, fun i j => if P.at' i j ≤ 0 then ninf else log (P.at' i j)⟩, ?_, rfl, rfl, fun i j => ⟨fun hp => ?_, fun hp => ?_⟩⟩,
    fun e h => ?_, fun e h => ?_⟩
  · unfold Clf.predictLogProba
    rw [h, Outcome.bind_ok]
  · exact if_neg (not_le.2 hp)
  · exact if_pos hp
  · unfold Clf.predictLogProba
    rw [h, Outcome.bind_err]
  · unfold Clf.predictLogProba
    rw [h, Outcome.bind_panic]

end order

/-! ## One class -/

section oneclass
variable [BEq α] [LE α] [DecidableLE α] [LT α] [DecidableLT α] [Zero α] [One α] [Add α] [Sub α] [Neg α] [Mul α] [Div α]

theorem extractClasses_one (toInt : α → Int) {iter : List Int → List Int} (hi : MapKeys iter) (y : Mat α) (k : Int) (hr : 0 < y.r)
    (hy : ∀ i < y.r, toInt (y.at' i 0) = k) : extractClasses toInt iter y = [k] := by
  obtain ⟨h1, h2⟩ := extractClasses_spec toInt hi y
  have hk : k ∈ extractClasses toInt iter y := (h2 k).2 ⟨0, hr, hy 0 hr⟩
  have hall : ∀ c ∈ extractClasses toInt iter y, c = k := by
    intro c hc
    obtain ⟨i, hi, e⟩ := (h2 c).1 hc
    rw [← e, hy i hi]
  match hl : extractClasses toInt iter y with
  | [] => rw [hl] at hk; cases hk
  | [a] => rw [hall a (by rw [hl]; simp)]
  | a :: b :: l =>
    rw [hl] at h1 hall
    have e1 := hall a (by simp)
    have e2 := hall b (by simp)
    have := (List.pairwise_cons.1 h1).1 b (by simp)
    omega

/-- **C161** is false (law-free): on a classifier that is already trained, a further `Fit` on labels that are all the same returns an error, but
afterwards every prediction is that one label (or 0): the earlier model is kept and its classes are lost. -/
theorem one_class_refit_changes_predictions (c : α) (toInt : α → Int) {iter : List Int → List Int} (hi : MapKeys iter)
    (train : Request α → Mat α → Mat α → Outcome (LGB.Model α)) (m : Clf α) (X y : Mat α) (k : Int) (hr : 0 < y.r) (hX : X.r = y.r) (hc : y.c = 1)
    (hy : ∀ i < y.r, toInt (y.at' i 0) = k) :
    ∃ m' e, m.fit c toInt iter train X y = (m', .err e) ∧ m'.model = m.model ∧ m'.nFeatures = m.nFeatures ∧ m'.fitted = m.fitted ∧
      ∀ (N : ENum α) (half : α) (Z : Mat α) (ls : List Int), m'.predict N half Z = .ok ls → ∀ l ∈ ls, l = k ∨ l = 0 := by
  have he := extractClasses_one toInt hi y k hr hy
  refine ⟨{ m with classes := [k] }, .other "invalid number of classes", ?_, rfl, rfl, rfl, fun N half Z ls h l hl => ?_⟩
  · unfold Clf.fit
    rw [if_neg (not_not.2 hX), if_neg (not_not.2 hc)]
    unfold Clf.fitBody
    rw [he]
    rfl
  · rcases (predicts_known_classes N half _ Z ls h).2 l hl with h | h
    · exact Or.inl (by simpa using h)
    · exact Or.inr h.2

end oneclass
end Scigo.Wrapper
