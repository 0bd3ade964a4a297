import Mathlib.Analysis.SpecialFunctions.Exp
import Mathlib.Tactic.FieldSimp
import Mathlib.Tactic.Ring
import Mathlib.Tactic.NormNum
import Mathlib.Tactic.Linarith
import Verif.LGB.LeavesProps
import Mathlib.Algebra.Field.Rat
import Mathlib.Tactic.NormNum

/-!
# The predictor of loaded models (C95)
-/

set_option linter.unusedSectionVars false

namespace Scigo.LGB

variable {α : Type _} [BEq α] [LE α] [DecidableLE α] [LT α] [DecidableLT α] [Zero α] [Neg α] [Add α] [Sub α]
  [One α] [Div α]

/-- the raw scores of one row in `PredictBatch` -/
def LModel.rowAcc (L : LNum α) (m : LModel α) (x : List α) :
    List (Nat × LTree α) → List α → Outcome (List α)
  | [], acc => .ok acc
  | (i, t) :: rest, acc =>
    (t.predict L.toInt L.zero x).bind fun v =>
      let k := if 2 < m.numClass then i % m.numClass.toNat else 0
      m.rowAcc L x rest (acc.set k (acc.getD k 0 + v))

/-- the value of a successful call -/
def okD {β : Type _} (d : β) : Outcome β → β
  | .ok v => v
  | _ => d

theorem rowAcc_multi (L : LNum α) (m : LModel α) (x : List α) (h : 2 < m.numClass) (ts : List (Nat × LTree α))
    (acc : List α) : m.rowAcc L x ts acc = m.accumulate L x ts acc := by
  induction ts generalizing acc with
  | nil => rfl
  | cons p ts ih =>
    obtain ⟨i, t⟩ := p
    unfold LModel.rowAcc LModel.accumulate
    simp only [h, if_true, ih]

theorem rowAcc_single (L : LNum α) (m : LModel α) (x : List α) (h : ¬ 2 < m.numClass) (ts : List (Nat × LTree α))
    (acc : α) : m.rowAcc L x ts [acc] = (sumTrees L x (ts.map Prod.snd) acc).map fun s => [s] := by
  induction ts generalizing acc with
  | nil => rfl
  | cons p ts ih =>
    obtain ⟨i, t⟩ := p
    unfold LModel.rowAcc
    simp only [List.map_cons, sumTrees]
    cases t.predict L.toInt L.zero x with
    | ok v => simp [h, ih]
    | err e => rfl
    | panic e => rfl

theorem batchTree_ok (L : LNum α) (m : LModel α) (i : Nat) (t : LTree α) (rows : List (List α × List α))
    (h : ∀ p ∈ rows, ∃ v, t.predict L.toInt L.zero p.1 = .ok v) :
    m.batchTree L i t rows = .ok (rows.map fun p =>
      let k := if 2 < m.numClass then i % m.numClass.toNat else 0
      (p.1, p.2.set k (p.2.getD k 0 + okD 0 (t.predict L.toInt L.zero p.1)))) := by
  induction rows with
  | nil => rfl
  | cons p rows ih =>
    obtain ⟨x, raw⟩ := p
    obtain ⟨v, hv⟩ := h (x, raw) List.mem_cons_self
    unfold LModel.batchTree
    simp only at hv
    rw [hv]
    simp only [Outcome.bind_ok]
    rw [ih (fun p hp => h p (List.mem_cons_of_mem _ hp))]
    simp [okD, hv]

theorem batchTrees_ok (L : LNum α) (m : LModel α) (ts : List (Nat × LTree α)) (rows : List (List α × List α))
    (h : ∀ p ∈ rows, ∃ r, m.rowAcc L p.1 ts p.2 = .ok r) :
    m.batchTrees L ts rows = .ok (rows.map fun p => (p.1, okD [] (m.rowAcc L p.1 ts p.2))) := by
  induction ts generalizing rows with
  | nil => simp [LModel.batchTrees, LModel.rowAcc, okD]
  | cons q ts ih =>
    obtain ⟨i, t⟩ := q
    have hv : ∀ p ∈ rows, ∃ v, t.predict L.toInt L.zero p.1 = .ok v := by
      intro p hp
      obtain ⟨r, hr⟩ := h p hp
      unfold LModel.rowAcc at hr
      cases hc : t.predict L.toInt L.zero p.1 with
      | ok v => exact ⟨v, rfl⟩
      | err e => rw [hc] at hr; simp at hr
      | panic e => rw [hc] at hr; simp at hr
    unfold LModel.batchTrees
    rw [batchTree_ok L m i t rows hv]
    simp only [Outcome.bind_ok]
    have hrow : ∀ p ∈ rows, m.rowAcc L p.1 ((i, t) :: ts) p.2 = m.rowAcc L p.1 ts
        (p.2.set (if 2 < m.numClass then i % m.numClass.toNat else 0)
          (p.2.getD (if 2 < m.numClass then i % m.numClass.toNat else 0) 0 +
            okD 0 (t.predict L.toInt L.zero p.1))) := by
      intro p hp
      obtain ⟨v, hv⟩ := hv p hp
      conv_lhs => unfold LModel.rowAcc
      rw [hv]
      rfl
    rw [ih]
    · rw [List.map_map]
      congr 1
      apply List.map_congr_left
      intro p hp
      simp only [Function.comp]
      rw [← hrow p hp]
    · intro p hp
      rw [List.mem_map] at hp
      obtain ⟨p', hp', rfl⟩ := hp
      obtain ⟨r, hr⟩ := h p' hp'
      exact ⟨r, by rw [← hr, hrow p' hp']⟩

theorem mapIdx_snd (ts : List (LTree α)) : (ts.mapIdx fun i t => (i, t)).map Prod.snd = ts := by
  apply List.ext_getElem? 
  intro i
  simp only [List.getElem?_map, List.getElem?_mapIdx]
  cases ts[i]? <;> rfl

/-- C95: `PredictBatch` gives every row the link of its `PredictRaw` scores. -/
theorem leaves_batch_eq_link_raw (L : LNum α) (m : LModel α) (rows : List (List α))
    (raw : List α → List α) (h : ∀ x ∈ rows, m.predictRaw L x = .ok (raw x)) :
    m.predictBatch L rows = .ok (rows.map fun x => m.batchLink L (raw x)) := by
  have hrow : ∀ x, m.predictRaw L x = m.rowAcc L x (m.trees.mapIdx fun i t => (i, t))
      (List.replicate (if 2 < m.numClass then m.numClass.toNat else 1) m.initScore) := by
    intro x
    unfold LModel.predictRaw
    split_ifs with hc
    · rw [rowAcc_multi L m x hc]
    · rw [show List.replicate 1 m.initScore = [m.initScore] from rfl, rowAcc_single L m x hc, mapIdx_snd]
  unfold LModel.predictBatch
  simp only
  rw [batchTrees_ok]
  · simp only [Outcome.map_ok, List.map_map]
    congr 1
    apply List.map_congr_left
    intro x hx
    simp only [Function.comp]
    rw [← hrow x, h x hx]
    rfl
  · intro p hp
    rw [List.mem_map] at hp
    obtain ⟨x, hx, rfl⟩ := hp
    exact ⟨raw x, by rw [← hrow x, h x hx]⟩

/-- C95, the part that holds: without an initial score, or with more than two classes, predicting one
sample and predicting a batch agree. Missing: models with an initial score
(`leaves_single_ignores_init_score`). -/
theorem leaves_single_eq_batch_partial (L : LNum α) (m : LModel α) (rows : List (List α))
    (hm : 2 < m.numClass ∨ m.initScore = 0)
    (raw : List α → List α) (h : ∀ x ∈ rows, m.predictRaw L x = .ok (raw x)) :
    ∃ out : List α → List α, m.predictBatch L rows = .ok (rows.map out) ∧
      ∀ x ∈ rows, m.predictSingle L x = .ok (out x) := by
  refine ⟨fun x => m.batchLink L (raw x), leaves_batch_eq_link_raw L m rows raw h, ?_⟩
  intro x hx
  have := h x hx
  unfold LModel.predictRaw at this
  unfold LModel.predictSingle LModel.batchLink
  by_cases hc : 2 < m.numClass
  · simp only [if_pos hc] at this ⊢
    rw [this]
    rfl
  · simp only [if_neg hc] at this ⊢
    rcases hm with hm | hm
    · exact absurd hm hc
    · rw [hm] at this
      cases hs : sumTrees L x m.trees 0 with
      | ok v =>
        rw [hs] at this
        simp only [Outcome.map_ok] at this ⊢
        injection this with this
        rw [← this]
        rfl
      | err e => rw [hs] at this; simp [Outcome.map] at this
      | panic e => rw [hs] at this; simp [Outcome.map] at this

/-- exact numbers for the examples -/
def ratLNum : LNum ℚ := ⟨Rat.floor, 0, fun _ => 1, 500⟩

/-- a regression model with one constant tree, as loaded from a file whose first tree has internal
value 1/2 -/
def initModel : LModel ℚ := ⟨[⟨[], [3], 1 / 2⟩], 1, "regression", 1 / 2, 1⟩

/-- C95 is false: `PredictSingle` (and `Predict`, which calls it) leaves the initial score out, `PredictBatch`
adds it. -/
theorem leaves_single_ignores_init_score :
    initModel.predictSingle ratLNum [0] = .ok [3] ∧ initModel.predictBatch ratLNum [[0]] = .ok [[7 / 2]] := by
  constructor <;> decide +kernel

/-- the same model without initial score meets the condition -/
example : ∃ out : List ℚ → List ℚ,
    ({ initModel with initScore := 0 } : LModel ℚ).predictBatch ratLNum [[0], [5]] = .ok ([[0], [5]].map out) ∧
    ∀ x ∈ [[0], [5]], ({ initModel with initScore := 0 } : LModel ℚ).predictSingle ratLNum x = .ok (out x) :=
  leaves_single_eq_batch_partial _ _ _ (Or.inr rfl) (fun _ => [3]) (by
    intro x hx
    simp only [List.mem_cons, List.not_mem_nil, or_false] at hx
    rcases hx with rfl | rfl <;> decide +kernel)

end Scigo.LGB

namespace Scigo.LGB

/-- **C95** (exact arithmetic): the probability of a loaded binary model is the logistic function of the score; scores beyond ±500 count as certain. -/
theorem leaves_sigmoid_real (L : LNum ℝ) (hL : L.exp = Real.exp) (h5 : 0 ≤ L.c500) (x : ℝ) :
    (-L.c500 ≤ x → x ≤ L.c500 → leavesSigmoid L x = 1 / (1 + Real.exp (-x)) ∧ leavesSigmoid L (-x) = 1 - leavesSigmoid L x) ∧
    (L.c500 < x → leavesSigmoid L x = 1) ∧ (x < -L.c500 → leavesSigmoid L x = 0) := by
  have val : ∀ x : ℝ, -L.c500 ≤ x → x ≤ L.c500 → leavesSigmoid L x = 1 / (1 + Real.exp (-x)) := by
    intro x h1 h2
    unfold leavesSigmoid
    rw [if_neg (not_lt.2 h2), if_neg (not_lt.2 h1), hL]
    split_ifs
    · rfl
    · have p := Real.exp_pos x
      rw [Real.exp_neg]
      field_simp
      ring
  refine ⟨fun h1 h2 => ⟨val x h1 h2, ?_⟩, fun h => ?_, fun h => ?_⟩
  · rw [val x h1 h2, val (-x) (by linarith) (by linarith), neg_neg, Real.exp_neg]
    have p := Real.exp_pos x
    field_simp
    ring
  · unfold leavesSigmoid
    rw [if_pos h]
  · unfold leavesSigmoid
    rw [if_neg (not_lt.2 (by linarith)), if_pos h]

/-- a loaded model with the limits of the code -/
example : leavesSigmoid (⟨fun _ => 0, 0, Real.exp, 500⟩ : LNum ℝ) 0 = 1 / 2 := by
  rw [((leaves_sigmoid_real ⟨fun _ => 0, 0, Real.exp, 500⟩ rfl (by norm_num) 0).1 (by norm_num) (by norm_num)).1]
  norm_num

end Scigo.LGB
