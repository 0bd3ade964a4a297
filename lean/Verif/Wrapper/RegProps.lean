import Verif.Wrapper.ServeProps

/-!
# C168–C172: the regressor, quantiles, residuals and loading
-/

set_option linter.unusedSectionVars false

namespace Scigo.Wrapper

open Scigo.LGB (ENum RealENum Stores DTree)
open Scigo.Trainer (bind_ok_inv Config Problem St)

/-! ## Training the regressor -/

section train
variable {α : Type}

/-- `m'` and the outcome come from one of the three training methods of the regressor `m` -/
inductive RegTrained (c : α) (train : Request α → Mat α → Mat α → Outcome (LGB.Model α)) (m : Reg α) (X y : Mat α) : Reg α → Outcome Unit → Prop
  | fit {m' o} : m.fit c train X y = (m', o) → RegTrained c train m X y m' o
  | weighted {m' o} (w : Option (List α)) : m.fitWeighted c train X y w = (m', o) → RegTrained c train m X y m' o
  | init {m' o} (s : α) (w : Option (List α)) : m.fitWithInit c train X y s w = (m', o) → RegTrained c train m X y m' o

/-- what a training method leaves behind -/
structure RegAfter (train : Request α → Mat α → Mat α → Outcome (LGB.Model α)) (m : Reg α) (X y : Mat α) (m' : Reg α) (o : Outcome Unit) : Prop where
  opts : m'.opts = m.opts ∧ m'.ropts = m.ropts ∧ m'.objective = m.objective
  noPanic : ∀ e, o ≠ .panic e
  good : o = .ok () → X.r = y.r ∧ y.c = 1 ∧ m'.nFeatures = X.c ∧ m'.nSamples = X.r ∧ m'.fitted = true ∧
    ∃ r model, r.objective = m.objective ∧ r.numClass ≤ 1 ∧ train r X y = .ok model ∧ m'.model = some model
  bad : o ≠ .ok () → m'.model = m.model ∧ m'.fitted = m.fitted
  rejected : X.r ≠ y.r ∨ y.c ≠ 1 → m' = m ∧ ∃ a b x, o = .err (.dimension a b x)

theorem reg_after (c : α) (train : Request α → Mat α → Mat α → Outcome (LGB.Model α)) (m : Reg α) (X y : Mat α) (m' : Reg α) (o : Outcome Unit)
    (h : RegTrained c train m X y m' o) : RegAfter train m X y m' o := by
  have reject : ∀ (a b : Int) (x : Nat), ((m, Outcome.err (GoErr.dimension a b x)) : Reg α × Outcome Unit) = (m', o) → RegAfter train m X y m' o := by
    intro a b x h
    obtain ⟨rfl, rfl⟩ := Prod.mk.inj h
    refine ⟨⟨rfl, rfl, rfl⟩, ?_, ?_, fun _ => ⟨rfl, rfl⟩, fun _ => ⟨rfl, a, b, x, rfl⟩⟩
    · intro e he; cases he
    · intro he; cases he
  have key : ∀ (req : Reg α → Request α) (op : String), (∀ m, (req m).objective = m.objective ∧ (req m).numClass ≤ 1) → ¬ X.r ≠ y.r → ¬ y.c ≠ 1 →
      ((m.fitBody train req X y).1, (m.fitBody train req X y).2.recovered op) = (m', o) → RegAfter train m X y m' o := by
    intro req op hreq h1 h2 h
    obtain ⟨e1, e2⟩ := Prod.mk.inj h
    unfold Reg.fitBody at e1 e2
    simp only at e1 e2
    cases ht : train (req { m with nFeatures := X.c, nSamples := X.r }) X y with
    | ok model =>
      rw [ht] at e1 e2
      simp only at e1 e2
      rw [← e1, ← e2]
      refine ⟨⟨rfl, rfl, rfl⟩, ?_, fun _ => ⟨not_not.1 h1, not_not.1 h2, rfl, rfl, rfl, _, model, (hreq { m with nFeatures := X.c, nSamples := X.r }).1, (hreq _).2, ht, rfl⟩, fun hh => absurd rfl hh,
        fun hh => absurd hh (not_or.2 ⟨h1, h2⟩)⟩
      intro e he; cases he
    | err er =>
      rw [ht] at e1 e2
      simp only at e1 e2
      rw [← e1, ← e2]
      refine ⟨⟨rfl, rfl, rfl⟩, ?_, ?_, fun _ => ⟨rfl, rfl⟩, fun hh => absurd hh (not_or.2 ⟨h1, h2⟩)⟩
      · intro e he; cases he
      · intro he; cases he
    | panic er =>
      rw [ht] at e1 e2
      simp only at e1 e2
      rw [← e1, ← e2]
      refine ⟨⟨rfl, rfl, rfl⟩, ?_, ?_, fun _ => ⟨rfl, rfl⟩, fun hh => absurd hh (not_or.2 ⟨h1, h2⟩)⟩
      · intro e he; cases he
      · intro he; cases he
  cases h with
  | fit h =>
    unfold Reg.fit at h
    by_cases h1 : X.r ≠ y.r
    · rw [if_pos h1] at h; exact reject _ _ _ h
    rw [if_neg h1] at h
    by_cases h2 : y.c ≠ 1
    · rw [if_pos h2] at h; exact reject _ _ _ h
    rw [if_neg h2] at h
    exact key _ _ (fun m => ⟨rfl, le_refl (1 : Int)⟩) h1 h2 h
  | weighted w h =>
    unfold Reg.fitWeighted at h
    by_cases h1 : X.r ≠ y.r
    · rw [if_pos h1] at h; exact reject _ _ _ h
    rw [if_neg h1] at h
    by_cases h2 : y.c ≠ 1
    · rw [if_pos h2] at h; exact reject _ _ _ h
    rw [if_neg h2] at h
    by_cases h3 : w.isSome ∧ (w.getD []).length ≠ X.r
    · rw [if_pos h3] at h; exact reject _ _ _ h
    rw [if_neg h3] at h
    exact key _ _ (fun m => ⟨rfl, zero_le_one (α := Int)⟩) h1 h2 h
  | init s w h =>
    unfold Reg.fitWithInit at h
    by_cases h1 : X.r ≠ y.r
    · rw [if_pos h1] at h; exact reject _ _ _ h
    rw [if_neg h1] at h
    by_cases h2 : y.c ≠ 1
    · rw [if_pos h2] at h; exact reject _ _ _ h
    rw [if_neg h2] at h
    by_cases h3 : w.isSome ∧ (w.getD []).length ≠ X.r
    · rw [if_pos h3] at h; exact reject _ _ _ h
    rw [if_neg h3] at h
    exact key _ _ (fun m => ⟨rfl, zero_le_one (α := Int)⟩) h1 h2 h

/-- **C169**, what holds (law-free): a training of the regressor that returns an error leaves the stored model, the fitted mark and the options as they
were, and never panics; if an argument was rejected nothing changes. Missing: the expected number of columns, see `failed_refit_disables_regressor`. -/
theorem reg_failed_fit_keeps_model_partial (c : α) (train : Request α → Mat α → Mat α → Outcome (LGB.Model α)) (m : Reg α) (X y : Mat α) (m' : Reg α)
    (o : Outcome Unit) (h : RegTrained c train m X y m' o) (ho : o ≠ .ok ()) :
    (∃ e, o = .err e) ∧ m'.model = m.model ∧ m'.fitted = m.fitted ∧ m'.opts = m.opts ∧ m'.ropts = m.ropts ∧ m'.objective = m.objective ∧
    (X.r ≠ y.r ∨ y.c ≠ 1 → m' = m) := by
  obtain ⟨h1, h2, -, h4, h5⟩ := reg_after c train m X y m' o h
  refine ⟨?_, (h4 ho).1, (h4 ho).2, h1.1, h1.2.1, h1.2.2, fun hh => (h5 hh).1⟩
  cases o with
  | ok u => exact absurd rfl ho
  | err e => exact ⟨e, rfl⟩
  | panic e => exact absurd rfl (h2 e)

end train

section field
variable {α : Type} [Field α] [LinearOrder α] [IsStrictOrderedRing α]

theorem train_numClass {E : Env α} {r : Request α} {X y : Mat α} {model : LGB.Model α} (h : train E r X y = .ok model) (hr : r.numClass ≤ 1) :
    model.numClass = 1 := by
  obtain ⟨obj, st, -, -, rfl⟩ := train_ok h
  show (if 0 < r.numClass then r.numClass else 1) = 1
  split_ifs <;> omega

/-- **C168** (exact arithmetic): after a successful training of the regressor `Predict` succeeds for every non-empty matrix with as many columns as the
training matrix, with one value per row. -/
theorem trained_regressor_predicts (E : Env α) (hratio : ∀ l, (E.lib.byRatio l).Perm l) (c : α) (m m' : Reg α) (X y : Mat α)
    (ht : RegTrained c (train E) m X y m' (.ok ())) (N : ENum α) (Z : Mat α) (hc : Z.c = X.c) (hr : 0 < Z.r) :
    ∃ P, m'.predict N Z = .ok P ∧ P.r = Z.r ∧ P.c = 1 := by
  obtain ⟨-, -, g1, -, g3, r, model, -, hn, htr, hm⟩ := (reg_after c (train E) m X y m' _ ht).good rfl
  obtain ⟨-, -, s3⟩ := train_serves E r X y model htr
  obtain ⟨P, hP⟩ := pPredict_total N model X.c s3 (train_trees hratio htr) Z hc hr
  obtain ⟨-, -, q3, q4, -⟩ := LGB.batch_ok hP
  refine ⟨P, ?_, q3, q4.trans ?_⟩
  · unfold Reg.predict
    rw [if_neg (by rw [g3]; decide), if_neg (by rw [g1, hc]; simp), hm]
    exact hP
  · unfold LGB.Model.outCols
    rw [train_numClass htr hn, if_neg (by decide)]

/-- **C168** (exact arithmetic): `Fit` of a regressor with one of the objectives the trainer knows, a positive depth limit and as many targets as rows
succeeds. -/
theorem regressor_fit_succeeds (E : Env α) (hratio : ∀ l, (E.lib.byRatio l).Perm l) (c : α) (m : Reg α) (X y : Mat α) (hr : X.r = y.r) (hc : y.c = 1)
    (ho : m.objective ∈ ["regression", "regression_l1", "huber", "fair", "poisson", "quantile", "gamma", "tweedie"])
    (hd : 0 < m.opts.maxDepth) (hf : m.opts.maxDepth < E.fuel) : ∃ m', m.fit c (train E) X y = (m', .ok ()) := by
  unfold Reg.fit
  rw [if_neg (not_not.2 hr), if_neg (not_not.2 hc)]
  unfold Reg.fitBody
  simp only
  obtain ⟨model, hmodel, -⟩ := train_total E hratio (Reg.request c { m with nFeatures := X.c, nSamples := X.r }) X y hr (by
    show Boost.createObjective E.num E.lits E.floor E.ceil m.ropts.huberAlpha m.ropts.fairC m.ropts.alpha m.ropts.tweediePower E.threeHalves m.objective ≠ none
    simp only [List.mem_cons, List.not_mem_nil, or_false] at ho
    rcases ho with h | h | h | h | h | h | h | h <;> rw [h] <;> unfold Boost.createObjective <;> simp)
    (by intro w hw; cases hw) hd hf
  rw [hmodel]
  exact ⟨_, rfl⟩

end field

/-- the error of an outcome -/
def errOf {β : Type} : Outcome β → Option GoErr
  | .err e => some e
  | _ => none

set_option maxRecDepth 4000 in
/-- **C169** is false: a regressor trained on one column, then given an objective the trainer does not know and trained on two columns, returns an
error and keeps its model, but can no longer predict: one column is rejected by the regressor, two by the model. -/
theorem failed_refit_disables_regressor :
    let m1 := ((exReg "" "regression").fit (1 / 10000000) (train exEnv) (exCol [1, 2, 3, 4]) (exCol [0, 0, 10, 10])).1
    let p := ({ m1 with objective := "no such objective" } : Reg Rat).fit (1 / 10000000) (train exEnv) ⟨4, 2, fun i _ => i⟩ (exCol [0, 0, 10, 10])
    firstCol (m1.predict LGB.ratNum (exCol [1, 4])) = some [2, 997] ∧ p.2 = .err (.other "training failed") ∧
    errOf (p.1.predict LGB.ratNum (exCol [1, 4])) = some (.dimension 2 1 1) ∧
    errOf (p.1.predict LGB.ratNum ⟨2, 2, fun i _ => i⟩) = some (.other "feature dimension mismatch") := by
  decide +kernel

/-! ## Quantiles -/

section quantile
variable {α : Type} [BEq α] [LE α] [DecidableLE α] [LT α] [DecidableLT α] [Zero α] [One α] [Add α] [Sub α] [Neg α] [Mul α] [Div α]

/-- what `PredictQuantile` returns: for every quantile the plain prediction, each value moved by its own multiple of `(q - 0.5) * 0.1` (law-free) -/
theorem predictQuantile_ok {N : ENum α} {half tenth : α} {m : Reg α} {X : Mat α} {qs : List α} {Rs : List (Mat α)}
    (h : m.predictQuantile N half tenth X qs = .ok Rs) :
    (∀ q ∈ qs, ¬ q ≤ 0 ∧ ¬ 1 ≤ q) ∧ Rs.length = qs.length ∧ (∃ model, m.model = some model ∧ model.objective = "quantile") ∧
    ∀ (k : Nat) q, qs[k]? = some q → ∃ P R, m.predict N X = .ok P ∧ Rs[k]? = some R ∧ R.r = P.r ∧ R.c = P.c ∧
      ∀ i j, R.at' i j = P.at' i j + P.at' i j * (q - half) * tenth := by
  unfold Reg.predictQuantile at h
  by_cases h1 : m.fitted = false
  · rw [if_pos h1] at h; cases h
  rw [if_neg h1] at h
  cases hm : m.model with
  | none => rw [hm] at h; cases h
  | some model =>
    rw [hm] at h
    simp only at h
    by_cases h2 : model.objective ≠ "quantile"
    · rw [if_pos h2] at h; cases h
    rw [if_neg h2] at h
    have key : ∀ qs Rs, m.quantileLoop N half tenth X qs = .ok Rs → (∀ q ∈ qs, ¬ q ≤ 0 ∧ ¬ 1 ≤ q) ∧ Rs.length = qs.length ∧
        ∀ (k : Nat) q, qs[k]? = some q → ∃ P R, m.predict N X = .ok P ∧ Rs[k]? = some R ∧ R.r = P.r ∧ R.c = P.c ∧
          ∀ i j, R.at' i j = P.at' i j + P.at' i j * (q - half) * tenth := by
      intro qs
      induction qs with
      | nil =>
        intro Rs h
        cases h
        refine ⟨?_, rfl, ?_⟩
        · intro q hq; cases hq
        · intro k q hk; simp at hk
      | cons q qs ih =>
        intro Rs h
        rw [Reg.quantileLoop] at h
        by_cases hq : q ≤ 0 ∨ 1 ≤ q
        · rw [if_pos hq] at h; cases h
        rw [if_neg hq] at h
        obtain ⟨P, e1, h⟩ := bind_ok_inv h
        obtain ⟨rest, e2, h⟩ := bind_ok_inv h
        cases h
        obtain ⟨i1, i2, i3⟩ := ih rest e2
        refine ⟨?_, by simp [i2], ?_⟩
        · intro q' hq'
          rcases List.mem_cons.1 hq' with rfl | hq'
          · exact not_or.1 hq
          · exact i1 q' hq'
        · intro k q' hk
          cases k with
          | zero => cases hk; exact ⟨P, _, e1, rfl, rfl, rfl, fun i j => rfl⟩
          | succ k => exact i3 k q' hk
    obtain ⟨k1, k2, k3⟩ := key qs Rs h
    exact ⟨k1, k2, ⟨model, rfl, not_not.1 h2⟩, k3⟩

end quantile

section quantileOrder
variable {α : Type} [Field α] [LinearOrder α] [IsStrictOrderedRing α]

/-- **C170**, what holds (exact arithmetic): where the plain predictions are not negative, the results are ordered as the quantiles are, and the result
for the quantile 1/2 is the plain prediction. Missing: rows with a negative prediction, see `quantiles_cross`. -/
theorem quantiles_ordered_partial (N : ENum α) (tenth : α) (ht : 0 ≤ tenth) (m : Reg α) (X P : Mat α) (qs : List α) (Rs : List (Mat α))
    (h : m.predictQuantile N (1 / 2) tenth X qs = .ok Rs) (hP : m.predict N X = .ok P) (k l : Nat) (q q' : α) (hk : qs[k]? = some q) (hl : qs[l]? = some q') :
    ∃ R R', Rs[k]? = some R ∧ Rs[l]? = some R' ∧ (q = 1 / 2 → ∀ i j, R.at' i j = P.at' i j) ∧
      (q ≤ q' → ∀ i j, 0 ≤ P.at' i j → R.at' i j ≤ R'.at' i j) := by
  obtain ⟨-, -, -, hall⟩ := predictQuantile_ok h
  obtain ⟨P1, R, a1, a2, -, -, a3⟩ := hall k q hk
  obtain ⟨P2, R', b1, b2, -, -, b3⟩ := hall l q' hl
  have e1 : P = P1 := Outcome.ok.inj (hP.symm.trans a1)
  have e2 : P = P2 := Outcome.ok.inj (hP.symm.trans b1)
  subst e1
  subst e2
  refine ⟨R, R', a2, b2, fun hq i j => ?_, fun hq i j hp => ?_⟩
  · rw [a3, hq, sub_self, mul_zero, zero_mul, add_zero]
  · rw [a3, b3]
    have : P.at' i j * (q - 1 / 2) * tenth ≤ P.at' i j * (q' - 1 / 2) * tenth :=
      mul_le_mul_of_nonneg_right (mul_le_mul_of_nonneg_left (by linarith) hp) ht
    linarith

/-- **C170** is false (exact arithmetic): wherever the plain prediction is negative, a larger quantile gets a smaller value. -/
theorem quantiles_cross (N : ENum α) (tenth : α) (ht : 0 < tenth) (m : Reg α) (X P : Mat α) (qs : List α) (Rs : List (Mat α))
    (h : m.predictQuantile N (1 / 2) tenth X qs = .ok Rs) (hP : m.predict N X = .ok P) (k l : Nat) (q q' : α) (hk : qs[k]? = some q) (hl : qs[l]? = some q')
    (hq : q < q') : ∃ R R', Rs[k]? = some R ∧ Rs[l]? = some R' ∧ ∀ i j, P.at' i j < 0 → R'.at' i j < R.at' i j := by
  obtain ⟨-, -, -, hall⟩ := predictQuantile_ok h
  obtain ⟨P1, R, a1, a2, -, -, a3⟩ := hall k q hk
  obtain ⟨P2, R', b1, b2, -, -, b3⟩ := hall l q' hl
  have e1 : P = P1 := Outcome.ok.inj (hP.symm.trans a1)
  have e2 : P = P2 := Outcome.ok.inj (hP.symm.trans b1)
  subst e1
  subst e2
  refine ⟨R, R', a2, b2, fun i j hp => ?_⟩
  rw [a3, b3]
  have : P.at' i j * (q' - 1 / 2) * tenth < P.at' i j * (q - 1 / 2) * tenth :=
    mul_lt_mul_of_pos_right (mul_lt_mul_of_neg_left (by linarith) hp) ht
  linarith

end quantileOrder

/-! ## Residuals -/

section residuals
variable {α : Type} [Field α] [LinearOrder α] [IsStrictOrderedRing α]

/-- the residuals of a regressor on `X`, `y`: target minus prediction, row by row -/
def IsResiduals (P y : Mat α) (rs : List α) : Prop := rs = (List.range y.r).map fun i => y.at' i 0 - P.at' i 0

theorem pairUp_ok {β : Type} {P y : Mat α} {f : List α → List α → Outcome β} {b : β} (h : pairUp P y f = .ok b) :
    y.r ≠ 0 ∧ y.r ≤ P.r ∧ f ((List.range y.r).map (fun i => y.at' i 0)) ((List.range y.r).map (fun i => P.at' i 0)) = .ok b := by
  unfold pairUp at h
  by_cases h1 : y.r = 0
  · rw [if_pos h1] at h; cases h
  rw [if_neg h1] at h
  by_cases h2 : y.c = 0 ∨ P.c = 0 ∨ P.r < y.r
  · rw [if_pos h2] at h; cases h
  rw [if_neg h2] at h
  exact ⟨h1, not_lt.1 fun h => h2 (Or.inr (Or.inr h)), h⟩

theorem regGuard_pairs {γ : Type} {n : Nat} (hn : n ≠ 0) (a b : Nat → α) (k : List (α × α) → Outcome γ) :
    Metrics.regGuard (some ((List.range n).map a)) (some ((List.range n).map b)) k = k ((List.range n).map fun i => (a i, b i)) := by
  unfold Metrics.regGuard
  simp only
  rw [if_neg (by simpa using hn), if_neg (by simp)]
  congr 1
  rw [List.zip_map', ]

/-- **C171** (exact arithmetic): `GetResiduals` returns target minus prediction for every row of `y`; `GetMSE`, `GetMAE` and `GetRMSE` return the mean of
the squared residuals, the mean of their absolute values and the root of the former. -/
theorem residual_identities (N : ENum α) (sqrt : α → α) (m : Reg α) (X y : Mat α) (rs : List α) (h : m.residuals N X y = .ok rs) :
    ∃ P, m.predict N X = .ok P ∧ y.r ≤ P.r ∧ IsResiduals P y rs ∧ m.mse N X y = .ok ((rs.map fun r => r ^ 2).sum / rs.length) ∧
      m.mae N (fun v => |v|) X y = .ok ((rs.map fun r => |r|).sum / rs.length) ∧
      m.rmse N sqrt X y = .ok (sqrt ((rs.map fun r => r ^ 2).sum / rs.length)) := by
  unfold Reg.residuals at h
  by_cases h1 : m.fitted = false
  · rw [if_pos h1] at h; cases h
  rw [if_neg h1] at h
  obtain ⟨P, e1, h⟩ := bind_ok_inv h
  have h0 := h
  obtain ⟨e2, e3, h⟩ := pairUp_ok h
  have hrs : rs = (List.range y.r).map fun i => y.at' i 0 - P.at' i 0 := by
    rw [← Outcome.ok.inj h, List.zipWith_map, List.zipWith_self]
  have hlen : rs.length = y.r := by rw [hrs]; simp
  have hup : ∀ (f : List α → List α → Outcome α), pairUp P y f = f ((List.range y.r).map (fun i => y.at' i 0)) ((List.range y.r).map (fun i => P.at' i 0)) := by
    intro f
    have h := h0
    unfold pairUp at h ⊢
    rw [if_neg e2] at h ⊢
    by_cases h2 : y.c = 0 ∨ P.c = 0 ∨ P.r < y.r
    · rw [if_pos h2] at h; cases h
    rw [if_neg h2]
  have hmse : m.mse N X y = .ok ((rs.map fun r => r ^ 2).sum / rs.length) := by
    unfold Reg.mse
    rw [if_neg h1, e1, Outcome.bind_ok, hup]
    unfold Metrics.mse
    rw [regGuard_pairs e2, sumOver_eq, List.map_map, hlen, List.length_map, List.length_range, hrs, List.map_map]
    congr 4
    funext i
    simp only [Function.comp]
    ring
  refine ⟨P, e1, e3, hrs, hmse, ?_, ?_⟩
  · unfold Reg.mae
    rw [if_neg h1, e1, Outcome.bind_ok, hup]
    unfold Metrics.mae
    rw [regGuard_pairs e2, sumOver_eq, List.map_map, hlen, List.length_map, List.length_range, hrs, List.map_map]
    rfl
  · unfold Reg.rmse
    rw [hmse, Outcome.bind_ok]

end residuals

/-! ## Loading -/

section load
variable {α : Type}

/-- **C172** (law-free): a loader that returns an error leaves the classifier as it was. -/
theorem failed_load_keeps_classifier (m : Clf α) (r : Outcome (LGB.Model α)) (h : ∀ model, r ≠ .ok model) : (m.loadModel r).1 = m ∧ (m.loadModelFrom r).1 = m := by
  cases r with
  | ok model => exact absurd rfl (h model)
  | err e => exact ⟨rfl, rfl⟩
  | panic e => exact ⟨rfl, rfl⟩

variable [BEq α] [LE α] [DecidableLE α] [LT α] [DecidableLT α] [Zero α] [One α] [Add α] [Sub α] [Neg α] [Mul α] [Div α]

/-- two classifiers with the same model, width, classes and mark predict the same -/
theorem predict_congr (N : ENum α) (half : α) (m m' : Clf α) (h1 : m'.model = m.model) (h2 : m'.nFeatures = m.nFeatures) (h3 : m'.classes = m.classes)
    (h4 : m'.fitted = m.fitted) (Z : Mat α) : m'.predict N half Z = m.predict N half Z ∧ m'.predictProba N Z = m.predictProba N Z := by
  have hp : m'.predictProba N Z = m.predictProba N Z := by
    unfold Clf.predictProba
    rw [h1, h2, h4]
  refine ⟨?_, hp⟩
  unfold Clf.predict
  rw [h2, h3, h4, hp]

/-- **C172**, what holds (law-free): for a model with the objective `binary` or `cross_entropy` and at most two classes, or `multiclass` and more than two,
`LoadModel` and the loaders from a string or JSON give classifiers with the same predictions, whatever the receivers were before. Missing: other
objectives, see `load_keeps_stale_classes`. -/
theorem loaders_agree_partial (N : ENum α) (half : α) (m m' : Clf α) (model : LGB.Model α)
    (ho : (model.objective = "binary" ∨ model.objective = "cross_entropy") ∧ model.numClass ≤ 2 ∨ model.objective = "multiclass" ∧ 2 < model.numClass)
    (Z : Mat α) : (m.loadModel (.ok model)).2 = .ok () ∧ (m'.loadModelFrom (.ok model)).2 = .ok () ∧
      (m.loadModel (.ok model)).1.predict N half Z = (m'.loadModelFrom (.ok model)).1.predict N half Z ∧
      (m.loadModel (.ok model)).1.predictProba N Z = (m'.loadModelFrom (.ok model)).1.predictProba N Z := by
  unfold Clf.loadModel Clf.loadModelFrom
  simp only
  rcases ho with ⟨ho, hn⟩ | ⟨ho, hn⟩
  · rw [if_pos ho]
    obtain ⟨a, b⟩ := predict_congr N half { m' with model := some model, nFeatures := model.numFeatures, fitted := true, classes := if model.numClass > 2 then firstClasses model.numClass.toNat else [0, 1] }
      { m with model := some model, nFeatures := model.numFeatures, numClass := model.numClass, fitted := true, classes := [0, 1] } rfl rfl (if_neg (by omega)).symm rfl Z
    exact ⟨rfl, trivial, a, b⟩
  · rw [if_neg (by rw [ho]; decide), if_pos ho]
    obtain ⟨a, b⟩ := predict_congr N half { m' with model := some model, nFeatures := model.numFeatures, fitted := true, classes := if model.numClass > 2 then firstClasses model.numClass.toNat else [0, 1] }
      { m with model := some model, nFeatures := model.numFeatures, numClass := model.numClass, fitted := true, classes := firstClasses model.numClass.toNat } rfl rfl (if_pos hn).symm rfl Z
    exact ⟨rfl, trivial, a, b⟩

theorem pickClass_nil (ps : List α) (best : α) (c : Int) : pickClass [] ps best c = .ok c := rfl

/-- **C172** is false (law-free): `LoadModel` of a model with an objective other than `binary`, `cross_entropy` and `multiclass` keeps the classes of the
receiver: a new classifier then predicts the label 0 for every row, whatever the model. -/
theorem load_keeps_stale_classes (N : ENum α) (half : α) (m : Clf α) (hm : m.classes = []) (model : LGB.Model α)
    (ho : model.objective ∉ ["binary", "cross_entropy", "multiclass"]) (Z : Mat α) (ls : List Int)
    (h : (m.loadModel (.ok model)).1.predict N half Z = .ok ls) : (m.loadModel (.ok model)).2 = .ok () ∧ ls.length = Z.r ∧ ∀ l ∈ ls, l = 0 := by
  simp only [List.mem_cons, List.not_mem_nil, or_false, not_or] at ho
  have hc : (m.loadModel (.ok model)).1.classes = [] ∧ (m.loadModel (.ok model)).2 = .ok () := by
    unfold Clf.loadModel
    simp only
    rw [if_neg (not_or.2 ⟨ho.1, ho.2.1⟩), if_neg ho.2.2]
    exact ⟨hm, rfl⟩
  obtain ⟨h1, h2⟩ := predicts_known_classes N half _ Z ls h
  refine ⟨hc.2, h1, fun l hl => ?_⟩
  rcases h2 l hl with h | ⟨-, h⟩
  · rw [hc.1] at h; cases h
  · exact h

/-- choosing among other classes chooses the class with the same position -/
theorem pickClass_index {cs ds : List Int} (hl : cs.length = ds.length) {ps : List α} {best : α} {a b c d : Int} (h : pickClass cs ps best a = .ok c)
    (h' : pickClass ds ps best b = .ok d) : (∃ j : Nat, cs[j]? = some c ∧ ds[j]? = some d) ∨
      (∀ (k : Nat) q, k < cs.length → ps[k]? = some q → ¬ best < q) ∧ c = a ∧ d = b := by
  induction cs generalizing ds ps best a b with
  | nil =>
    cases ds with
    | nil => cases h; cases h'; exact Or.inr ⟨fun k q hk => by simp at hk, rfl, rfl⟩
    | cons _ _ => cases hl
  | cons x cs ih =>
    cases ds with
    | nil => cases hl
    | cons z ds =>
      cases ps with
      | nil => cases h
      | cons p ps =>
        rw [pickClass] at h h'
        have hl : cs.length = ds.length := by simpa using hl
        by_cases hb : best < p
        · rw [if_pos hb] at h h'
          rcases ih hl h h' with ⟨j, e1, e2⟩ | ⟨-, rfl, rfl⟩
          · exact Or.inl ⟨j + 1, e1, e2⟩
          · exact Or.inl ⟨0, rfl, rfl⟩
        · rw [if_neg hb] at h h'
          rcases ih hl h h' with ⟨j, e1, e2⟩ | ⟨hall, rfl, rfl⟩
          · exact Or.inl ⟨j + 1, e1, e2⟩
          · refine Or.inr ⟨fun k q hk hq => ?_, rfl, rfl⟩
            cases k with
            | zero => cases hq; exact hb
            | succ k => exact hall k q (by simpa using hk) hq

theorem labelOf_index {half : α} {cs ds : List Int} (hl : cs.length = ds.length) {row : List α} {c d : Int} (h : labelOf half cs row = .ok c)
    (h' : labelOf half ds row = .ok d) : (∃ j : Nat, cs[j]? = some c ∧ ds[j]? = some d) ∨ cs.length ≠ 2 ∧ c = 0 ∧ d = 0 := by
  by_cases h2 : cs.length = 2
  · obtain ⟨a, b, rfl⟩ := List.length_eq_two.1 h2
    obtain ⟨a', b', rfl⟩ := List.length_eq_two.1 (hl.symm.trans h2)
    unfold labelOf at h h'
    simp only at h h'
    cases hr : row[1]? with
    | none => rw [hr] at h; cases h
    | some p =>
      rw [hr] at h h'
      simp only at h h'
      by_cases hp : half ≤ p
      · rw [if_pos hp] at h h'; cases h; cases h'; exact Or.inl ⟨1, rfl, rfl⟩
      · rw [if_neg hp] at h h'; cases h; cases h'; exact Or.inl ⟨0, rfl, rfl⟩
  · have e1 : labelOf half cs row = pickClass cs row 0 0 := by
      unfold labelOf
      split
      · exact absurd rfl h2
      · rfl
    have e2 : labelOf half ds row = pickClass ds row 0 0 := by
      unfold labelOf
      split
      · exact absurd hl h2
      · rfl
    rw [e1] at h
    rw [e2] at h'
    rcases pickClass_index hl h h' with h | ⟨-, h, h'⟩
    · exact Or.inl h
    · exact Or.inr ⟨h2, h, h'⟩

end load

theorem firstClasses_get (n k : Nat) : (firstClasses n)[k]? = if k < n then some (k : Int) else none := by
  unfold firstClasses
  rw [List.getElem?_map]
  by_cases h : k < n
  · rw [List.getElem?_range h, if_pos h]; rfl
  · rw [if_neg h, List.getElem?_eq_none (by simpa using h)]; rfl

/-- **C172** (exact arithmetic): loading the model of a trained classifier into another classifier keeps the probabilities and turns every label into its
position among the classes. In particular the labels survive exactly if the classes were `0, …, k-1`. -/
theorem reloaded_labels_are_positions (E : Env ℝ) {N : ENum ℝ} (hN : RealENum N) (h0 : 0 ≤ N.epsilon) (c half : ℝ) (toInt : ℝ → Int)
    {iter : List Int → List Int} (hi : MapKeys iter) (m m' : Clf ℝ) (X y : Mat ℝ) (ht : TrainedBy c toInt iter (train E) m X y m' (.ok ()))
    (he : m'.classes.length * N.epsilon ≤ 1) (model : LGB.Model ℝ) (hm : m'.model = some model) (other : Clf ℝ) (Z : Mat ℝ) (ls : List Int)
    (h : m'.predict N half Z = .ok ls) :
    (other.loadModel (.ok model)).1.classes = firstClasses m'.classes.length ∧
    (other.loadModel (.ok model)).1.predictProba N Z = m'.predictProba N Z ∧
    ∃ ls', (other.loadModel (.ok model)).1.predict N half Z = .ok ls' ∧ ls'.length = ls.length ∧
      ∀ (i : Nat) l, ls[i]? = some l → ∃ k : Nat, ls'[i]? = some (k : Int) ∧ m'.classes[k]? = some l := by
  have hk := trained_knows c toInt hi (train E) m X y m' ht
  obtain ⟨r, model', hask, htr, hm'⟩ := hk.model
  rw [hm] at hm'
  cases hm'
  obtain ⟨s1, s2, s3⟩ := train_serves E r X y model htr
  obtain ⟨L, hL⟩ : ∃ L, L = (other.loadModel (.ok model)).1 := ⟨_, rfl⟩
  rw [← hL]
  have hLs : L.classes = firstClasses m'.classes.length ∧ L.model = some model ∧ L.nFeatures = model.numFeatures ∧ L.fitted = true := by
    rw [hL]
    unfold Clf.loadModel
    simp only
    rcases hask with ⟨hlen, ho, hn⟩ | ⟨hlen, ho, hn⟩
    · rw [if_pos (Or.inl (s1.trans ho)), hlen]
      exact ⟨rfl, rfl, rfl, rfl⟩
    · rw [if_neg (by rw [s1, ho]; decide), if_pos (s1.trans ho)]
      refine ⟨?_, rfl, rfl, rfl⟩
      show firstClasses model.numClass.toNat = _
      rw [s2 (by omega), hn]
      rfl
  obtain ⟨l1, l2, l3, l4⟩ := hLs
  have hwidth : L.nFeatures = m'.nFeatures := by rw [l3, s3, hk.width]
  have hproba : L.predictProba N Z = m'.predictProba N Z := by
    unfold Clf.predictProba
    rw [l2, hm, l4, hk.fitted, hwidth]
  refine ⟨l1, hproba, ?_⟩
  obtain ⟨f1, f2, P, p1, p2, p3⟩ := predict_ok h
  obtain ⟨-, q2, q3⟩ := trained_proba (train_serves E) hN h0 hk he p1
  have hlen : L.classes.length = m'.classes.length := by rw [l1]; simp [firstClasses]
  obtain ⟨ls', hls'⟩ := labelsOf_total (half := half) (classes := L.classes) (rows := rowsOf P) (by
    intro row hrow
    obtain ⟨i, -, rfl⟩ := List.mem_map.1 hrow
    exact labelOf_total _ _ _ (by rw [row_length, q2, hlen]))
  have hpred : L.predict N half Z = .ok ls' := by
    unfold Clf.predict
    rw [if_neg (by rw [l4]; decide), if_neg (by rw [hwidth, f2]; simp), hproba, p1, Outcome.bind_ok]
    exact hls'
  obtain ⟨-, -, P', p1', p2', p3'⟩ := predict_ok hpred
  rw [hproba, p1] at p1'
  have : P = P' := Outcome.ok.inj p1'
  subst this
  refine ⟨ls', hpred, p2'.trans p2.symm, fun i l hl => ?_⟩
  have hi' : i < P.r := by
    rw [← p2]
    exact (List.getElem?_eq_some_iff.1 hl).1
  obtain ⟨c1, a1, a2⟩ := p3 i hi'
  obtain ⟨c2, b1, b2⟩ := p3' i hi'
  rw [hl] at a1
  cases a1
  have hidx : ∃ j : Nat, m'.classes[j]? = some l ∧ L.classes[j]? = some c2 := by
    by_cases h2 : m'.classes.length = 2
    · rcases labelOf_index hlen.symm a2 b2 with h | ⟨h, -⟩
      · exact h
      · exact absurd h2 h
    · obtain ⟨j, hj, hp⟩ := (q3 i hi').2.1
      have e1 : pickClass m'.classes (P.row i) 0 0 = .ok l := (labelOf_two a2).2.2 h2
      have e2 : pickClass L.classes (P.row i) 0 0 = .ok c2 := (labelOf_two b2).2.2 (by rw [hlen]; exact h2)
      rcases pickClass_index hlen.symm e1 e2 with h | ⟨hall, -⟩
      · exact h
      · exact absurd hp (hall j _ (q2 ▸ hj) (row_get P i j hj))
  obtain ⟨j, d1, d2⟩ := hidx
  rw [l1, firstClasses_get] at d2
  split_ifs at d2
  cases d2
  exact ⟨j, b1, d1⟩

end Scigo.Wrapper
