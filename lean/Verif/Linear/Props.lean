import Verif.Linear.Lemmas
import Mathlib.LinearAlgebra.Matrix.ToLinearEquiv
import Mathlib.Tactic.NormNum
import Mathlib.Tactic.LinearCombination

/-!
# Properties of linear regression and exported weights (C40–C43, C80–C82)
-/

namespace Scigo.Linear

open Finset

set_option linter.unusedSectionVars false

variable {K : Type _}

/-! ## C40: least squares (`linear.LinearRegression`) -/

section C40
variable [Field K] [LinearOrder K] [IsStrictOrderedRing K]

/-- shape of a successful fit -/
theorem fit_ok_cases {inv : Mat K → Option (Mat K)} {m : LinReg K} {X y : Mat K}
    (h : (m.fit inv X y).2 = .ok ()) :
    X.r ≠ 0 ∧ X.c ≠ 0 ∧ y.r = X.r ∧ y.c = 1 ∧
    ∃ B, inv (mulMat (transpose (withIntercept X)) (withIntercept X)) = some B ∧
      (m.fit inv X y).1 =
        { weights := some ((List.range X.c).map
            (fun i => LinReg.solveNormal B (withIntercept X) y (i + 1))),
          intercept := LinReg.solveNormal B (withIntercept X) y 0,
          nFeatures := X.c, fitted := true, nSamples := X.r } := by
  unfold LinReg.fit at h ⊢
  split_ifs at h ⊢ with h1 h2 h3
  rw [not_or] at h1
  refine ⟨h1.1, h1.2, not_not.1 h2, not_not.1 h3, ?_⟩
  dsimp only at h ⊢
  split at h
  · simp at h
  · rename_i B hB
    exact ⟨B, hB, rfl⟩

/-- **C40**: after a successful `Fit` the model is fitted, has one weight per column, and weights and
intercept satisfy the normal equations. -/
theorem fit_normal_equations {inv : Mat K → Option (Mat K)} (hinv : InverseSound inv)
    (m : LinReg K) (X y : Mat K) (h : (m.fit inv X y).2 = .ok ()) :
    ∃ w, (m.fit inv X y).1.weights = some w ∧ w.length = X.c ∧
      (m.fit inv X y).1.fitted = true ∧ (m.fit inv X y).1.nFeatures = X.c ∧
      NormalEquations X y (fun j => w.getD j 0) (m.fit inv X y).1.intercept := by
  obtain ⟨-, -, -, -, B, hB, e⟩ := fit_ok_cases h
  obtain ⟨hI, hr, hc⟩ := hinv _ B rfl hB
  rw [e]
  refine ⟨_, rfl, by simp, rfl, rfl, ?_⟩
  have hn := normalEquations_of_design X y (LinReg.solveNormal B (withIntercept X) y)
    (fun k hk => solveNormal_normal (withIntercept X) y hI hc k hk)
  have ea : ∀ i, affine X (fun j => ((List.range X.c).map
      (fun i => LinReg.solveNormal B (withIntercept X) y (i + 1))).getD j 0)
      (LinReg.solveNormal B (withIntercept X) y 0) i =
      affine X (fun j => LinReg.solveNormal B (withIntercept X) y (j + 1))
      (LinReg.solveNormal B (withIntercept X) y 0) i := fun i =>
    affine_congr _ _ (fun j hj => by
      rw [List.getD_eq_getElem _ _ (by simpa using hj)]; simp)
  exact ⟨by simpa only [ea] using hn.1, fun j hj => by simpa only [ea] using hn.2 j hj⟩

/-- **C40**: the fitted weights and intercept minimise the residual sum of squares over all weights
and intercepts. -/
theorem fit_least_squares {inv : Mat K → Option (Mat K)} (hinv : InverseSound inv)
    (m : LinReg K) (X y : Mat K) (h : (m.fit inv X y).2 = .ok ()) :
    ∃ w, (m.fit inv X y).1.weights = some w ∧ w.length = X.c ∧
      ∀ (w' : Nat → K) (b' : K),
        rss X y (fun j => w.getD j 0) (m.fit inv X y).1.intercept ≤ rss X y w' b' := by
  obtain ⟨w, h1, h2, -, -, hn⟩ := fit_normal_equations hinv m X y h
  refine ⟨w, h1, h2, fun w' b' => ?_⟩
  rw [rss_decomp X y hn w' b']
  exact le_add_of_nonneg_right (sum_sq_nonneg _ _)

theorem fullRank_of_inverse {X B : Mat K}
    (hB : IsInverse (mulMat (transpose (withIntercept X)) (withIntercept X)) B) : FullRank X := by
  intro w b h
  let v : Nat → K := fun k => match k with | 0 => b | k + 1 => w k
  have hv : ∀ i < X.r, ∑ l ∈ range (X.c + 1), (withIntercept X).at' i l * v l = 0 := by
    intro i hi
    rw [design_mul]
    exact h i hi
  have hg : ∀ k, ∑ l ∈ range (X.c + 1),
      (mulMat (transpose (withIntercept X)) (withIntercept X)).at' k l * v l = 0 := by
    intro k
    simp only [mulMat, transpose, sumTo_eq]
    refine (gram_mul (withIntercept X) v k).trans ?_
    apply sum_eq_zero
    intro i hi
    have e : ∑ l ∈ range (withIntercept X).c, (withIntercept X).at' i l * v l = 0 :=
      hv i (mem_range.1 hi)
    rw [e, mul_zero]
  have hz : ∀ k < X.c + 1, v k = 0 := by
    intro k hk
    have h0 : ∑ l ∈ range (X.c + 1), B.at' k l * ∑ m ∈ range (X.c + 1),
        (mulMat (transpose (withIntercept X)) (withIntercept X)).at' l m * v m = 0 :=
      sum_eq_zero (fun l _ => by rw [hg l, mul_zero])
    have h1 := inverse_solves (A := { B with r := X.c + 1 })
      (B := mulMat (transpose (withIntercept X)) (withIntercept X)) ⟨hB.2, hB.1⟩ v (k := k) hk
    rw [← h1]
    exact h0
  exact ⟨hz 0 (by omega), fun j hj => hz (j + 1) (by omega)⟩

/-- **C40**: the solution is the only minimiser: any weights and intercept with the same (or smaller)
residual sum of squares are the fitted ones. -/
theorem fit_unique_minimiser {inv : Mat K → Option (Mat K)} (hinv : InverseSound inv)
    (m : LinReg K) (X y : Mat K) (h : (m.fit inv X y).2 = .ok ()) :
    ∃ w, (m.fit inv X y).1.weights = some w ∧
      ∀ (w' : Nat → K) (b' : K),
        rss X y w' b' ≤ rss X y (fun j => w.getD j 0) (m.fit inv X y).1.intercept →
        b' = (m.fit inv X y).1.intercept ∧ ∀ j < X.c, w' j = w.getD j 0 := by
  obtain ⟨w, h1, h2, -, -, hn⟩ := fit_normal_equations hinv m X y h
  refine ⟨w, h1, fun w' b' hle => ?_⟩
  obtain ⟨-, -, -, -, B, hB, -⟩ := fit_ok_cases h
  have hfr := fullRank_of_inverse (hinv _ B rfl hB).1
  have hd := rss_decomp X y hn w' b'
  have h0 : ∑ i ∈ range X.r, (affine X w' b' i -
      affine X (fun j => w.getD j 0) (m.fit inv X y).1.intercept i) ^ 2 = 0 :=
    le_antisymm (by linarith) (sum_sq_nonneg _ _)
  have hz := sum_sq_eq_zero h0
  have := hfr (fun j => w' j - w.getD j 0) (b' - (m.fit inv X y).1.intercept) (by
    intro i hi
    have := hz i hi
    simp only [affine, mul_sub, sum_sub_distrib] at this ⊢
    linear_combination this)
  exact ⟨sub_eq_zero.1 this.1, fun j hj => sub_eq_zero.1 (this.2 j hj)⟩

/-- **C40**: with an exact inverse (sound and complete), `Fit` succeeds exactly on non-empty data with
one target per row in one column and linearly independent columns of `[1 | X]`. -/
theorem fit_ok_iff {inv : Mat K → Option (Mat K)} (hs : InverseSound inv) (hc : InverseComplete inv)
    (m : LinReg K) (X y : Mat K) :
    (m.fit inv X y).2 = .ok () ↔
      X.r ≠ 0 ∧ X.c ≠ 0 ∧ y.r = X.r ∧ y.c = 1 ∧ FullRank X := by
  constructor
  · intro h
    obtain ⟨h1, h2, h3, h4, B, hB, -⟩ := fit_ok_cases h
    exact ⟨h1, h2, h3, h4, fullRank_of_inverse (hs _ B rfl hB).1⟩
  · rintro ⟨h1, h2, h3, h4, h5⟩
    unfold LinReg.fit
    rw [if_neg (by tauto), if_neg (by tauto), if_neg (by tauto)]
    dsimp only
    split
    · rename_i hn
      exfalso
      obtain ⟨v, ⟨k, hk, hvk⟩, hv⟩ := hc _ rfl hn
      have hker := gram_kernel (withIntercept X) v (fun k hk => hv k hk)
      have := h5 (fun j => v (j + 1)) (v 0) (fun i hi => by
        rw [← design_mul]; exact hker i hi)
      apply hvk
      cases k with
      | zero => exact this.1
      | succ k => exact this.2 k (by
          have : k + 1 < X.c + 1 := hk
          omega)
    · rfl

/-- **C40**: what `Predict` answers: never a panic; not fitted, wrong width, no rows, fewer weights
than columns are errors; otherwise row `i` gets `Σ_j Z_ij w_j + b`. -/
theorem predict_spec (m : LinReg K) (Z : Mat K) :
    (m.fitted = false → m.predict Z = .err .notFitted) ∧
    (m.fitted = true → Z.c ≠ m.nFeatures → m.predict Z = .err (.dimension m.nFeatures Z.c 1)) ∧
    (m.fitted = true → Z.c = m.nFeatures → Z.r = 0 → ∃ e, m.predict Z = .err e) ∧
    (∀ w, m.fitted = true → m.weights = some w → w.length = m.nFeatures → Z.c = m.nFeatures →
      Z.r ≠ 0 → ∃ P, m.predict Z = .ok P ∧ P.r = Z.r ∧ P.c = 1 ∧
        ∀ i, P.at' i 0 = affine Z (fun j => w.getD j 0) m.intercept i) ∧
    (∀ v, m.predict Z ≠ .panic v) := by
  refine ⟨fun h => ?_, fun h hc => ?_, fun h hc hr => ?_, fun w h hw hl hc hr => ?_, fun v => ?_⟩
  · simp [LinReg.predict, LinReg.predictBody, h]
  · simp [LinReg.predict, LinReg.predictBody, h, hc]
  · exact ⟨.panicError "LinearRegression.Predict" "mat: zero length in matrix dimension", by
      simp [LinReg.predict, LinReg.predictBody, h, hc, hr]⟩
  · refine ⟨{ r := Z.r, c := 1, at' := fun i _ => predRow w m.intercept Z i }, ?_, rfl, rfl,
      fun i => predRow_eq _ _ _ _⟩
    simp [LinReg.predict, LinReg.predictBody, h, hc, hr, hw, hl]
  · unfold LinReg.predict
    cases m.predictBody Z <;> simp

/-- predictions after a successful fit -/
theorem predict_after_fit {inv : Mat K → Option (Mat K)} (m : LinReg K) (X y Z : Mat K)
    (h : (m.fit inv X y).2 = .ok ()) (hc : Z.c = X.c) (hr : Z.r ≠ 0) :
    ∃ w P, (m.fit inv X y).1.weights = some w ∧ (m.fit inv X y).1.predict Z = .ok P ∧
      P.r = Z.r ∧ P.c = 1 ∧
      ∀ i, P.at' i 0 = affine Z (fun j => w.getD j 0) (m.fit inv X y).1.intercept i := by
  obtain ⟨-, -, -, -, B, hB, e⟩ := fit_ok_cases h
  rw [e]
  obtain ⟨P, h1, h2⟩ := (predict_spec
    { weights := some ((List.range X.c).map (fun i => LinReg.solveNormal B (withIntercept X) y (i + 1))),
      intercept := LinReg.solveNormal B (withIntercept X) y 0,
      nFeatures := X.c, fitted := true, nSamples := X.r } Z).2.2.2.1 _ rfl rfl (by simp) hc hr
  exact ⟨_, P, rfl, h1, h2⟩

/-- **C40**: `Score` is the coefficient of determination of the predictions; it is an error when all
targets are equal, and when there are more targets than rows. -/
theorem score_spec (m : LinReg K) (Z y P : Mat K) (hP : m.predict Z = .ok P) :
    (y.r ≠ 0 → (y.c = 0 ∨ P.r < y.r) → ∃ e, m.score Z y = .err e) ∧
    (y.c ≠ 0 → y.r ≤ P.r →
      (∑ i ∈ range y.r, (y.at' i 0 - (∑ k ∈ range y.r, y.at' k 0) / y.r) ^ 2 = 0 →
        ∃ e, m.score Z y = .err e) ∧
      (∑ i ∈ range y.r, (y.at' i 0 - (∑ k ∈ range y.r, y.at' k 0) / y.r) ^ 2 ≠ 0 →
        m.score Z y = .ok (r2 y.r (fun i => y.at' i 0) (fun i => P.at' i 0)))) := by
  have hf : m.fitted = true := by
    by_contra hn
    have := (predict_spec m Z).1 (by simpa using hn)
    rw [hP] at this
    simp at this
  refine ⟨fun h1 h2 => ?_, fun h1 h2 => ⟨fun h3 => ?_, fun h3 => ?_⟩⟩
  · refine ⟨.panicError "LinearRegression.Score" "mat: row or column index out of range", ?_⟩
    simp only [LinReg.score, hf, hP, Outcome.bind_ok, LinReg.r2Body]
    rw [if_neg (by simp), if_pos ⟨h1, h2⟩]
    rfl
  · refine ⟨.other "total sum of squares is zero", ?_⟩
    have hno : ¬ (y.r ≠ 0 ∧ (y.c = 0 ∨ P.r < y.r)) := by rintro ⟨-, h | h⟩ <;> omega
    simp only [LinReg.score, hf, hP, Outcome.bind_ok, LinReg.r2Body, if_neg hno, sumTo_eq, ← sq,
      LinReg.colMean, h3]
    simp
  · have hno : ¬ (y.r ≠ 0 ∧ (y.c = 0 ∨ P.r < y.r)) := by rintro ⟨-, h | h⟩ <;> omega
    simp only [LinReg.score, hf, hP, Outcome.bind_ok, LinReg.r2Body, if_neg hno, sumTo_eq, ← sq,
      LinReg.colMean, r2]
    simp [h3]

/-- **C40**: on the data it was fitted to, a linear regression scores between 0 and 1. -/
theorem train_score_unit {inv : Mat K → Option (Mat K)} (hinv : InverseSound inv)
    (m : LinReg K) (X y : Mat K) (h : (m.fit inv X y).2 = .ok ()) (s : K)
    (hs : (m.fit inv X y).1.score X y = .ok s) : 0 ≤ s ∧ s ≤ 1 := by
  obtain ⟨hr, hc, hy, hyc, -⟩ := fit_ok_cases h
  obtain ⟨w, P, hw, hP, hPr, -, hPv⟩ := predict_after_fit m X y X h rfl hr
  obtain ⟨w', hw', -, hmin⟩ := fit_least_squares hinv m X y h
  rw [hw] at hw'
  obtain rfl := Option.some.inj hw'
  have hsp := (score_spec _ X y P hP).2 (by omega) (by omega)
  set T := ∑ i ∈ range y.r, (y.at' i 0 - (∑ k ∈ range y.r, y.at' k 0) / y.r) ^ 2 with hT
  by_cases h0 : T = 0
  · obtain ⟨e, he⟩ := hsp.1 h0
    rw [he] at hs
    simp at hs
  · have := hsp.2 h0
    rw [this] at hs
    injection hs with hs
    have hTpos : 0 < T := lt_of_le_of_ne (sum_sq_nonneg _ _) (Ne.symm h0)
    have e1 : ∑ i ∈ range y.r, (y.at' i 0 - P.at' i 0) ^ 2 =
        rss X y (fun j => w.getD j 0) (m.fit inv X y).1.intercept := by
      rw [hy]
      exact sum_congr rfl (fun i _ => by rw [hPv])
    have e2 : rss X y (fun _ => 0) ((∑ k ∈ range y.r, y.at' k 0) / y.r) = T := by
      rw [hT, hy]
      exact sum_congr rfl (fun i _ => by simp [affine])
    have h3 := hmin (fun _ => 0) ((∑ k ∈ range y.r, y.at' k 0) / y.r)
    rw [e2] at h3
    have h4 : 0 ≤ rss X y (fun j => w.getD j 0) (m.fit inv X y).1.intercept := sum_sq_nonneg _ _
    rw [← hs, r2, e1, ← hT]
    constructor
    · rw [sub_nonneg, div_le_one hTpos]; exact h3
    · linarith [div_nonneg h4 hTpos.le]

/-- **C40**: the predictions are what `GetIntercept` and `GetWeights` report: after a successful fit row `i` gets `GetIntercept() + Σ_j Z_ij GetWeights()_j`;
before any fit the weights are nil and the intercept is 0. -/
theorem getters_predict {inv : Mat K → Option (Mat K)} (m : LinReg K) (X y Z : Mat K) (h : (m.fit inv X y).2 = .ok ()) (hc : Z.c = X.c) (hr : Z.r ≠ 0) :
    (∃ w P, (m.fit inv X y).1.getWeights = some w ∧ w.length = X.c ∧ (m.fit inv X y).1.predict Z = .ok P ∧
      ∀ i, P.at' i 0 = affine Z (fun j => w.getD j 0) (m.fit inv X y).1.getIntercept i) ∧
    (LinReg.new : LinReg K).getWeights = none ∧ (LinReg.new : LinReg K).getIntercept = 0 := by
  refine ⟨?_, rfl, rfl⟩
  obtain ⟨-, -, -, -, B, hB, e⟩ := fit_ok_cases h
  rw [e]
  obtain ⟨P, h1, -, -, h2⟩ := (predict_spec
    { weights := some ((List.range X.c).map (fun i => LinReg.solveNormal B (withIntercept X) y (i + 1))),
      intercept := LinReg.solveNormal B (withIntercept X) y 0,
      nFeatures := X.c, fitted := true, nSamples := X.r } Z).2.2.2.1 _ rfl rfl (by simp) hc hr
  exact ⟨_, P, rfl, by simp, h1, h2⟩

end C40

/-! ## C41: failed refits -/

section C41
variable {α : Type _} [Add α] [Mul α] [Zero α] [One α]

/-- **C41 is false of the code**: a refit on data of another width that fails because the matrix is
singular makes every prediction on data of the old width an error. -/
theorem failed_refit_breaks_predict (inv : Mat α → Option (Mat α)) (m : LinReg α)
    (hf : m.fitted = true) (X y : Mat α) (hr : X.r ≠ 0) (hc : X.c ≠ 0) (hy : y.r = X.r)
    (hyc : y.c = 1) (hw : X.c ≠ m.nFeatures)
    (hsing : inv (mulMat (transpose (withIntercept X)) (withIntercept X)) = none)
    (Z : Mat α) (hZ : Z.c = m.nFeatures) :
    (m.fit inv X y).2 = .err .model ∧ (m.fit inv X y).1.fitted = true ∧
    (m.fit inv X y).1.predict Z = .err (.dimension X.c m.nFeatures 1) := by
  unfold LinReg.fit
  rw [if_neg (by tauto), if_neg (by tauto), if_neg (by tauto)]
  dsimp only
  rw [hsing]
  refine ⟨rfl, hf, ?_⟩
  simp [LinReg.predict, LinReg.predictBody, hf, hZ, Ne.symm hw]

/-- **C41** (partial): a `Fit` that fails changes nothing at all if its data has the width the model
was fitted with, or is rejected by the shape checks. Missing: failures on another width, see
`failed_refit_breaks_predict`. -/
theorem failed_refit_keeps_model_partial (inv : Mat α → Option (Mat α)) (m : LinReg α) (X y : Mat α)
    (h : (m.fit inv X y).2 ≠ .ok ())
    (hw : X.c = m.nFeatures ∨ X.r = 0 ∨ X.c = 0 ∨ y.r ≠ X.r ∨ y.c ≠ 1) :
    (m.fit inv X y).1 = m := by
  unfold LinReg.fit at h ⊢
  split_ifs at h ⊢ with h1 h2 h3
  · rfl
  · rfl
  · rfl
  · dsimp only at h ⊢
    split at h
    · rcases hw with hw | hw | hw | hw | hw
      · simp [hw]
      all_goals tauto
    · exact absurd rfl h

/-- whether a call succeeds does not depend on the model it is made on -/
theorem LinReg.step_result_indep (inv : Mat α → Option (Mat α)) (m m' : LinReg α) (X y : Mat α) :
    (m.fit inv X y).2 = (m'.fit inv X y).2 := by
  unfold LinReg.fit
  split_ifs <;> try rfl
  dsimp only
  split <;> rfl

/-- the call succeeds (on any model, see `LinReg.step_result_indep`) -/
def LinReg.Op.succeeds (inv : Mat α → Option (Mat α)) : LinReg.Op α → Bool
  | .fit X y => ((LinReg.new : LinReg α).fit inv X y).2.isOk
  | .load d => ((LinReg.new : LinReg α).load d).2.isOk

/-- the data of the call has width `c` -/
def LinReg.Op.width (c : Nat) : LinReg.Op α → Prop
  | .fit X _ => X.c = c
  | .load d => d.coefficients.length = c

theorem load_keeps {m : LinReg α} {d : LinReg.SKParams α}
    (h : ((LinReg.new : LinReg α).load d).2.isOk = false) : (m.load d).1 = m := by
  unfold LinReg.load at h ⊢
  split_ifs at h ⊢ <;> first | rfl | simp [Outcome.isOk] at h

/-- **C41** (partial): over any history of `Fit` and `Load` calls on data of the width the model was
fitted with, the failed calls have no effect: the model is what the successful calls alone make of
it. Missing: histories that mix widths. -/
theorem history_failed_calls_irrelevant_partial (inv : Mat α → Option (Mat α)) (m : LinReg α)
    (ops : List (LinReg.Op α)) (hw : ∀ o ∈ ops, o.width m.nFeatures) :
    LinReg.run inv m ops = LinReg.run inv m (ops.filter (LinReg.Op.succeeds inv)) := by
  induction ops generalizing m with
  | nil => rfl
  | cons o ops ih =>
    have hstep : (LinReg.step inv m o).nFeatures = m.nFeatures := by
      have := hw o (by simp)
      cases o with
      | fit X y =>
        have hx : X.c = m.nFeatures := this
        simp only [LinReg.step, LinReg.fit]
        split_ifs <;> try rfl
        split <;> exact hx
      | load d =>
        have hx : d.coefficients.length = m.nFeatures := this
        simp only [LinReg.step, LinReg.load]
        split_ifs <;> first | rfl | exact hx
    have ihs := ih (LinReg.step inv m o) (fun o' ho' => by
      rw [hstep]; exact hw o' (by simp [ho']))
    by_cases hs : o.succeeds inv = true
    · rw [List.filter_cons_of_pos hs]
      exact ihs
    · rw [List.filter_cons_of_neg hs]
      have e : LinReg.step inv m o = m := by
        cases o with
        | fit X y =>
          refine failed_refit_keeps_model_partial inv m X y ?_ (Or.inl (hw (.fit X y) (by simp)))
          rw [LinReg.step_result_indep inv m LinReg.new]
          intro hh
          simp [LinReg.Op.succeeds, hh, Outcome.isOk] at hs
        | load d =>
          exact load_keeps (by simpa [LinReg.Op.succeeds] using hs)
      rw [e] at ihs
      rw [← ihs]
      simp only [LinReg.run, List.foldl_cons, e]

end C41

/-! ## C80: scikit-learn JSON files -/

section C80
variable {α : Type _} [Add α] [Mul α] [Zero α] [One α]

/-- **C80**: a document is accepted exactly when it is a version 1.0 `LinearRegression` with at least
one coefficient and a matching feature count; then the model predicts `X·coef + intercept` with it,
otherwise the model is untouched. -/
theorem load_spec (m : LinReg α) (d : LinReg.SKParams α) :
    ((m.load d).2 = .ok () ↔ d.formatVersion = "1.0" ∧ d.name = "LinearRegression" ∧
      d.coefficients ≠ [] ∧ d.nFeatures = d.coefficients.length) ∧
    ((m.load d).2 = .ok () → (m.load d).1.fitted = true ∧
      (m.load d).1.weights = some d.coefficients ∧ (m.load d).1.intercept = d.intercept ∧
      (m.load d).1.nFeatures = d.coefficients.length) ∧
    ((m.load d).2 ≠ .ok () → (m.load d).1 = m) := by
  unfold LinReg.load
  split_ifs with h1 h2 h3 h4 h5 h6 <;> simp_all

/-- **C80**: exporting a fitted model and loading the document into any model gives a model with the
same predictions on every input. -/
theorem export_load_predictions (finite : α → Bool) (m m' : LinReg α) (w : List α)
    (hw : m.weights = some w) (hl : w.length = m.nFeatures) (hpos : m.nFeatures ≠ 0)
    (d : LinReg.SKParams α) (hd : m.export_ finite = .ok d) :
    (m'.load d).2 = .ok () ∧ ∀ Z, (m'.load d).1.predict Z = m.predict Z := by
  have hf : m.fitted = true := by
    by_contra h
    simp only [LinReg.export_] at hd
    rw [if_pos (by simpa using h)] at hd
    simp at hd
  have hd' : d = ⟨"LinearRegression", "1.0", w, m.intercept, m.nFeatures⟩ := by
    simp only [LinReg.export_, hf, hw, Option.getD_some] at hd
    split_ifs at hd
    all_goals
      injection hd with hd
      exact hd.symm
  subst hd'
  have hne : ¬ (w.length = 0) := by omega
  have e : m'.load ⟨"LinearRegression", "1.0", w, m.intercept, (m.nFeatures : Int)⟩ =
      ({ weights := some w, intercept := m.intercept, nFeatures := w.length, fitted := true,
         nSamples := 0 }, .ok ()) := by
    simp [LinReg.load, hl, hpos]
  rw [e]
  refine ⟨rfl, fun Z => ?_⟩
  simp [LinReg.predict, LinReg.predictBody, hf, hw, hl]

/-- A model broken by a failed refit on another width exports a document that no model will load. -/
theorem export_after_failed_refit_rejected (inv : Mat α → Option (Mat α)) (finite : α → Bool)
    (m m' : LinReg α) (hf : m.fitted = true) (w : List α) (hw : m.weights = some w)
    (hl : w.length = m.nFeatures) (hfin : w.all finite = true) (hfb : finite m.intercept = true)
    (X y : Mat α) (hr : X.r ≠ 0) (hc : X.c ≠ 0) (hy : y.r = X.r)
    (hyc : y.c = 1) (hne : X.c ≠ m.nFeatures)
    (hsing : inv (mulMat (transpose (withIntercept X)) (withIntercept X)) = none) :
    ∃ d, (m.fit inv X y).1.export_ finite = .ok d ∧ (m'.load d).2 ≠ .ok () := by
  have e : (m.fit inv X y).1 = { m with nFeatures := X.c } := by
    unfold LinReg.fit
    rw [if_neg (by tauto), if_neg (by tauto), if_neg (by tauto)]
    dsimp only
    rw [hsing]
  refine ⟨⟨"LinearRegression", "1.0", w, m.intercept, X.c⟩, ?_, ?_⟩
  · rw [e]
    simp only [LinReg.export_, hf, hw, Option.getD_some]
    rw [if_neg (by simp), if_pos (by rw [hfin, hfb]; rfl)]
  · intro h
    have := ((load_spec m' _).1.1 h).2.2.2
    simp only [hl] at this
    exact hne (by exact_mod_cast this)

end C80

/-! ## C81, C82: `linear_model.LinearRegression` -/

section C81
variable [Field K] [LinearOrder K] [IsStrictOrderedRing K]

theorem lm_fit_cases {solve : Mat K → Mat K → Option (Mat K)} {m : LM K} {X y : Mat K}
    (h : (m.fit solve X y).2 = .ok ()) :
    y.r = X.r ∧ y.c = 1 ∧ (m.design X).c ≤ (m.design X).r ∧
    ∃ th, solve (m.design X) y = some th ∧
      (m.fit solve X y).1 =
        { (LM.extract { m with nSamples := (X.r : Int), nFeatures := (X.c : Int), rank := ((m.design X).c : Int) }
            X.c th) with fitted := true } := by
  unfold LM.fit at h ⊢
  split_ifs at h ⊢ with h1 h2 h3 h4 h5
  dsimp only at h ⊢
  split at h
  · simp at h
  · rename_i th hth
    exact ⟨(not_not.1 h1).symm, not_not.1 h2, not_lt.1 h4, th, hth, rfl⟩

/-- **C81**: wrong shapes are named by the error: expected and given number of rows on axis 0, or of columns of `y` on axis 1; the model is left as it was -/
theorem lm_fit_shape_errors (solve : Mat K → Mat K → Option (Mat K)) (m : LM K) (X y : Mat K) :
    (X.r ≠ y.r → m.fit solve X y = (m, .err (.dimension X.r y.r 0))) ∧
    (X.r = y.r → y.c ≠ 1 → m.fit solve X y = (m, .err (.dimension 1 y.c 1))) := by
  constructor
  · intro h
    unfold LM.fit
    rw [if_pos h]
  · intro h h1
    unfold LM.fit
    rw [if_neg (not_not.2 h), if_pos h1]

/-- **C81**: without the positivity option, a successful `Fit` minimises the residual sum of squares
over all weights (and all intercepts when an intercept is fitted; otherwise the intercept is 0). -/
theorem lm_fit_least_squares {solve : Mat K → Mat K → Option (Mat K)} (hs : SolveSound solve)
    (m : LM K) (hp : m.positive = false) (X y : Mat K) (h : (m.fit solve X y).2 = .ok ()) :
    (m.fit solve X y).1.fitted = true ∧ (m.fit solve X y).1.nFeatures = X.c ∧
    (m.fit solve X y).1.coef.length = X.c ∧
    (m.fitIntercept = true →
      NormalEquations X y (fun j => (m.fit solve X y).1.coef.getD j 0) (m.fit solve X y).1.intercept ∧
      ∀ w' b', rss X y (fun j => (m.fit solve X y).1.coef.getD j 0) (m.fit solve X y).1.intercept ≤
        rss X y w' b') ∧
    (m.fitIntercept = false → (m.fit solve X y).1.intercept = 0 ∧
      ∀ w', rss X y (fun j => (m.fit solve X y).1.coef.getD j 0) 0 ≤ rss X y w' 0) := by
  obtain ⟨hy, hyc, hge, th, hth, e⟩ := lm_fit_cases h
  have hdr : (m.design X).r = X.r := by unfold LM.design; split <;> rfl
  have horth := hs _ y th hge (by rw [hdr, hy]) hyc hth
  rw [e]
  simp only [LM.extract, hp]
  refine ⟨trivial, by simp, by simp, fun hfi => ?_, fun hfi => ?_⟩
  · simp only [LM.design, hfi, if_true] at horth ⊢
    have hn := normalEquations_of_design X y (fun l => th.at' l 0) (fun k hk => horth k hk)
    have ea : ∀ i, affine X (fun j => ((List.range X.c).map (fun i => th.at' (i + 1) 0)).getD j 0)
        (th.at' 0 0) i = affine X (fun j => th.at' (j + 1) 0) (th.at' 0 0) i := fun i =>
      affine_congr _ _ (fun j hj => by rw [List.getD_eq_getElem _ _ (by simpa using hj)]; simp)
    have hn' : NormalEquations X y
        (fun j => ((List.range X.c).map (fun i => th.at' (i + 1) 0)).getD j 0) (th.at' 0 0) :=
      ⟨by simpa only [ea] using hn.1, fun j hj => by simpa only [ea] using hn.2 j hj⟩
    refine ⟨hn', fun w' b' => ?_⟩
    rw [rss_decomp X y hn' w' b']
    exact le_add_of_nonneg_right (sum_sq_nonneg _ _)
  · simp only [LM.design, hfi] at horth ⊢
    refine ⟨rfl, fun w' => ?_⟩
    have ea : ∀ i, affine X (fun j => ((List.range X.c).map (fun i => th.at' i 0)).getD j 0) 0 i =
        ∑ l ∈ range X.c, X.at' i l * th.at' l 0 := by
      intro i
      rw [affine_congr (w' := fun j => th.at' j 0) _ _ (fun j hj => by
        rw [List.getD_eq_getElem _ _ (by simpa using hj)]; simp)]
      simp [affine]
    have := rss_decomp_aux X y
      (w := fun j => ((List.range X.c).map (fun i => th.at' i 0)).getD j 0) (b := 0) w' 0
      (by simp) (fun j hj => by simp only [ea]; exact horth j hj)
    have e2 : rss X y (fun j => ((List.range X.c).map (fun i => th.at' i 0)).getD j 0) 0 ≤
        rss X y w' 0 := by
      rw [this]
      exact le_add_of_nonneg_right (sum_sq_nonneg _ _)
    simpa using e2

/-- **C81**: what `Predict` of `linear_model.LinearRegression` answers after a successful `Fit`. -/
theorem lm_predict_spec {solve : Mat K → Mat K → Option (Mat K)} (m : LM K) (X y Z : Mat K)
    (h : (m.fit solve X y).2 = .ok ()) :
    (Z.c ≠ X.c → (m.fit solve X y).1.predict Z = .err (.dimension X.c Z.c 1)) ∧
    (Z.c = X.c → Z.r ≠ 0 → ∃ P, (m.fit solve X y).1.predict Z = .ok P ∧ P.r = Z.r ∧ P.c = 1 ∧
      ∀ i, P.at' i 0 = affine Z (fun j => (m.fit solve X y).1.coef.getD j 0)
        (m.fit solve X y).1.intercept i) := by
  obtain ⟨hy, hyc, hge, th, hth, e⟩ := lm_fit_cases h
  have h1 : (m.fit solve X y).1.nFeatures = X.c := by
    rw [e]; simp only [LM.extract]; split <;> rfl
  have h2 : (m.fit solve X y).1.fitted = true := by rw [e]
  have h3 : (m.fit solve X y).1.coef.length = X.c := by
    rw [e]; simp only [LM.extract]; split <;> simp
  refine ⟨fun hc => ?_, fun hc hr => ?_⟩
  · have : (Z.c : Int) ≠ (X.c : Int) := by exact_mod_cast hc
    simp [LM.predict, h1, h2, this]
  · refine ⟨{ r := Z.r, c := 1, at' := fun i _ => predRow (m.fit solve X y).1.coef (m.fit solve X y).1.intercept Z i },
      by simp [LM.predict, h1, h2, h3, hc, hr], rfl, rfl, fun i => predRow_eq _ _ _ _⟩

/-- **C81** (behaviour the documentation does not announce): with fewer rows than columns of the
design, `Fit` panics instead of returning an error — and has already changed the width. -/
theorem lm_fit_underdetermined_panics (solve : Mat K → Mat K → Option (Mat K)) (m : LM K) (X y : Mat K)
    (hy : y.r = X.r) (hyc : y.c = 1) (hr : X.r < X.c) :
    (∃ v, (m.fit solve X y).2 = .panic v) ∧ (m.fit solve X y).1.nFeatures = X.c := by
  have hd : (m.design X).r < (m.design X).c := by
    unfold LM.design; split <;> (try simp only [withIntercept]) <;> omega
  unfold LM.fit
  rw [if_neg (by omega), if_neg (by omega)]
  dsimp only
  by_cases h0 : m.fitIntercept = true ∧ X.r = 0
  · rw [if_pos h0]; exact ⟨⟨_, rfl⟩, rfl⟩
  · rw [if_neg h0, if_pos hd]; exact ⟨⟨_, rfl⟩, rfl⟩

/-- **C82** (partial): with the positivity option no coefficient and no intercept is negative.
Missing: optimality among the non-negative coefficients, which fails (`positive_not_optimal`). -/
theorem positive_nonneg_partial (solve : Mat K → Mat K → Option (Mat K)) (m : LM K)
    (hp : m.positive = true) (X y : Mat K) (h : (m.fit solve X y).2 = .ok ()) :
    (∀ x ∈ (m.fit solve X y).1.coef, 0 ≤ x) ∧ 0 ≤ (m.fit solve X y).1.intercept := by
  obtain ⟨-, -, -, th, -, e⟩ := lm_fit_cases h
  have hc : ∀ x : K, 0 ≤ LM.clamp0 x := fun x => by
    unfold LM.clamp0; split
    · exact le_rfl
    · exact not_lt.1 ‹_›
  rw [e]
  simp only [LM.extract, hp, if_true]
  refine ⟨fun x hx => ?_, hc _⟩
  obtain ⟨z, -, rfl⟩ := List.mem_map.1 hx
  exact hc z

/-- **C82** (partial): when the unconstrained least-squares solution is already non-negative, the
positivity option does not change it. -/
theorem positive_inactive_partial (solve : Mat K → Mat K → Option (Mat K)) (m : LM K)
    (hp : m.positive = true) (X y : Mat K)
    (h : (m.fit solve X y).2 = .ok ())
    (hnn : ∀ x ∈ (({ m with positive := false } : LM K).fit solve X y).1.coef, 0 ≤ x)
    (hb : 0 ≤ (({ m with positive := false } : LM K).fit solve X y).1.intercept) :
    (m.fit solve X y).1.coef = (({ m with positive := false } : LM K).fit solve X y).1.coef ∧
    (m.fit solve X y).1.intercept =
      (({ m with positive := false } : LM K).fit solve X y).1.intercept := by
  have h' : (({ m with positive := false } : LM K).fit solve X y).2 = .ok () := by
    unfold LM.fit at h ⊢
    simp only [LM.design] at h ⊢
    split_ifs at h ⊢ <;> (split at h <;> simp_all)
  obtain ⟨-, -, -, th, hth, e⟩ := lm_fit_cases h
  obtain ⟨-, -, -, th', hth', e'⟩ := lm_fit_cases h'
  have : th' = th := by
    have hd : LM.design ({ m with positive := false } : LM K) X = m.design X := rfl
    rw [hd, hth] at hth'
    exact (Option.some.inj hth').symm
  subst this
  rw [e'] at hnn hb ⊢
  rw [e]
  have hc : ∀ x : K, 0 ≤ x → LM.clamp0 x = x := fun x hx => by
    unfold LM.clamp0; rw [if_neg (not_lt.2 hx)]
  simp only [LM.extract, hp, if_true] at hnn hb ⊢
  simp only [Bool.false_eq_true, if_false] at hnn hb ⊢
  refine ⟨?_, hc _ hb⟩
  conv_rhs => rw [← List.map_id (List.map _ (List.range X.c))]
  exact List.map_congr_left (fun x hx => hc x (hnn x hx))

/-- the data of the counterexample: rows (1,1), (0,1), targets 0, 1 -/
def posX : Mat K := Mat.ofRows [[1, 1], [0, 1]] 2 0
/-- targets of the counterexample -/
def posY : Mat K := Mat.ofRows [[0], [1]] 1 0

/-- **C82 is false of the code**: for any sound solver that succeeds on this data, the fit with the
positivity option and no intercept has a strictly larger residual than the non-negative weights
(0, 1/2). -/
theorem positive_not_optimal {solve : Mat K → Mat K → Option (Mat K)} (hs : SolveSound solve)
    (m : LM K) (hp : m.positive = true) (hi : m.fitIntercept = false)
    (h : (m.fit solve posX posY).2 = .ok ()) :
    rss posX posY (fun j => [0, 1 / 2].getD j 0) 0 <
      rss (posX (K := K)) posY (fun j => (m.fit solve posX posY).1.coef.getD j 0)
        (m.fit solve posX posY).1.intercept := by
  obtain ⟨-, -, -, th, hth, e⟩ := lm_fit_cases h
  have hd : m.design (posX (K := K)) = posX := by simp [LM.design, hi]
  rw [hd] at hth
  have horth := hs posX posY th (le_refl 2) rfl rfl hth
  have o0 := horth 0 (by show 0 < 2; omega)
  have o1 := horth 1 (by show 1 < 2; omega)
  simp [posX, posY, Mat.ofRows, sum_range_succ] at o0 o1
  have t1 : th.at' 1 0 = 1 := by linear_combination o0 - o1
  have t0 : th.at' 0 0 = -1 := by linear_combination -o0 - t1
  rw [e]
  simp [LM.extract, hp, hi, rss, affine, posX, posY, Mat.ofRows, sum_range_succ, LM.clamp0, t0, t1,
    List.range_succ]
  norm_num [List.getD]

end C81

/-! ## C42: exporting, importing and cloning weights -/

section C42
variable {α : Type _} [Add α] [Mul α] [Zero α] [One α]

/-- **C42 is false of the code**: the clone of a fitted model is fitted and has the same coefficients,
intercept and options, but believes it has 0 features, so its `Predict` rejects every input that the
original accepts. -/
theorem clone_forgets_width (checksum : List α → String) (toInt : α → Int) (m : LM α)
    (hf : m.fitted = true) :
    (m.clone checksum toInt).fitted = true ∧ (m.clone checksum toInt).coef = m.coef ∧
    (m.clone checksum toInt).intercept = m.intercept ∧
    (m.clone checksum toInt).fitIntercept = m.fitIntercept ∧
    (m.clone checksum toInt).positive = m.positive ∧ (m.clone checksum toInt).nJobs = m.nJobs ∧
    (∀ Z, Z.c ≠ 0 → (m.clone checksum toInt).predict Z = .err (.dimension 0 Z.c 1)) := by
  have e : m.clone checksum toInt =
      { m with nFeatures := 0, nSamples := 0, rank := 0, version := "1.0.0" } := by
    simp [LM.clone, LM.exportWeights, LM.importWeights, LM.setParams, LM.getParams, LM.new, LM.asBool,
      LM.asInt, LM.asFloatInt, LM.checksumBad, hf]
  rw [e]
  refine ⟨hf, rfl, rfl, rfl, rfl, rfl, fun Z hZ => ?_⟩
  simp [LM.predict, hf, hZ]

/-- **C42 is false of the code**: so no clone of a usable model predicts what the model predicts. -/
theorem clone_predicts_differently (checksum : List α → String) (toInt : α → Int) (m : LM α)
    (Z P : Mat α) (hZ : Z.c ≠ 0) (h : m.predict Z = .ok P) :
    (m.clone checksum toInt).predict Z ≠ m.predict Z := by
  have hf : m.fitted = true := by
    by_contra hn
    simp only [LM.predict] at h
    rw [if_pos (by simpa using hn)] at h
    simp at h
  rw [(clone_forgets_width checksum toInt m hf).2.2.2.2.2.2 Z hZ, h]
  simp

/-- the exported weights, spelled out -/
theorem export_ok (checksum : List α → String) (m : LM α) (hf : m.fitted = true) :
    ∃ w, m.exportWeights checksum = .ok w ∧ w.coefficients = m.coef ∧ w.intercept = m.intercept ∧
      w.modelType = "LinearRegression" ∧ w.fitted = true ∧
      w.meta_ "n_features" = some (.int m.nFeatures) ∧ w.meta_ "n_samples" = some (.int m.nSamples) ∧
      w.meta_ "rank" = some (.int m.rank) ∧ w.meta_ "checksum" = some (.str (checksum m.coef)) ∧
      w.hyper = m.getParams := by
  refine ⟨_, by simp only [LM.exportWeights, hf]; rfl, rfl, rfl, rfl, rfl, ?_, ?_, ?_, ?_, rfl⟩ <;>
    simp

/-- **C42** (partial): importing a model's exported weights directly into a model of the same width
gives the same predictions. Missing: receivers of another width (a new model in particular), see
`clone_forgets_width`. -/
theorem import_same_width_partial (checksum : List α → String) (toInt : α → Int) (m m' : LM α)
    (hw : m'.nFeatures = m.nFeatures) (w : MW α) (h : m.exportWeights checksum = .ok w) :
    (m'.importWeights checksum toInt (some w)).2 = .ok () ∧
    ∀ Z, (m'.importWeights checksum toInt (some w)).1.predict Z = m.predict Z := by
  have hf : m.fitted = true := by
    by_contra hn
    simp only [LM.exportWeights] at h
    rw [if_pos (by simpa using hn)] at h
    simp at h
  obtain ⟨w', h1, h2, h3, h4, h5, h6, h7, h8, h9, h10⟩ := export_ok checksum m hf
  rw [h] at h1
  obtain rfl : w = w' := by injection h1
  have hcs : LM.checksumBad checksum w = false := by simp [LM.checksumBad, h9, h2]
  simp only [LM.importWeights, h4, hcs]
  refine ⟨rfl, fun Z => ?_⟩
  simp [LM.predict, LM.asFloatInt, LM.setParams, h2, h3, h6, hf, hw]

/-- **C42** (partial): through the JSON form (`ToJSON`, `FromJSON`) the weights can be imported into
any model and it then predicts what the original predicts (counts survive the conversion to floating
point, i.e. are below 2^53). -/
theorem json_import_predictions_partial (checksum : List α → String) (toInt : α → Int)
    (ofInt : Int → α) (finite : α → Bool) (ks : List String) (m m' : LM α)
    (hn : toInt (ofInt m.nFeatures) = m.nFeatures) (w w' : MW α)
    (h : m.exportWeights checksum = .ok w) (hj : w.jsonTrip ofInt finite ks = some w') :
    (m'.importWeights checksum toInt (some w')).2 = .ok () ∧
    ∀ Z, (m'.importWeights checksum toInt (some w')).1.predict Z = m.predict Z := by
  have hf : m.fitted = true := by
    by_contra hn
    simp only [LM.exportWeights] at h
    rw [if_pos (by simpa using hn)] at h
    simp at h
  obtain ⟨w'', h1, h2, h3, h4, h5, h6, h7, h8, h9, h10⟩ := export_ok checksum m hf
  rw [h] at h1
  obtain rfl : w = w'' := by injection h1
  have hw' : w' = { w with hyper := fun k => (w.hyper k).map (MW.jsonVal ofInt),
                           meta_ := fun k => (w.meta_ k).map (MW.jsonVal ofInt) } := by
    simp only [MW.jsonTrip] at hj
    split_ifs at hj
    exact (Option.some.inj hj).symm
  subst hw'
  have hcs : LM.checksumBad checksum { w with hyper := fun k => (w.hyper k).map (MW.jsonVal ofInt), meta_ := fun k => (w.meta_ k).map (MW.jsonVal ofInt) } = false := by
    simp [LM.checksumBad, h9, h2, MW.jsonVal]
  unfold LM.importWeights
  dsimp only
  rw [if_neg (by simpa using h4), hcs]
  refine ⟨rfl, fun Z => ?_⟩
  simp [LM.predict, LM.asFloatInt, LM.setParams, h2, h3, h6, hf, hn, MW.jsonVal]

/-- **C42** (defect): the JSON form does not carry the number of jobs: it arrives as a float, which
`SetParams` ignores, so the receiver keeps its own. -/
theorem json_import_loses_nJobs (checksum : List α → String) (toInt : α → Int)
    (ofInt : Int → α) (finite : α → Bool) (ks : List String) (m m' : LM α) (w w' : MW α)
    (h : m.exportWeights checksum = .ok w) (hj : w.jsonTrip ofInt finite ks = some w') :
    (m'.importWeights checksum toInt (some w')).1.nJobs = m'.nJobs := by
  have hf : m.fitted = true := by
    by_contra hn
    simp only [LM.exportWeights] at h
    rw [if_pos (by simpa using hn)] at h
    simp at h
  obtain ⟨w'', h1, h2, h3, h4, h5, h6, h7, h8, h9, h10⟩ := export_ok checksum m hf
  rw [h] at h1
  obtain rfl : w = w'' := by injection h1
  have hw' : w' = { w with hyper := fun k => (w.hyper k).map (MW.jsonVal ofInt),
                           meta_ := fun k => (w.meta_ k).map (MW.jsonVal ofInt) } := by
    simp only [MW.jsonTrip] at hj
    split_ifs at hj
    exact (Option.some.inj hj).symm
  subst hw'
  simp only [LM.importWeights, h4]
  split_ifs <;> simp [LM.setParams, h10, LM.getParams, MW.jsonVal, LM.asInt]

/-- **C42 is false of the code**: weights rejected for a bad checksum have already replaced the
coefficients and the intercept of a fitted model. -/
theorem rejected_import_overwrites (checksum : List α → String) (toInt : α → Int) (m : LM α)
    (w : MW α) (ht : w.modelType = "LinearRegression") (s : String)
    (hs : w.meta_ "checksum" = some (.str s)) (hbad : s ≠ checksum w.coefficients) :
    (∃ e, (m.importWeights checksum toInt (some w)).2 = .err e) ∧
    (m.importWeights checksum toInt (some w)).1.fitted = m.fitted ∧
    (m.importWeights checksum toInt (some w)).1.coef = w.coefficients ∧
    (m.importWeights checksum toInt (some w)).1.intercept = w.intercept := by
  have hcs : LM.checksumBad checksum w = true := by simp [LM.checksumBad, hs, hbad]
  simp only [LM.importWeights, ht, hcs]
  exact ⟨⟨_, rfl⟩, rfl, rfl, rfl⟩

/-- **C42** (partial): nil weights and weights of another model type are rejected and change nothing.
Missing: rejection for a bad checksum, see `rejected_import_overwrites`. -/
theorem rejected_import_unchanged_partial (checksum : List α → String) (toInt : α → Int) (m : LM α)
    (w : Option (MW α)) (h : ∀ v, w = some v → v.modelType ≠ "LinearRegression") :
    (∃ e, (m.importWeights checksum toInt w).2 = .err e) ∧
    (m.importWeights checksum toInt w).1 = m := by
  cases w with
  | none => exact ⟨⟨_, rfl⟩, rfl⟩
  | some v => simp [LM.importWeights, h v rfl]

/-- **C42**: `ImportWeights` succeeds exactly on weights of the right type whose checksum, if present
as a string, is that of the coefficients; corrupted coefficients with an intact checksum are refused
whenever the checksum tells them apart. -/
theorem import_ok_iff (checksum : List α → String) (toInt : α → Int) (m : LM α) (w : Option (MW α)) :
    (m.importWeights checksum toInt w).2 = .ok () ↔
      ∃ v, w = some v ∧ v.modelType = "LinearRegression" ∧
        ∀ s, v.meta_ "checksum" = some (.str s) → s = checksum v.coefficients := by
  cases w with
  | none => simp [LM.importWeights]
  | some v =>
    simp only [LM.importWeights, Option.some.injEq, exists_eq_left']
    by_cases ht : v.modelType = "LinearRegression"
    · rw [if_neg (by simpa using ht)]
      unfold LM.checksumBad
      split
      · rename_i s hs
        by_cases hh : s = checksum v.coefficients
        · simp [hh, ht, hs]
        · simp [hh, ht, hs]
      · rename_i hs
        simp only [Bool.false_eq_true, if_false, ht, true_and, true_iff]
        intro s hs'
        exact absurd hs' (hs s)
    · rw [if_pos ht]
      simp [ht]

/-- **C42**: exported weights pass through JSON exactly if all their numbers are finite: coefficients, intercept, and the numbers among the hyperparameters and
the metadata; what comes back has the same coefficients and intercept. -/
theorem json_trip_iff (ofInt : Int → α) (finite : α → Bool) (ks : List String) (w : MW α) :
    ((w.jsonTrip ofInt finite ks).isSome ↔ (∀ x ∈ w.coefficients, finite x = true) ∧ finite w.intercept = true ∧
      ∀ k ∈ ks, (∀ x, w.hyper k = some (.float x) → finite x = true) ∧ ∀ x, w.meta_ k = some (.float x) → finite x = true) ∧
    ∀ w', w.jsonTrip ofInt finite ks = some w' → w'.coefficients = w.coefficients ∧ w'.intercept = w.intercept := by
  have hbad : ∀ (v : Option (Dyn α)) (b : Bool), (b = match v with | some (.float x) => !finite x | _ => false) →
      ((!b) = true ↔ ∀ x, v = some (.float x) → finite x = true) := by
    intro v b hb
    subst hb
    cases v with
    | none => simp
    | some d => cases d <;> simp
  constructor
  · unfold MW.jsonTrip
    dsimp only
    split
    · rename_i h
      simp only [Bool.and_eq_true, List.all_eq_true] at h
      simp only [Option.isSome_some, true_iff]
      exact ⟨h.1.1.1, h.1.1.2, fun k hk => ⟨(hbad _ _ rfl).1 (h.1.2 k hk), (hbad _ _ rfl).1 (h.2 k hk)⟩⟩
    · rename_i h
      simp only [Bool.and_eq_true, List.all_eq_true] at h
      simp only [Option.isSome_none, Bool.false_eq_true, false_iff]
      exact fun hh => h ⟨⟨⟨hh.1, hh.2.1⟩, fun k hk => (hbad _ _ rfl).2 (hh.2.2 k hk).1⟩, fun k hk => (hbad _ _ rfl).2 (hh.2.2 k hk).2⟩
  · intro w' hw
    unfold MW.jsonTrip at hw
    dsimp only at hw
    split at hw
    · injection hw with hw
      subst hw
      exact ⟨rfl, rfl⟩
    · cases hw

end C42

/-! ## C43: validation and copying of exported weights -/

section C43
variable {α : Type _}

/-- **C43**: `Validate` accepts exactly the weights with a type, a version, and coefficients present
exactly when the model is fitted. -/
theorem validate_iff (w : MW α) :
    w.validate = .ok () ↔ w.modelType ≠ "" ∧ w.version ≠ "" ∧
      (w.fitted = true ↔ w.coefficients ≠ []) := by
  unfold MW.validate
  cases hfit : w.fitted <;> cases hc : w.coefficients <;> split_ifs <;> simp_all

/-- what is exported always validates, if the model has a version and at least one coefficient -/
theorem export_validates (checksum : List α → String) (m : LM α) (w : MW α)
    (h : m.exportWeights checksum = .ok w) (hv : m.version ≠ "") (hc : m.coef ≠ []) :
    w.validate = .ok () := by
  rw [validate_iff]
  simp only [LM.exportWeights] at h
  split_ifs at h
  injection h with h
  subst h
  simp [hv, hc]

theorem MWRef.clone_cells (h : Heap α) (w : MWRef α) :
    (w.clone h).1.next = h.next + 4 ∧
    (w.clone h).2.coefficients = some h.next ∧ (w.clone h).2.features = some (h.next + 1) ∧
    (w.clone h).2.hyper = some (h.next + 2) ∧ (w.clone h).2.meta_ = some (h.next + 3) ∧
    (w.clone h).1.cell h.next = .floats (MWRef.floatsAt h w.coefficients) ∧
    (w.clone h).1.cell (h.next + 1) = .strs (MWRef.strsAt h w.features) ∧
    (w.clone h).1.cell (h.next + 2) = .dmap (MWRef.dmapAt h w.hyper) ∧
    (w.clone h).1.cell (h.next + 3) = .dmap (MWRef.dmapAt h w.meta_) ∧
    ∀ a < h.next, (w.clone h).1.cell a = h.cell a := by
  refine ⟨rfl, rfl, rfl, rfl, rfl, ?_, ?_, ?_, ?_, fun a ha => ?_⟩
  · have h3 : h.next ≠ h.next + 1 + 1 := by omega
    have h4 : h.next ≠ h.next + 1 + 1 + 1 := by omega
    simp [MWRef.clone, Heap.alloc, h3, h4]
  · simp [MWRef.clone, Heap.alloc]
  · simp [MWRef.clone, Heap.alloc]
  · simp [MWRef.clone, Heap.alloc]
  · have h1 : a ≠ h.next := by omega
    have h2 : a ≠ h.next + 1 := by omega
    have h3 : a ≠ h.next + 1 + 1 := by omega
    have h4 : a ≠ h.next + 1 + 1 + 1 := by omega
    simp [MWRef.clone, Heap.alloc, h1, h2, h3, h4]

theorem writes_cell {h : Heap α} {ops : List (Nat × Cell α)} {a : Nat} (ha : ∀ o ∈ ops, o.1 ≠ a) :
    (writes h ops).cell a = h.cell a := by
  induction ops generalizing h with
  | nil => rfl
  | cons o ops ih =>
    have h1 : writes h (o :: ops) = writes (h.write o.1 o.2) ops := rfl
    rw [h1, ih (fun o' ho' => ha o' (by simp [ho']))]
    have : a ≠ o.1 := fun e => ha o (by simp) e.symm
    simp [Heap.write, this]

theorem floatsAt_congr {h h' : Heap α} (p : Option Nat) (e : ∀ a, p = some a → h'.cell a = h.cell a) :
    MWRef.floatsAt h' p = MWRef.floatsAt h p := by
  cases p with
  | none => rfl
  | some a => simp only [MWRef.floatsAt]; rw [e a rfl]

theorem strsAt_congr {h h' : Heap α} (p : Option Nat) (e : ∀ a, p = some a → h'.cell a = h.cell a) :
    MWRef.strsAt h' p = MWRef.strsAt h p := by
  cases p with
  | none => rfl
  | some a => simp only [MWRef.strsAt]; rw [e a rfl]

theorem dmapAt_congr {h h' : Heap α} (p : Option Nat) (e : ∀ a, p = some a → h'.cell a = h.cell a) :
    MWRef.dmapAt h' p = MWRef.dmapAt h p := by
  cases p with
  | none => rfl
  | some a => simp only [MWRef.dmapAt]; rw [e a rfl]

/-- **C43**: a clone shows exactly what the original showed. -/
theorem clone_view_eq (h : Heap α) (w : MWRef α) (hv : ∀ m, (m = MWRef.dmapAt h w.hyper ∨
      m = MWRef.dmapAt h w.meta_) → ∀ k a, m k = some (.ref a) → a < h.next) :
    (w.clone h).2.view (w.clone h).1 = w.view h ∧
    (w.clone h).2.modelType = w.modelType ∧ (w.clone h).2.version = w.version ∧
    (w.clone h).2.intercept = w.intercept ∧ (w.clone h).2.fitted = w.fitted := by
  obtain ⟨-, h1, h2, h3, h4, c1, c2, c3, c4, c5⟩ := MWRef.clone_cells h w
  refine ⟨?_, rfl, rfl, rfl, rfl⟩
  have key : ∀ (m : DMap α), (∀ k a, m k = some (.ref a) → a < h.next) →
      derefMap (w.clone h).1 m = derefMap h m := by
    intro m hm
    funext k
    unfold derefMap
    cases hk : m k with
    | none => rfl
    | some v =>
      cases v with
      | ref a => simp [derefVal, c5 a (hm k a hk)]
      | _ => rfl
  simp only [MWRef.view, h1, h2, h3, h4, MWRef.floatsAt, MWRef.strsAt]
  have d3 : MWRef.dmapAt (w.clone h).1 (some (h.next + 2)) = MWRef.dmapAt h w.hyper := by
    simp only [MWRef.dmapAt]; rw [c3]; rfl
  have d4 : MWRef.dmapAt (w.clone h).1 (some (h.next + 3)) = MWRef.dmapAt h w.meta_ := by
    simp only [MWRef.dmapAt]; rw [c4]; rfl
  rw [c1, c2, d3, d4, key _ (hv _ (Or.inl rfl)), key _ (hv _ (Or.inr rfl))]
  rfl

/-- **C43** (partial): when no value of the two maps is itself a slice or map, no later writes through
the original (or to any memory that existed before the copy) can be seen through the clone, and no
writes through the clone's own fields can be seen through the original. Missing: maps holding slices
or maps, see `clone_shares_nested`. -/
theorem clone_independent_partial (h : Heap α) (w : MWRef α) (hv : w.Valid h) (hfl : w.Flat h)
    (ops : List (Nat × Cell α)) :
    ((∀ o ∈ ops, o.1 < h.next) →
      (w.clone h).2.view (writes (w.clone h).1 ops) = (w.clone h).2.view (w.clone h).1) ∧
    ((∀ o ∈ ops, (w.clone h).2.owns o.1) →
      w.view (writes (w.clone h).1 ops) = w.view h) := by
  obtain ⟨-, h1, h2, h3, h4, c1, c2, c3, c4, c5⟩ := MWRef.clone_cells h w
  have key : ∀ (g g' : Heap α) (m : DMap α), (∀ k a, m k ≠ some (.ref a)) →
      derefMap g m = derefMap g' m := by
    intro g g' m hm
    funext k
    unfold derefMap
    cases hk : m k with
    | none => rfl
    | some v =>
      cases v with
      | ref a => exact absurd hk (hm k a)
      | _ => rfl
  have d3 : MWRef.dmapAt (w.clone h).1 (some (h.next + 2)) = MWRef.dmapAt h w.hyper := by
    simp only [MWRef.dmapAt]; rw [c3]; rfl
  have d4 : MWRef.dmapAt (w.clone h).1 (some (h.next + 3)) = MWRef.dmapAt h w.meta_ := by
    simp only [MWRef.dmapAt]; rw [c4]; rfl
  refine ⟨fun ho => ?_, fun ho => ?_⟩
  · have cc : ∀ a, h.next ≤ a → (writes (w.clone h).1 ops).cell a = (w.clone h).1.cell a :=
      fun a ha => writes_cell (fun o hmem e => by have := ho o hmem; omega)
    have e3 : MWRef.dmapAt (writes (w.clone h).1 ops) (some (h.next + 2)) = MWRef.dmapAt h w.hyper :=
      (dmapAt_congr _ (fun a ha => cc a (by injection ha; omega))).trans d3
    have e4 : MWRef.dmapAt (writes (w.clone h).1 ops) (some (h.next + 3)) = MWRef.dmapAt h w.meta_ :=
      (dmapAt_congr _ (fun a ha => cc a (by injection ha; omega))).trans d4
    simp only [MWRef.view, h1, h2, h3, h4]
    rw [floatsAt_congr (h := (w.clone h).1) _ (fun a ha => cc a (by injection ha; omega)),
      strsAt_congr (h := (w.clone h).1) _ (fun a ha => cc a (by injection ha; omega)), e3, e4, d3, d4,
      key _ (w.clone h).1 _ hfl.1, key _ (w.clone h).1 _ hfl.2]
  · have cc : ∀ a, a < h.next → (writes (w.clone h).1 ops).cell a = h.cell a := fun a ha =>
      (writes_cell (fun o hmem e => by
        have := ho o hmem
        simp only [MWRef.owns, h1, h2, h3, h4, Option.some.injEq] at this
        omega)).trans (c5 a ha)
    have e3 : MWRef.dmapAt (writes (w.clone h).1 ops) w.hyper = MWRef.dmapAt h w.hyper :=
      dmapAt_congr _ (fun a ha => cc a (hv a (by simp [MWRef.owns, ha])))
    have e4 : MWRef.dmapAt (writes (w.clone h).1 ops) w.meta_ = MWRef.dmapAt h w.meta_ :=
      dmapAt_congr _ (fun a ha => cc a (hv a (by simp [MWRef.owns, ha])))
    simp only [MWRef.view]
    rw [floatsAt_congr (h := h) _ (fun a ha => cc a (hv a (by simp [MWRef.owns, ha]))),
      strsAt_congr (h := h) _ (fun a ha => cc a (hv a (by simp [MWRef.owns, ha]))), e3, e4,
      key _ h _ hfl.1, key _ h _ hfl.2]

/-- **C43 is false of the code** for nested values: a slice held in `Metadata` (say a list of classes,
as any JSON document may contain) is shared: writing it through the original is seen in the clone. -/
theorem clone_shares_nested (h : Heap α) (w : MWRef α) (k : String) (a : Nat) (ha : a < h.next)
    (hk : MWRef.dmapAt h w.meta_ k = some (.ref a)) (c : Cell α) :
    ((w.clone h).2.view ((w.clone h).1.write a c)).2.2.2 k = some (.ref a, some c) := by
  obtain ⟨-, -, -, -, h4, -, -, -, c4, -⟩ := MWRef.clone_cells h w
  have hne : h.next + 3 ≠ a := by omega
  have e : MWRef.dmapAt ((w.clone h).1.write a c) (some (h.next + 3)) = MWRef.dmapAt h w.meta_ := by
    conv_lhs => unfold MWRef.dmapAt
    simp only [Heap.write, hne, if_false, c4]
  simp only [MWRef.view, h4, e, derefMap, hk]
  simp [derefVal, Heap.write]

end C43

/-! ## The contracts can be met, and concrete cases -/

section Examples

/-- the two halves of the contract of an exact inverse are met by an actual function -/
theorem exists_exact_inverse [Field K] :
    ∃ inv : Mat K → Option (Mat K), InverseSound inv ∧ InverseComplete inv := by
  classical
  refine ⟨fun A => if h : ∃ B : Mat K, IsInverse A B ∧ B.r = A.r ∧ B.c = A.r then some h.choose
    else none, ?_, ?_⟩
  · intro A B _ h
    by_cases hx : ∃ B : Mat K, IsInverse A B ∧ B.r = A.r ∧ B.c = A.r
    · simp only [dif_pos hx] at h
      rw [← Option.some.inj h]
      exact hx.choose_spec
    · simp only [dif_neg hx] at h
      simp at h
  · intro A _ h
    by_cases hx : ∃ B : Mat K, IsInverse A B ∧ B.r = A.r ∧ B.c = A.r
    · simp only [dif_pos hx] at h
      simp at h
    · let M : Matrix (Fin A.r) (Fin A.r) K := Matrix.of (fun i j => A.at' i j)
      by_cases hd : M.det = 0
      · obtain ⟨v, hv, hm⟩ := Matrix.exists_mulVec_eq_zero_iff.2 hd
        obtain ⟨k, hk⟩ := Function.ne_iff.1 hv
        refine ⟨fun i => if hi : i < A.r then v ⟨i, hi⟩ else 0, ⟨k, k.2, by simpa using hk⟩, ?_⟩
        intro i hi
        have := congrFun hm ⟨i, hi⟩
        simp only [Matrix.mulVec, dotProduct, Pi.zero_apply] at this
        refine Eq.trans ?_ this
        refine (Fin.sum_univ_eq_sum_range
          (fun k => A.at' i k * (if hi : k < A.r then v ⟨k, hi⟩ else 0)) A.r).symm.trans ?_
        apply Finset.sum_congr rfl
        intro l _
        simp [M]
      · exfalso
        apply hx
        have hu : IsUnit M.det := isUnit_iff_ne_zero.2 hd
        refine ⟨⟨A.r, A.r, fun i j => if hi : i < A.r then (if hj : j < A.r then
          M⁻¹ ⟨i, hi⟩ ⟨j, hj⟩ else 0) else 0⟩, ⟨?_, ?_⟩, rfl, rfl⟩
        · intro i hi j hj
          have := congrFun (congrFun (Matrix.mul_nonsing_inv M hu) ⟨i, hi⟩) ⟨j, hj⟩
          rw [Matrix.mul_apply, Matrix.one_apply] at this
          simp only [Fin.mk.injEq] at this
          rw [← this, ← Fin.sum_univ_eq_sum_range (fun k => A.at' i k * (if hi : k < A.r then
            (if hj : j < A.r then M⁻¹ ⟨k, hi⟩ ⟨j, hj⟩ else 0) else 0))]
          apply Finset.sum_congr rfl
          intro l _
          simp [M, hj]
        · intro i hi j hj
          have := congrFun (congrFun (Matrix.nonsing_inv_mul M hu) ⟨i, hi⟩) ⟨j, hj⟩
          rw [Matrix.mul_apply, Matrix.one_apply] at this
          simp only [Fin.mk.injEq] at this
          rw [← this, ← Fin.sum_univ_eq_sum_range (fun k => (if hi : i < A.r then
            (if hj : k < A.r then M⁻¹ ⟨i, hi⟩ ⟨k, hj⟩ else 0) else 0) * A.at' k j)]
          apply Finset.sum_congr rfl
          intro l _
          simp [M, hi]

/-- inverse of 2×2 matrices by determinants; refuses everything else -/
private def inv2 (A : Mat ℚ) : Option (Mat ℚ) :=
  if A.r = 2 ∧ A.c = 2 ∧ A.at' 0 0 * A.at' 1 1 - A.at' 0 1 * A.at' 1 0 ≠ 0 then
    some (Mat.ofRows
      [[A.at' 1 1 / (A.at' 0 0 * A.at' 1 1 - A.at' 0 1 * A.at' 1 0),
        -A.at' 0 1 / (A.at' 0 0 * A.at' 1 1 - A.at' 0 1 * A.at' 1 0)],
       [-A.at' 1 0 / (A.at' 0 0 * A.at' 1 1 - A.at' 0 1 * A.at' 1 0),
        A.at' 0 0 / (A.at' 0 0 * A.at' 1 1 - A.at' 0 1 * A.at' 1 0)]] 2 0)
  else none

private theorem inv2_sound : InverseSound inv2 := by
  intro A B _ h
  unfold inv2 at h
  split_ifs at h with hc
  obtain ⟨h1, h2, h3⟩ := hc
  rw [← Option.some.inj h]
  clear h
  refine ⟨⟨?_, ?_⟩, h1.symm, h1.symm⟩
  all_goals
    intro i hi j hj
    rw [h1] at hi hj ⊢
    generalize hd : A.at' 0 0 * A.at' 1 1 - A.at' 0 1 * A.at' 1 0 = d at h3 ⊢
    interval_cases i <;> interval_cases j <;>
      simp only [Mat.ofRows, sum_range_succ, sum_range_zero, List.getD_cons_zero, List.getD_cons_succ] <;>
      simp <;> field_simp <;> first | ring1 | linear_combination hd

/-- points (0,1), (1,3), (2,4) -/
private def exX : Mat ℚ := Mat.ofRows [[0], [1], [2]] 1 0
/-- targets for the examples -/
private def exY : Mat ℚ := Mat.ofRows [[1], [3], [4]] 1 0
/-- two identical columns -/
private def exS : Mat ℚ := Mat.ofRows [[1, 1], [2, 2]] 2 0
/-- targets of the wrong length -/
private def exT : Mat ℚ := Mat.ofRows [[1], [2]] 1 0
/-- a fitted model for the examples -/
private def exM : LinReg ℚ := ⟨some [3 / 2], 7 / 6, 1, true, 3⟩

example : exM = (LinReg.new.fit inv2 exX exY).1 := by decide +kernel

private theorem exFit : ((LinReg.new : LinReg ℚ).fit inv2 exX exY).2 = .ok () := by decide +kernel

example : exM.weights = some [3 / 2] ∧ exM.intercept = 7 / 6 ∧ exM.fitted = true ∧
    exM.score exX exY = .ok (27 / 28) := by decide +kernel

example := fit_normal_equations inv2_sound LinReg.new exX exY exFit
example := fit_least_squares inv2_sound LinReg.new exX exY exFit
example := fit_unique_minimiser inv2_sound LinReg.new exX exY exFit
example := train_score_unit inv2_sound LinReg.new exX exY exFit (27 / 28) (by decide +kernel)
example := predict_after_fit LinReg.new exX exY exX exFit rfl (by decide)
example : ∃ inv : Mat ℚ → Option (Mat ℚ),
    ((LinReg.new : LinReg ℚ).fit inv exX exY).2 = .ok () ∧ InverseSound inv ∧ InverseComplete inv := by
  obtain ⟨inv, h1, h2⟩ := exists_exact_inverse (K := ℚ)
  refine ⟨inv, ?_, h1, h2⟩
  rw [fit_ok_iff h1 h2]
  exact ⟨by decide, by decide, rfl, rfl,
    fullRank_of_inverse (inv2_sound _ _ rfl (fit_ok_cases exFit).2.2.2.2.choose_spec.1).1⟩
example := (predict_spec exM exX).2.2.2.1 [3 / 2] (by decide +kernel) (by decide +kernel)
  (by decide +kernel) (by decide +kernel) (by decide)
example : ∃ P, exM.predict exX = .ok P := ⟨_, rfl⟩
example (P : Mat ℚ) (h : exM.predict exX = .ok P) := score_spec exM exX exY P h

example := failed_refit_breaks_predict inv2 exM (by decide +kernel) exS exT (by decide) (by decide) rfl
  rfl (by decide +kernel) (by decide +kernel) exX (by decide +kernel)
example := failed_refit_keeps_model_partial inv2 exM (Mat.ofRows [[1], [1]] 1 0) exT
  (by decide +kernel) (Or.inl (by decide +kernel))
example := history_failed_calls_irrelevant_partial inv2 exM
  [.fit (Mat.ofRows [[1], [1]] 1 0) exT, .fit exT exT, .load ⟨"LinearRegression", "2.0", [1], 0, 1⟩,
   .load ⟨"LinearRegression", "1.0", [1], 0, 1⟩]
  (by simp only [List.mem_cons, List.not_mem_nil, or_false]
      rintro o (rfl | rfl | rfl | rfl) <;> (simp only [LinReg.Op.width]; decide +kernel))

example : (exM.load ⟨"LinearRegression", "1.0", [1, 2], 0, 2⟩).2 = .ok () ∧
    (exM.load ⟨"LinearRegression", "1.0", [1, 2], 0, 3⟩).2 ≠ .ok () := by decide +kernel
example := export_load_predictions (fun _ => true) exM LinReg.new [3 / 2] (by decide +kernel)
  (by decide +kernel) (by decide +kernel) ⟨"LinearRegression", "1.0", [3 / 2], 7 / 6, 1⟩
  (by decide +kernel)
example := export_after_failed_refit_rejected inv2 (fun _ => true) exM LinReg.new (by decide +kernel)
  [3 / 2] (by decide +kernel) (by decide +kernel) (by decide +kernel) (by decide +kernel) exS exT
  (by decide) (by decide) rfl rfl (by decide +kernel) (by decide +kernel)

/-- least squares with two unknowns by the inverse of the Gram matrix -/
private def solve2 (A y : Mat ℚ) : Option (Mat ℚ) :=
  (inv2 (mulMat (transpose A) A)).map
    (fun B => ⟨2, 1, fun i _ => LinReg.solveNormal B A y i⟩)

private theorem solve2_sound : SolveSound solve2 := by
  intro A y th hAc hy hyc h k hk
  unfold solve2 at h
  cases hB : inv2 (mulMat (transpose A) A) with
  | none => rw [hB] at h; simp at h
  | some B =>
    rw [hB] at h
    have hth : th = ⟨2, 1, fun i _ => LinReg.solveNormal B A y i⟩ := (Option.some.inj h).symm
    have hc : A.c = 2 := by
      unfold inv2 at hB
      split_ifs at hB with hcond
      exact hcond.1
    obtain ⟨hI, -, hBc⟩ := inv2_sound _ B rfl hB
    subst hth
    exact solveNormal_normal A y hI hBc k hk

/-- a fitted model for the examples -/
private def exL : LM ℚ := ⟨true, false, true, 1, false, "1.0.0", [3 / 2], 7 / 6, 1, 3, 2, true⟩

example : exL = ((LM.new true false true 1 false).fit solve2 exX exY).1 := by decide +kernel

example := lm_fit_least_squares solve2_sound (LM.new true false true 1 false) rfl exX exY (by decide +kernel)
example := lm_predict_spec (solve := solve2) (LM.new true false true 1 false) exX exY exX (by decide +kernel)
example := lm_fit_underdetermined_panics solve2 exL (Mat.ofRows [[1, 2]] 2 0)
  (Mat.ofRows [[1]] 1 0) rfl rfl (by decide)
example := positive_nonneg_partial solve2 (LM.new false false true 1 true) rfl posX posY (by decide +kernel)
example := positive_inactive_partial solve2 (LM.new true false true 1 true) rfl exX exY
  (by decide +kernel) (by decide +kernel) (by decide +kernel)
example := positive_not_optimal solve2_sound (LM.new false false true 1 true) rfl rfl (by decide +kernel)

example := clone_forgets_width (fun l => toString l.length) (fun q => q.floor) exL (by decide +kernel)
example := clone_predicts_differently (fun l => toString l.length) (fun q => q.floor) exL exX _
  (by decide) (rfl : exL.predict exX = .ok _)
example := import_same_width_partial (fun l => toString l.length) (fun q => q.floor) exL exL rfl _
  (rfl : exL.exportWeights _ = .ok _)
example := json_import_predictions_partial (fun l => toString l.length) (fun q => q.floor)
  (fun n => (n : ℚ)) (fun _ => true) ["n_features"] exL (LM.new true false true 1 false)
  (by decide +kernel) _ _ (rfl : exL.exportWeights _ = .ok _) rfl
example := json_import_loses_nJobs (fun l => toString l.length) (fun q => q.floor)
  (fun n => (n : ℚ)) (fun _ => true) ["n_features"] exL (LM.new true false true 5 false)
  _ _ (rfl : exL.exportWeights _ = .ok _) rfl
example := rejected_import_overwrites (fun l => toString l.length) (fun q => q.floor) exL
  ⟨"LinearRegression", "1.0.0", [9, 9], 9, [], fun _ => none,
    fun k => if k = "checksum" then some (.str "1") else none, true⟩ rfl "1" rfl (by decide)
example := rejected_import_unchanged_partial (fun l => toString l.length) (fun q => q.floor) exL
  (some ⟨"SGD", "1.0.0", [9, 9], 9, [], fun _ => none, fun _ => none, true⟩)
  (by intro v h; cases h; decide)
example : (MW.mk "LinearRegression" "1.0.0" [(1 : ℚ)] 0 [] (fun _ => none) (fun _ => none) true).validate
    = .ok () ∧
    (MW.mk "LinearRegression" "1.0.0" ([] : List ℚ) 0 [] (fun _ => none) (fun _ => none) true).validate
    ≠ .ok () := by decide +kernel

/-- weights whose metadata hold a number, and weights whose metadata hold a list -/
private def exHeap : Heap ℚ :=
  ⟨fun a => match a with
    | 0 => .floats [1, 2] | 1 => .dmap (fun k => if k = "n" then some (.int 3) else none)
    | 2 => .dmap (fun k => if k = "classes" then some (.ref 3) else none) | _ => .vals [.int 0, .int 1], 4⟩
/-- exported weights for the examples -/
private def exW : MWRef ℚ := ⟨"LinearRegression", "1.0.0", 0, true, some 0, none, some 1, none⟩
/-- other exported weights -/
private def exW' : MWRef ℚ := ⟨"LinearRegression", "1.0.0", 0, true, some 0, none, some 1, some 2⟩

example (ops : List (Nat × Cell ℚ)) := clone_independent_partial exHeap exW
  (by intro a h; simp [MWRef.owns, exW] at h; show a < 4; omega)
  ⟨by intro k a; simp [exW, MWRef.dmapAt, exHeap], by intro k a; simp [exW, MWRef.dmapAt]⟩ ops
example := clone_shares_nested exHeap exW' "classes" 3 (by decide) rfl (.vals [])
example := clone_view_eq exHeap exW' (by
  rintro m (rfl | rfl) k a h
  · simp [exW', MWRef.dmapAt, exHeap] at h
  · simp [exW', MWRef.dmapAt, exHeap] at h
    show a < 4
    omega)

end Examples

end Scigo.Linear
