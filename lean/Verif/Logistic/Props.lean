import Verif.Logistic.Spec
import Verif.Online.ClfProps
import Mathlib.Algebra.BigOperators.Field

/-!
# Training of LogisticRegression (C89): objective, gradient and gradient descent
-/

set_option linter.unusedSectionVars false

namespace Scigo.Logistic

open Finset Scigo.Online

/-! ## Helper lemmas -/

theorem sigmoid_eq (z : ℝ) : sigmoid realNum z = logistic z := rfl

theorem logistic_pos (z : ℝ) : 0 < logistic z := by unfold logistic; positivity

theorem one_sub_logistic (z : ℝ) : 1 - logistic z = logistic (-z) := by
  unfold logistic
  rw [neg_neg, Real.exp_neg]
  have := Real.exp_pos z
  field_simp
  ring

theorem logistic_lt_one (z : ℝ) : logistic z < 1 := by
  have := logistic_pos (-z)
  rw [← one_sub_logistic] at this
  linarith

theorem logistic_ge_half (z : ℝ) : 1 / 2 ≤ logistic z ↔ 0 ≤ z := by
  unfold logistic
  rw [div_le_div_iff₀ (by norm_num) (by positivity)]
  constructor
  · intro h
    have : Real.exp (-z) ≤ 1 := by linarith
    rw [Real.exp_le_one_iff] at this
    linarith
  · intro h
    have : Real.exp (-z) ≤ 1 := Real.exp_le_one_iff.2 (by linarith)
    linarith

theorem stableSigmoid_eq (z : ℝ) : stableSigmoid realNum z = logistic z := by
  unfold stableSigmoid
  by_cases h : 0 ≤ z
  · rw [if_pos h]; rfl
  · rw [if_neg h]
    show Real.exp z / (1 + Real.exp z) = 1 / (1 + Real.exp (-z))
    rw [Real.exp_neg]
    have := Real.exp_pos z
    field_simp
    ring

theorem log_logistic (z : ℝ) : Real.log (logistic z) = -Real.log (1 + Real.exp (-z)) := by
  unfold logistic
  rw [one_div, Real.log_inv]

theorem zAt_eq (n : Nat) (w : Nat → ℝ) (b : ℝ) (X : Mat ℝ) (i : Nat) :
    zAt n w b X i = lin n (X.at' i) w b := by
  unfold zAt lin
  rw [foldl_range_add]
  congr 1
  exact sum_congr rfl fun j _ => mul_comm _ _

theorem zAt'_eq (n : Nat) (w : Nat → ℝ) (b : ℝ) (X : Mat ℝ) (i : Nat) :
    zAt' n w b X i = lin n (X.at' i) w b := by
  unfold zAt' lin
  rw [foldl_range_add]

/-- tangent inequality of the negative log-likelihood of one sample -/
theorem nll_tangent (y z z' : ℝ) (h0 : 0 ≤ y) (h1 : y ≤ 1) :
    (-y * Real.log (logistic z) - (1 - y) * Real.log (1 - logistic z)) + (logistic z - y) * (z' - z) ≤
      -y * Real.log (logistic z') - (1 - y) * Real.log (1 - logistic z') := by
  have a := logistic_tangent z z'
  have b := logistic_tangent (-z) (-z')
  have ea : Real.exp (-z) / (1 + Real.exp (-z)) = 1 - logistic z := by
    unfold logistic; field_simp; ring
  have eb : Real.exp (- -z) / (1 + Real.exp (- -z)) = logistic z := by
    have : Real.exp (- -z) / (1 + Real.exp (- -z)) = 1 - logistic (-z) := by
      unfold logistic; field_simp; ring
    rw [this, one_sub_logistic, neg_neg]
  rw [ea] at a
  rw [eb] at b
  rw [one_sub_logistic, one_sub_logistic, log_logistic, log_logistic, log_logistic, log_logistic]
  nlinarith [mul_le_mul_of_nonneg_left a h0, mul_le_mul_of_nonneg_left b (sub_nonneg.2 h1)]

/-- the gradient of the objective -/
noncomputable def gradW (lambda : ℝ) (X : Mat ℝ) (yb w : Nat → ℝ) (b : ℝ) (j : Nat) : ℝ :=
  (∑ i ∈ range X.r, (logistic (lin X.c (X.at' i) w b) - yb i) * X.at' i j) / X.r + lambda * w j

/-- its intercept component -/
noncomputable def gradB (X : Mat ℝ) (yb w : Nat → ℝ) (b : ℝ) : ℝ :=
  (∑ i ∈ range X.r, (logistic (lin X.c (X.at' i) w b) - yb i)) / X.r

theorem grad_subgradient (lambda : ℝ) (hl : 0 ≤ lambda) (X : Mat ℝ) (hr : 0 < X.r) (yb w : Nat → ℝ)
    (hy : ∀ i < X.r, 0 ≤ yb i ∧ yb i ≤ 1) (b : ℝ) :
    IsSubgradient X.c (lrObjective lambda X yb) w b (gradW lambda X yb w b) (gradB X yb w b) := by
  intro v c
  have hn : (0 : ℝ) < X.r := by exact_mod_cast hr
  have h1 : ∑ i ∈ range X.r, ((-yb i * Real.log (logistic (lin X.c (X.at' i) w b)) -
      (1 - yb i) * Real.log (1 - logistic (lin X.c (X.at' i) w b))) +
      (logistic (lin X.c (X.at' i) w b) - yb i) * (lin X.c (X.at' i) v c - lin X.c (X.at' i) w b)) ≤
      ∑ i ∈ range X.r, (-yb i * Real.log (logistic (lin X.c (X.at' i) v c)) -
      (1 - yb i) * Real.log (1 - logistic (lin X.c (X.at' i) v c))) :=
    sum_le_sum fun i hi => nll_tangent _ _ _ (hy i (mem_range.1 hi)).1 (hy i (mem_range.1 hi)).2
  rw [sum_add_distrib] at h1
  have h2 : ∑ i ∈ range X.r, (logistic (lin X.c (X.at' i) w b) - yb i) *
        (lin X.c (X.at' i) v c - lin X.c (X.at' i) w b) =
      ∑ j ∈ range X.c, (∑ i ∈ range X.r, (logistic (lin X.c (X.at' i) w b) - yb i) * X.at' i j) *
        (v j - w j) + (∑ i ∈ range X.r, (logistic (lin X.c (X.at' i) w b) - yb i)) * (c - b) := by
    have : ∀ i, (logistic (lin X.c (X.at' i) w b) - yb i) *
          (lin X.c (X.at' i) v c - lin X.c (X.at' i) w b) =
        ∑ j ∈ range X.c, (logistic (lin X.c (X.at' i) w b) - yb i) * X.at' i j * (v j - w j) +
          (logistic (lin X.c (X.at' i) w b) - yb i) * (c - b) := by
      intro i
      rw [lin_diff, mul_add, mul_sum]
      congr 1
      exact sum_congr rfl fun j _ => by ring
    simp only [this]
    rw [sum_add_distrib, sum_comm, sum_mul]
    congr 1
    exact sum_congr rfl fun j _ => (sum_mul _ _ _).symm
  rw [h2] at h1
  have h3 := l2_tangent X.c w v
  unfold lrObjective gradW gradB
  have h4 := div_le_div_of_nonneg_right h1 hn.le
  have h5 := mul_le_mul_of_nonneg_left h3 hl
  have e1 : ∑ j ∈ range X.c, ((∑ i ∈ range X.r, (logistic (lin X.c (X.at' i) w b) - yb i) * X.at' i j)
        / X.r + lambda * w j) * (v j - w j) =
      (∑ j ∈ range X.c, (∑ i ∈ range X.r, (logistic (lin X.c (X.at' i) w b) - yb i) * X.at' i j) *
        (v j - w j)) / X.r + lambda * ∑ j ∈ range X.c, w j * (v j - w j) := by
    rw [sum_div, mul_sum, ← sum_add_distrib]
    exact sum_congr rfl fun j _ => by ring
  rw [e1]
  have e2 : (∑ i ∈ range X.r, (-yb i * Real.log (logistic (lin X.c (X.at' i) w b)) -
      (1 - yb i) * Real.log (1 - logistic (lin X.c (X.at' i) w b))) +
      (∑ j ∈ range X.c, (∑ i ∈ range X.r, (logistic (lin X.c (X.at' i) w b) - yb i) * X.at' i j) *
        (v j - w j) + (∑ i ∈ range X.r, (logistic (lin X.c (X.at' i) w b) - yb i)) * (c - b))) / X.r =
      (∑ i ∈ range X.r, (-yb i * Real.log (logistic (lin X.c (X.at' i) w b)) -
      (1 - yb i) * Real.log (1 - logistic (lin X.c (X.at' i) w b)))) / X.r +
      (∑ j ∈ range X.c, (∑ i ∈ range X.r, (logistic (lin X.c (X.at' i) w b) - yb i) * X.at' i j) *
        (v j - w j)) / X.r +
      (∑ i ∈ range X.r, (logistic (lin X.c (X.at' i) w b) - yb i)) / X.r * (c - b) := by
    ring
  rw [e2] at h4
  rw [mul_add] at h5
  linarith

/-! ## C89: training -/

/-- number of parameters handed to the optimiser -/
def dim (hasB : Bool) (nF : Nat) : Nat := if hasB then nF + 1 else nF

theorem objGrad_entries (lambda : ℝ) (hl : 0 ≤ lambda) (hasB : Bool) (X : Mat ℝ) (yb : Nat → ℝ)
    (theta : List ℝ) :
    (∀ j < X.c, (objGrad realNum lambda hasB X yb theta).getD j 0 =
      gradW lambda X yb (entry theta) (thetaB hasB X.c theta) j) ∧
    (hasB = true → (objGrad realNum lambda hasB X yb theta).getD X.c 0 =
      gradB X yb (entry theta) (thetaB hasB X.c theta)) := by
  have hg : ∀ j, (if 0 < lambda then
      sumTo X.r (fun i => (stableSigmoid realNum (zAt' X.c (fun j => theta.getD j 0)
        (thetaB hasB X.c theta) X i) - yb i) * X.at' i j) * (1 / realNum.ofNat X.r) +
        lambda * theta.getD j 0
      else sumTo X.r (fun i => (stableSigmoid realNum (zAt' X.c (fun j => theta.getD j 0)
        (thetaB hasB X.c theta) X i) - yb i) * X.at' i j) * (1 / realNum.ofNat X.r)) =
      gradW lambda X yb (entry theta) (thetaB hasB X.c theta) j := by
    intro j
    have e : sumTo X.r (fun i => (stableSigmoid realNum (zAt' X.c (fun j => theta.getD j 0)
        (thetaB hasB X.c theta) X i) - yb i) * X.at' i j) * (1 / realNum.ofNat X.r) =
        (∑ i ∈ range X.r, (logistic (lin X.c (X.at' i) (entry theta) (thetaB hasB X.c theta)) - yb i)
          * X.at' i j) / X.r := by
      rw [sumTo_eq, mul_one_div]
      simp only [stableSigmoid_eq, zAt'_eq]
      rfl
    rw [e]
    unfold gradW
    split_ifs with h
    · rfl
    · have : lambda = 0 := le_antisymm (not_lt.1 h) hl
      rw [this]; simp
  unfold objGrad
  constructor
  · intro j hj
    cases hasB
    · simp only [Bool.false_eq_true, if_false]
      rw [getD_map_range _ _ _ _ hj]
      exact hg j
    · simp only [if_true]
      rw [List.getD_append _ _ _ _ (by simpa using hj), getD_map_range _ _ _ _ hj]
      exact hg j
  · intro hb
    subst hb
    simp only [if_true]
    rw [List.getD_append_right _ _ _ _ (by simp)]
    simp only [List.length_map, List.length_range, Nat.sub_self, List.getD_cons_zero]
    rw [sumTo_eq, mul_one_div]
    simp only [stableSigmoid_eq, zAt'_eq]
    rfl

/-- **C89** The objective handed to the optimiser is the mean negative log-likelihood plus the L2
penalty, wherever no predicted probability is within `eps` of 0 or 1; and the gradient handed to it
is the gradient of that objective everywhere: the objective lies above the affine function it
defines, for every other parameter vector. -/
theorem lr_objective_and_gradient (eps lambda : ℝ) (hl : 0 ≤ lambda) (hasB : Bool) (X : Mat ℝ)
    (hr : 0 < X.r) (yb : Nat → ℝ) (hy : ∀ i < X.r, 0 ≤ yb i ∧ yb i ≤ 1) (theta : List ℝ) :
    ((∀ i < X.r, eps ≤ logistic (lin X.c (X.at' i) (entry theta) (thetaB hasB X.c theta)) ∧
        logistic (lin X.c (X.at' i) (entry theta) (thetaB hasB X.c theta)) ≤ 1 - eps) →
      objFunc realNum eps lambda hasB X yb theta =
        lrObjective lambda X yb (entry theta) (thetaB hasB X.c theta)) ∧
    ∀ w' b', (hasB = true ∨ b' = 0) →
      lrObjective lambda X yb (entry theta) (thetaB hasB X.c theta) +
        ∑ j ∈ range X.c, (objGrad realNum lambda hasB X yb theta).getD j 0 * (w' j - entry theta j) +
        (if hasB then (objGrad realNum lambda hasB X yb theta).getD X.c 0 *
          (b' - thetaB hasB X.c theta) else 0) ≤
      lrObjective lambda X yb w' b' := by
  constructor
  · intro hc
    have e : ∀ i, i < X.r → clampProbability eps (stableSigmoid realNum (zAt' X.c
        (fun j => theta.getD j 0) (thetaB hasB X.c theta) X i)) =
        logistic (lin X.c (X.at' i) (entry theta) (thetaB hasB X.c theta)) := by
      intro i hi
      rw [stableSigmoid_eq, zAt'_eq]
      have hz : (fun j => theta.getD j 0) = entry theta := rfl
      rw [hz]
      unfold clampProbability
      rw [if_neg (not_lt.2 (hc i hi).1), if_neg (not_lt.2 (hc i hi).2)]
    have hs : (List.range X.r).foldl (fun s i => s + (-yb i * realNum.log (clampProbability eps
        (stableSigmoid realNum (zAt' X.c (fun j => theta.getD j 0) (thetaB hasB X.c theta) X i))) -
        (1 - yb i) * realNum.log (1 - clampProbability eps
        (stableSigmoid realNum (zAt' X.c (fun j => theta.getD j 0) (thetaB hasB X.c theta) X i))))) 0 =
        ∑ i ∈ range X.r, (-yb i * Real.log (logistic (lin X.c (X.at' i) (entry theta)
          (thetaB hasB X.c theta))) - (1 - yb i) * Real.log (1 - logistic (lin X.c (X.at' i)
          (entry theta) (thetaB hasB X.c theta)))) := by
      rw [foldl_range_add, add_zero]
      refine sum_congr rfl fun i hi => ?_
      rw [e i (mem_range.1 hi)]
      rfl
    unfold objFunc lrObjective
    simp only
    rw [hs, sumTo_eq]
    have hq : ∑ j ∈ range X.c, theta.getD j 0 * theta.getD j 0 = ∑ j ∈ range X.c, entry theta j ^ 2 :=
      sum_congr rfl fun j _ => by rw [pow_two]; rfl
    rw [hq]
    split_ifs with h
    · show _ / (X.r : ℝ) + 1 / 2 * lambda * _ = _
      ring
    · have : lambda = 0 := le_antisymm (not_lt.1 h) hl
      rw [this]
      show _ / (X.r : ℝ) = _
      simp
  · intro w' b' hb
    obtain ⟨e1, e2⟩ := objGrad_entries lambda hl hasB X yb theta
    have h := grad_subgradient lambda hl X hr yb (entry theta) hy (thetaB hasB X.c theta) w' b'
    have es : ∑ j ∈ range X.c, (objGrad realNum lambda hasB X yb theta).getD j 0 *
        (w' j - entry theta j) = ∑ j ∈ range X.c, gradW lambda X yb (entry theta)
          (thetaB hasB X.c theta) j * (w' j - entry theta j) :=
      sum_congr rfl fun j hj => by rw [e1 j (mem_range.1 hj)]
    rw [es]
    cases hasB
    · have hb0 : b' = 0 := hb.resolve_left (by simp)
      subst hb0
      simp only [thetaB, Bool.false_eq_true, if_false, sub_zero, mul_zero] at h ⊢
      exact h
    · rw [if_pos rfl, e2 rfl]
      exact h

example : (0 : ℝ) ≤ 1 ∧ 0 < (Mat.ofRows [[1], [2]] 1 (0 : ℝ)).r ∧
    ∀ i < 2, (0 : ℝ) ≤ (fun i : Nat => if i = 0 then (1 : ℝ) else 0) i ∧
      (fun i : Nat => if i = 0 then (1 : ℝ) else 0) i ≤ 1 :=
  ⟨by norm_num, by decide, fun i _ => by simp only; split_ifs <;> norm_num⟩

theorem maxAbs_lt (l : List ℝ) (m tol : ℝ) :
    l.foldl (fun m g => if m < realNum.abs g then realNum.abs g else m) m < tol ↔
      m < tol ∧ ∀ g ∈ l, |g| < tol := by
  induction l generalizing m with
  | nil => simp
  | cons a l ih =>
    simp only [List.foldl_cons, List.forall_mem_cons]
    rw [ih]
    have ha : realNum.abs a = |a| := rfl
    by_cases h : m < |a|
    · rw [ha, if_pos h]
      constructor
      · rintro ⟨h1, h2⟩; exact ⟨h.trans h1, h1, h2⟩
      · rintro ⟨_, h1, h2⟩; exact ⟨h1, h2⟩
    · rw [ha, if_neg h]
      constructor
      · rintro ⟨h1, h2⟩; exact ⟨h1, (not_lt.1 h).trans_lt h1, h2⟩
      · rintro ⟨h1, _, h2⟩; exact ⟨h1, h2⟩

/-- the regularisation strength used by gradient descent -/
noncomputable def gdLambda (l2 : Bool) (C : ℝ) : ℝ := if l2 then 1 / C else 0

theorem gdStep_spec (l2 : Bool) (C : ℝ) (fi : Bool) (X : Mat ℝ) (yb : Nat → ℝ) (iter : Nat)
    (w : List ℝ) (b tol : ℝ) (hw : w.length = X.c) :
    ∃ w' b' g, gdStep realNum l2 C fi X yb iter w b = (w', b', g) ∧ w'.length = X.c ∧
      (∀ j < X.c, entry w' j = entry w j -
        1 / (1 + iter / 10) * gradW (gdLambda l2 C) X yb (entry w) b j) ∧
      b' = (if fi then b - 1 / (1 + iter / 10) * gradB X yb (entry w) b else b) ∧
      (g < tol ↔ |gradB X yb (entry w) b| < tol ∧
        ∀ j < X.c, |gradW (gdLambda l2 C) X yb (entry w) b j| < tol) := by
  have hrate : 1 / (1 + realNum.tenth * realNum.ofNat iter) = 1 / (1 + (iter : ℝ) / 10) := by
    show 1 / (1 + 1 / 10 * (iter : ℝ)) = _
    ring
  have hgb : sumTo X.r (fun i => sigmoid realNum (zAt X.c (fun j => w.getD j 0) b X i) - yb i) /
      realNum.ofNat X.r = gradB X yb (entry w) b := by
    rw [sumTo_eq]
    simp only [sigmoid_eq, zAt_eq]
    rfl
  have hgw : ∀ j, (if l2 = true then sumTo X.r (fun i => (sigmoid realNum (zAt X.c (fun j => w.getD j 0) b X i)
      - yb i) * X.at' i j) / realNum.ofNat X.r + 1 / C * w.getD j 0 else
      sumTo X.r (fun i => (sigmoid realNum (zAt X.c (fun j => w.getD j 0) b X i)
      - yb i) * X.at' i j) / realNum.ofNat X.r) = gradW (gdLambda l2 C) X yb (entry w) b j := by
    intro j
    have e : sumTo X.r (fun i => (sigmoid realNum (zAt X.c (fun j => w.getD j 0) b X i)
      - yb i) * X.at' i j) / realNum.ofNat X.r =
      (∑ i ∈ range X.r, (logistic (lin X.c (X.at' i) (entry w) b) - yb i) * X.at' i j) / X.r := by
      rw [sumTo_eq]
      simp only [sigmoid_eq, zAt_eq]
      rfl
    rw [e]
    unfold gradW gdLambda
    cases l2
    · simp
    · simp only [if_true]; rfl
  refine ⟨_, _, _, rfl, ?_, ?_, ?_, ?_⟩
  · simp [hw]
  · intro j hj
    rw [entry, getD_map_range _ _ _ _ (by omega), getD_map_range _ _ _ _ hj, hrate, hgw]
    rfl
  · rw [hrate, hgb]
  · rw [maxAbs_lt, hgb]
    refine and_congr Iff.rfl ?_
    simp only [List.mem_map, List.mem_range, forall_exists_index, and_imp, forall_apply_eq_imp_iff₂, hgw]

/-- **C89** Gradient descent (every solver other than lbfgs): there is a sequence of iterates, each the
previous one minus the decaying rate `1/(1+iter/10)` times the gradient of the objective there; the
loop runs at most `max_iter` rounds and stops earlier exactly when every component of the gradient
is below `tol`; the result is the last iterate and `nIter` the number of rounds. -/
theorem lr_gradient_descent (l2 : Bool) (C : ℝ) (hC : 0 < C) (fi : Bool) (tol : ℝ) (X : Mat ℝ)
    (hr : 0 < X.r) (yb : Nat → ℝ) (hy : ∀ i < X.r, 0 ≤ yb i ∧ yb i ≤ 1) (fuel iter : Nat) (w : List ℝ)
    (b : ℝ) (k0 : Nat) (hw : w.length = X.c) :
    ∃ (k : Nat) (ws : Nat → List ℝ) (bs : Nat → ℝ) (g : Nat → Nat → ℝ) (gb : Nat → ℝ),
      k ≤ fuel ∧ ws 0 = w ∧ bs 0 = b ∧
      gdLoop realNum l2 C fi tol X yb fuel iter w b k0 =
        (ws k, bs k, if k = 0 then k0 else iter + k) ∧
      (∀ n < k, IsSubgradient X.c (lrObjective (if l2 then 1 / C else 0) X yb) (entry (ws n)) (bs n)
          (g n) (gb n) ∧ (ws (n + 1)).length = X.c ∧
        (∀ j < X.c, entry (ws (n + 1)) j = entry (ws n) j - 1 / (1 + ((iter + n : Nat) : ℝ) / 10) * g n j) ∧
        bs (n + 1) = (if fi then bs n - 1 / (1 + ((iter + n : Nat) : ℝ) / 10) * gb n else bs n)) ∧
      (∀ n, n + 1 < k → ¬ (|gb n| < tol ∧ ∀ j < X.c, |g n j| < tol)) ∧
      (k < fuel → 0 < k ∧ |gb (k - 1)| < tol ∧ ∀ j < X.c, |g (k - 1) j| < tol) := by
  induction fuel generalizing iter w b k0 with
  | zero =>
    refine ⟨0, fun _ => w, fun _ => b, fun _ _ => 0, fun _ => 0, le_rfl, rfl, rfl, rfl, ?_, ?_, ?_⟩ <;>
      intros <;> omega
  | succ fuel ih =>
    obtain ⟨w', b', mx, hs, hw', h1, h2, h3⟩ := gdStep_spec l2 C fi X yb iter w b tol hw
    have hlam : (0 : ℝ) ≤ if l2 then 1 / C else 0 := by split_ifs <;> positivity
    have hsub := grad_subgradient _ hlam X hr yb (entry w) hy b
    by_cases hstop : mx < tol
    · refine ⟨1, fun n => if n = 0 then w else w', fun n => if n = 0 then b else b',
        fun _ => gradW (gdLambda l2 C) X yb (entry w) b, fun _ => gradB X yb (entry w) b,
        by omega, rfl, rfl, ?_, ?_, ?_, ?_⟩
      · simp only [gdLoop, hs]
        rw [if_pos hstop]
        simp
      · intro n hn
        have hn0 : n = 0 := by omega
        subst hn0
        exact ⟨hsub, hw', by simpa using h1, by simpa using h2⟩
      · intro n hn; omega
      · intro _
        exact ⟨by omega, h3.1 hstop⟩
    · obtain ⟨k, ws, bs, g, gb, hk, hws, hbs, hres, htr, hno, hearly⟩ :=
        ih (iter + 1) w' b' (iter + 1) hw'
      refine ⟨k + 1, fun n => if n = 0 then w else ws (n - 1), fun n => if n = 0 then b else bs (n - 1),
        fun n => if n = 0 then gradW (gdLambda l2 C) X yb (entry w) b else g (n - 1),
        fun n => if n = 0 then gradB X yb (entry w) b else gb (n - 1),
        by omega, rfl, rfl, ?_, ?_, ?_, ?_⟩
      · simp only [gdLoop, hs]
        rw [if_neg hstop, hres]
        simp only [Nat.add_one_ne_zero, if_false, Nat.add_sub_cancel]
        congr 2
        split_ifs <;> omega
      · intro n hn
        rcases Nat.eq_zero_or_pos n with h0 | h0
        · subst h0
          simp only [if_true, Nat.zero_add, Nat.add_one_ne_zero, if_false, Nat.sub_self, hws, hbs]
          exact ⟨hsub, hw', by simpa using h1, by simpa using h2⟩
        · obtain ⟨n, rfl⟩ := Nat.exists_eq_succ_of_ne_zero h0.ne'
          have := htr n (by omega)
          simp only [Nat.succ_eq_add_one, Nat.add_one_ne_zero, if_false, Nat.add_sub_cancel]
          have e : iter + (n + 1) = iter + 1 + n := by omega
          rw [e]
          exact this
      · intro n hn
        rcases Nat.eq_zero_or_pos n with h0 | h0
        · subst h0
          simp only [if_true]
          exact fun h => hstop (h3.2 h)
        · obtain ⟨n, rfl⟩ := Nat.exists_eq_succ_of_ne_zero h0.ne'
          simp only [Nat.succ_eq_add_one, Nat.add_one_ne_zero, if_false, Nat.add_sub_cancel]
          exact hno n (by omega)
      · intro hlt
        obtain ⟨hk0, h4⟩ := hearly (by omega)
        refine ⟨by omega, ?_⟩
        simp only [Nat.add_sub_cancel, hk0.ne', if_false]
        exact h4

end Scigo.Logistic
