import Verif.Online.Spec
import Verif.Errors.Props
import Mathlib.Algebra.Order.BigOperators.Ring.Finset
import Mathlib.Data.List.GetD
import Mathlib.Analysis.Convex.SpecificFunctions.Basic
import Mathlib.Tactic.Linarith
import Mathlib.Tactic.FieldSimp
import Mathlib.Tactic.NormNum

/-!
# Lemmas about the online linear models
-/

namespace Scigo.Online

open Finset Scigo.Errors

/-! ## Sums -/

theorem foldl_range_add (n : Nat) (f : Nat → ℝ) (b : ℝ) :
    (List.range n).foldl (fun s i => s + f i) b = ∑ i ∈ range n, f i + b := by
  rw [foldl_add_eq, add_comm]
  have := sumTo_eq n f
  rw [sumTo, foldl_add_eq, zero_add] at this
  rw [this]

theorem score_eq (w : List ℝ) (b : ℝ) (x : List ℝ) :
    score w b x = lin x.length (entry x) (entry w) b := by
  unfold score lin entry
  exact foldl_range_add _ _ _

theorem predRow_eq (w : List ℝ) (b : ℝ) (X : Mat ℝ) (i : Nat) :
    predRow w b X i = lin X.c (X.at' i) (entry w) b := by
  unfold predRow lin entry
  rw [foldl_range_add]
  congr 1
  exact sum_congr rfl fun j _ => mul_comm _ _

theorem getD_map_range {β : Type _} (n i : Nat) (f : Nat → β) (d : β) (h : i < n) :
    ((List.range n).map f).getD i d = f i := by
  rw [List.getD_eq_getElem _ _ (by simpa using h)]
  simp

theorem dotSelf_eq (x : List ℝ) : dotSelf x = ∑ i ∈ range x.length, entry x i ^ 2 := by
  unfold dotSelf
  rw [sumOver_eq]
  induction x with
  | nil => simp
  | cons a l ih =>
    rw [List.map_cons, List.sum_cons, List.length_cons, sum_range_succ', ih, add_comm]
    congr 1
    simp [entry, pow_two]

/-! ## Scalar losses -/

theorem sign_cases (x : ℝ) :
    (0 < x ∧ sign x = 1) ∨ (x < 0 ∧ sign x = -1) ∨ (x = 0 ∧ sign x = 0) := by
  unfold sign
  rcases lt_trichotomy x 0 with h | h | h
  · right; left; exact ⟨h, by rw [if_neg (not_lt.2 h.le), if_pos h]⟩
  · right; right; subst h; simp
  · left; exact ⟨h, if_pos h⟩

theorem abs_tangent (u v : ℝ) : |u| + sign u * (v - u) ≤ |v| := by
  rcases sign_cases u with ⟨h, e⟩ | ⟨h, e⟩ | ⟨h, e⟩
  · rw [e, abs_of_pos h]; linarith [le_abs_self v]
  · rw [e, abs_of_neg h]; linarith [neg_abs_le v]
  · rw [e, h]; simp

theorem regLoss_huber (eps p y : ℝ) : regLoss realNum "huber" eps p y =
    if |p - y| ≤ eps then (1 / 2 * (p - y) * (p - y), p - y)
    else (eps * (|p - y| - 1 / 2 * eps), eps * sign (p - y)) := by
  by_cases h : |p - y| ≤ eps
  · rw [if_pos h]; exact (if_neg (by decide)).trans ((if_pos rfl).trans (if_pos h))
  · rw [if_neg h]; exact (if_neg (by decide)).trans ((if_pos rfl).trans (if_neg h))

theorem regLoss_eps (eps p y : ℝ) : regLoss realNum "epsilon_insensitive" eps p y =
    if |p - y| ≤ eps then (0, 0) else (|p - y| - eps, sign (p - y)) := by
  by_cases h : |p - y| ≤ eps
  · rw [if_pos h]
    exact (if_neg (by decide)).trans ((if_neg (by decide)).trans ((if_pos rfl).trans (if_pos h)))
  · rw [if_neg h]
    exact (if_neg (by decide)).trans ((if_neg (by decide)).trans ((if_pos rfl).trans (if_neg h)))

theorem regLoss_other (loss : String) (h2 : loss ≠ "huber") (h3 : loss ≠ "epsilon_insensitive")
    (eps p y : ℝ) : regLoss realNum loss eps p y = (1 / 2 * (p - y) * (p - y), p - y) := by
  unfold regLoss
  rw [if_neg h2, if_neg h3]
  split_ifs <;> rfl

theorem regLoss_fst (loss : String) (eps p y : ℝ) :
    (regLoss realNum loss eps p y).1 = regLossOf loss eps p y := by
  unfold regLossOf
  by_cases h2 : loss = "huber"
  · subst h2
    rw [regLoss_huber, if_pos rfl]
    split_ifs
    · simp only; ring
    · simp only; ring
  · by_cases h3 : loss = "epsilon_insensitive"
    · subst h3
      rw [regLoss_eps, if_neg h2, if_pos rfl]
      split_ifs with h
      · exact (max_eq_left (by linarith)).symm
      · exact (max_eq_right (by linarith)).symm
    · rw [regLoss_other loss h2 h3, if_neg h2, if_neg h3]; simp only; ring

theorem huber_tangent (eps u v : ℝ) (he : 0 ≤ eps) :
    (if |u| ≤ eps then u ^ 2 / 2 else eps * (|u| - eps / 2)) +
      (if |u| ≤ eps then u else eps * sign u) * (v - u) ≤
    (if |v| ≤ eps then v ^ 2 / 2 else eps * (|v| - eps / 2)) := by
  by_cases hu : |u| ≤ eps
  · rw [if_pos hu, if_pos hu]
    split_ifs with hv
    · nlinarith [sq_nonneg (u - v)]
    · rcases abs_le.1 hu with ⟨h1, h2⟩
      rcases abs_cases v with ⟨e, _⟩ | ⟨e, _⟩ <;> rw [e] at hv ⊢ <;> push Not at hv <;>
        nlinarith [sq_nonneg (u - eps), sq_nonneg (u + eps)]
  · rw [if_neg hu, if_neg hu]
    push Not at hu
    rcases sign_cases u with ⟨h, e⟩ | ⟨h, e⟩ | ⟨h, e⟩
    · rw [e, abs_of_pos h]
      split_ifs with hv
      · nlinarith [sq_nonneg (v - eps)]
      · nlinarith [le_abs_self v]
    · rw [e, abs_of_neg h]
      split_ifs with hv
      · nlinarith [sq_nonneg (v + eps)]
      · nlinarith [neg_abs_le v]
    · rw [h, abs_zero] at hu; linarith

theorem regLoss_tangent (loss : String) (eps p y : ℝ) (he : 0 ≤ eps) (q : ℝ) :
    regLossOf loss eps p y + (regLoss realNum loss eps p y).2 * (q - p) ≤ regLossOf loss eps q y := by
  have sq : ∀ u v : ℝ, u ^ 2 / 2 + u * (v - u) ≤ v ^ 2 / 2 := fun u v => by
    nlinarith [sq_nonneg (u - v)]
  have e : q - p = (q - y) - (p - y) := by ring
  rw [e]
  unfold regLossOf
  by_cases h2 : loss = "huber"
  · subst h2
    rw [regLoss_huber, if_pos rfl, if_pos rfl]
    have := huber_tangent eps (p - y) (q - y) he
    by_cases h : |p - y| ≤ eps
    · simp only [if_pos h] at this ⊢; exact this
    · simp only [if_neg h] at this ⊢; exact this
  · by_cases h3 : loss = "epsilon_insensitive"
    · subst h3
      rw [regLoss_eps, if_neg h2, if_pos rfl, if_neg h2, if_pos rfl]
      by_cases h : |p - y| ≤ eps
      · simp only [if_pos h]; rw [max_eq_left (by linarith)]; simp
      · simp only [if_neg h]; rw [max_eq_right (by linarith)]
        exact le_max_of_le_right (by linarith [abs_tangent (p - y) (q - y)])
    · rw [regLoss_other loss h2 h3, if_neg h2, if_neg h3, if_neg h2, if_neg h3]
      exact sq _ _

/-! ## Penalties -/

/-- derivative of the penalty in one weight -/
noncomputable def penD (o : Opts ℝ) (w : ℝ) : ℝ :=
  if o.penalty = "l2" then o.alpha * w
  else if o.penalty = "l1" then o.alpha * sign w
  else if o.penalty = "elasticnet" then o.alpha * (o.l1Ratio * sign w + (1 - o.l1Ratio) * w)
  else 0

theorem addPenalty_eq (o : Opts ℝ) (w g : ℝ) : addPenalty o w g = g + penD o w := by
  unfold addPenalty penD
  split_ifs <;> simp

theorem l2_tangent (n : Nat) (w v : Nat → ℝ) :
    1 / 2 * ∑ i ∈ range n, w i ^ 2 + ∑ i ∈ range n, w i * (v i - w i) ≤
      1 / 2 * ∑ i ∈ range n, v i ^ 2 := by
  rw [mul_sum, mul_sum, ← sum_add_distrib]
  exact sum_le_sum fun i _ => by nlinarith [sq_nonneg (w i - v i)]

theorem l1_tangent (n : Nat) (w v : Nat → ℝ) :
    ∑ i ∈ range n, |w i| + ∑ i ∈ range n, sign (w i) * (v i - w i) ≤ ∑ i ∈ range n, |v i| := by
  rw [← sum_add_distrib]
  exact sum_le_sum fun i _ => abs_tangent _ _

theorem penalty_tangent (o : Opts ℝ) (h : OptsOk o) (n : Nat) (w v : Nat → ℝ) :
    penaltyOf o n w + ∑ i ∈ range n, penD o (w i) * (v i - w i) ≤ penaltyOf o n v := by
  have h2 := l2_tangent n w v
  have h1 := l1_tangent n w v
  unfold penaltyOf penD
  split_ifs
  · have : ∑ i ∈ range n, o.alpha * w i * (v i - w i)
        = o.alpha * ∑ i ∈ range n, w i * (v i - w i) := by
      rw [mul_sum]; exact sum_congr rfl fun i _ => by ring
    rw [this]
    nlinarith [mul_le_mul_of_nonneg_left h2 h.alpha_nonneg]
  · have : ∑ i ∈ range n, o.alpha * sign (w i) * (v i - w i)
        = o.alpha * ∑ i ∈ range n, sign (w i) * (v i - w i) := by
      rw [mul_sum]; exact sum_congr rfl fun i _ => by ring
    rw [this]
    nlinarith [mul_le_mul_of_nonneg_left h1 h.alpha_nonneg]
  · have : ∑ i ∈ range n, o.alpha * (o.l1Ratio * sign (w i) + (1 - o.l1Ratio) * w i) * (v i - w i)
        = o.alpha * (o.l1Ratio * ∑ i ∈ range n, sign (w i) * (v i - w i)
          + (1 - o.l1Ratio) * ∑ i ∈ range n, w i * (v i - w i)) := by
      rw [mul_sum, mul_sum, ← sum_add_distrib, mul_sum]
      exact sum_congr rfl fun i _ => by ring
    rw [this, ← mul_add]
    refine mul_le_mul_of_nonneg_left ?_ h.alpha_nonneg
    nlinarith [mul_le_mul_of_nonneg_left h1 h.ratio_nonneg,
      mul_le_mul_of_nonneg_left h2 (sub_nonneg.2 h.ratio_le_one)]
  · simp

theorem lin_diff (n : Nat) (x w v : Nat → ℝ) (b c : ℝ) :
    lin n x v c - lin n x w b = ∑ i ∈ range n, x i * (v i - w i) + (c - b) := by
  unfold lin
  have : ∑ i ∈ range n, x i * (v i - w i) = ∑ i ∈ range n, v i * x i - ∑ i ∈ range n, w i * x i := by
    rw [← sum_sub_distrib]; exact sum_congr rfl fun i _ => by ring
  rw [this]; ring

/-- chain rule: a scalar subgradient of the loss plus the derivative of the penalty -/
theorem subgradient_of_tangent (o : Opts ℝ) (h : OptsOk o) (n : Nat) (x w : Nat → ℝ) (b d : ℝ)
    (f : ℝ → ℝ) (hf : ∀ q, f (lin n x w b) + d * (q - lin n x w b) ≤ f q) :
    IsSubgradient n (fun w b => f (lin n x w b) + penaltyOf o n w) w b
      (fun i => addPenalty o (w i) (d * x i)) d := by
  intro v c
  have h1 := hf (lin n x v c)
  have h2 := penalty_tangent o h n w v
  have e : ∑ i ∈ range n, addPenalty o (w i) (d * x i) * (v i - w i)
      = d * ∑ i ∈ range n, x i * (v i - w i) + ∑ i ∈ range n, penD o (w i) * (v i - w i) := by
    rw [mul_sum, ← sum_add_distrib]
    exact sum_congr rfl fun i _ => by rw [addPenalty_eq]; ring
  rw [lin_diff] at h1
  simp only
  rw [e]
  linarith

/-! ## Classification losses -/

theorem exp_convex_ineq (p d : ℝ) (h0 : 0 ≤ p) (h1 : p ≤ 1) :
    Real.exp (p * d) ≤ (1 - p) + p * Real.exp d := by
  have := convexOn_exp.2 (Set.mem_univ (0 : ℝ)) (Set.mem_univ d) (sub_nonneg.2 h1) h0 (by ring)
  simpa using this

/-- tangent inequality of the logistic loss -/
theorem logistic_tangent (z z' : ℝ) :
    Real.log (1 + Real.exp (-z)) - Real.exp (-z) / (1 + Real.exp (-z)) * (z' - z) ≤
      Real.log (1 + Real.exp (-z')) := by
  have hp : 0 < 1 + Real.exp (-z) := by positivity
  have hp' : 0 < 1 + Real.exp (-z') := by positivity
  have h0 : 0 ≤ Real.exp (-z) / (1 + Real.exp (-z)) := by positivity
  have h1 : Real.exp (-z) / (1 + Real.exp (-z)) ≤ 1 := by rw [div_le_one hp]; linarith
  have key := exp_convex_ineq _ (-(z' - z)) h0 h1
  have e : (1 - Real.exp (-z) / (1 + Real.exp (-z)))
      + Real.exp (-z) / (1 + Real.exp (-z)) * Real.exp (-(z' - z))
      = (1 + Real.exp (-z')) / (1 + Real.exp (-z)) := by
    rw [show -z' = -z + -(z' - z) by ring, Real.exp_add]
    field_simp
    ring
  rw [e] at key
  have := Real.log_le_log (Real.exp_pos _) key
  rw [Real.log_exp, Real.log_div hp'.ne' hp.ne'] at this
  linarith

theorem hinge_tangent (z z' : ℝ) :
    max 0 (1 - z) + (if z < 1 then (-1 : ℝ) else 0) * (z' - z) ≤ max 0 (1 - z') := by
  split_ifs with h
  · rw [max_eq_right (by linarith)]; exact le_max_of_le_right (by linarith)
  · rw [max_eq_left (by linarith)]; simp

theorem sqhinge_tangent (z z' : ℝ) :
    max 0 (1 - z) ^ 2 + (if z < 1 then -2 * (1 - z) else 0) * (z' - z) ≤ max 0 (1 - z') ^ 2 := by
  split_ifs with h
  · rw [max_eq_right (by linarith)]
    rcases le_total 0 (1 - z') with h' | h'
    · rw [max_eq_right h']; nlinarith [sq_nonneg (z - z')]
    · rw [max_eq_left h']; nlinarith
  · rw [max_eq_left (by linarith)]; simp

end Scigo.Online
