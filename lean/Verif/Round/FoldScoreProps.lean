import Verif.CV.Score
import Verif.Round.MomentProps

/-!
# C330: mean and spread of cross-validation scores in `float64`

The exact statements are C210.
-/

set_option linter.unusedSectionVars false

namespace Scigo.Round

open Scigo.CV

variable {K : Type} [Field K] [LinearOrder K] [IsStrictOrderedRing K] {R : Rounding K} {eps eta : K}

/-! ## Helpers -/

theorem abs_sum_map_le (l : List K) : |l.sum| ≤ (l.map (fun x => |x|)).sum := by
  induction l with
  | nil => simp
  | cons a l ih =>
    rw [List.sum_cons, List.map_cons, List.sum_cons]
    exact (abs_add_le _ _).trans (by linarith)

theorem sumOver_signed (he : 0 ≤ eps) (hA : R.AddAccurate eps) (l : List (Fl R)) :
    |(sumOver l id).val - (l.map Fl.val).sum| ≤ ((1 + eps) ^ l.length - 1) * (l.map fun x => |x.val|).sum := by
  induction l using List.reverseRecOn with
  | nil => simp [sumOver]
  | append_singleton l a ih =>
    have e1 : sumOver (l ++ [a]) id = sumOver l id + a := by simp [sumOver]
    rw [e1, Fl.val_add, List.map_append, List.sum_append, List.map_append, List.sum_append]
    simp only [List.map_cons, List.map_nil, List.sum_cons, List.sum_nil, add_zero, List.length_append, List.length_cons, List.length_nil, zero_add]
    have hTB : |(l.map Fl.val).sum| ≤ (l.map fun x => |x.val|).sum := by
      have := abs_sum_map_le (l.map Fl.val)
      rwa [List.map_map] at this
    have hr := hA (sumOver l id).val a.val (Fl.rep _) (Fl.rep _)
    set S := (sumOver l id).val
    set T := (l.map Fl.val).sum
    set B := (l.map fun x => |x.val|).sum
    have hS := abs_near ih
    have hg := grow he l.length
    have h1 : |S + a.val| ≤ (1 + eps) ^ l.length * B + |a.val| := by
      refine (abs_add_le _ _).trans ?_
      linarith
    have h2 : R.rnd (S + a.val) - (T + a.val) = (R.rnd (S + a.val) - (S + a.val)) + (S - T) := by ring
    rw [h2]
    refine (abs_add_le _ _).trans ?_
    have h3 : eps * |S + a.val| ≤ eps * ((1 + eps) ^ l.length * B + |a.val|) := mul_le_mul_of_nonneg_left h1 he
    have h4 : 0 ≤ ((1 + eps) ^ l.length - 1) * (1 + eps) * |a.val| :=
      mul_nonneg (mul_nonneg (by linarith) (by linarith)) (abs_nonneg _)
    rw [pow_succ]
    nlinarith

theorem sumOver_const_id (l : List (Fl R)) (c : Fl R) (hl : ∀ x ∈ l, x = c) (hc : ∀ k : Nat, k ≤ l.length → R.rnd (k * c.val) = k * c.val) :
    (sumOver l id).val = l.length * c.val := by
  induction l using List.reverseRecOn with
  | nil => simp [sumOver]
  | append_singleton l a ih =>
    have e1 : sumOver (l ++ [a]) id = sumOver l id + a := by simp [sumOver]
    have hlen : (l ++ [a]).length = l.length + 1 := by simp
    rw [hlen] at hc ⊢
    rw [e1, Fl.val_add, ih (fun x hx => hl x (by simp [hx])) (fun k hk => hc k (by omega)), hl a (by simp)]
    have := hc (l.length + 1) (le_refl _)
    push_cast at this ⊢
    rw [add_mul, one_mul] at this ⊢
    exact this

theorem sumOver_zeros (l : List (Fl R)) (f : Fl R → Fl R) (h : ∀ x ∈ l, f x = 0) : sumOver l f = 0 := by
  induction l using List.reverseRecOn with
  | nil => rfl
  | append_singleton l a ih =>
    have e1 : sumOver (l ++ [a]) f = sumOver l f + f a := by simp [sumOver]
    rw [e1, ih (fun x hx => h x (by simp [hx])), h a (by simp), Fl.add_zero']

/-! ## C330 -/

/-- **C330**: the mean of the fold scores is their exact mean up to n + 1 relative errors of the mean of the absolute values and one underflow -/
theorem cv_mean_error (he : 0 ≤ eps) (hR : R.Accurate eps eta) (hA : R.AddAccurate eps) (l : List (Fl R)) (hl : l ≠ []) (hn : R.rnd (l.length : K) = l.length) :
    |(meanScore l).val - (l.map Fl.val).sum / l.length| ≤ ((1 + eps) ^ (l.length + 1) - 1) * ((l.map fun x => |x.val|).sum / l.length) + eta := by
  have hpos : 0 < l.length := List.length_pos_iff.2 hl
  have h0 : (0 : K) < l.length := Nat.cast_pos.2 hpos
  have hs := sumOver_signed he hA l
  have hTB : |(l.map Fl.val).sum| ≤ (l.map fun x => |x.val|).sum := by
    have := abs_sum_map_le (l.map Fl.val)
    rwa [List.map_map] at this
  unfold meanScore
  rw [if_neg hpos.ne', Fl.val_div, Fl.val_natCast, hn]
  set S := (sumOver l id).val
  set T := (l.map Fl.val).sum
  set B := (l.map fun x => |x.val|).sum
  have hS := abs_near hs
  have h1 : |S / l.length - T / l.length| ≤ ((1 + eps) ^ l.length - 1) * (B / l.length) := by
    rw [← sub_div, abs_div, abs_of_pos h0, ← mul_div_assoc]
    exact div_le_div_of_nonneg_right hs h0.le
  have h2 : |S / l.length| ≤ (1 + eps) ^ l.length * (B / l.length) := by
    rw [abs_div, abs_of_pos h0, ← mul_div_assoc]
    exact div_le_div_of_nonneg_right (by linarith) h0.le
  have h3 := hR (S / l.length)
  have h4 : eps * |S / l.length| ≤ eps * ((1 + eps) ^ l.length * (B / l.length)) := mul_le_mul_of_nonneg_left h2 he
  have e : R.rnd (S / l.length) - T / l.length = (R.rnd (S / l.length) - S / l.length) + (S / l.length - T / l.length) := by ring
  rw [e, pow_succ]
  refine (abs_add_le _ _).trans ?_
  linarith

/-- **C330**: the standard deviation is not negative, and its square is the sum of the squared deviations from the reported mean divided by n - 1, up to n + 6 relative errors and three underflows -/
theorem cv_std_error (he : 0 ≤ eps) (hη : 0 ≤ eta) (hR : R.Accurate eps eta) (hA : R.AddAccurate eps) (sqrt : Fl R → Fl R) (hsq : SqrtAccurate eps sqrt) (l : List (Fl R)) (hl : 2 ≤ l.length)
    (hn : R.rnd ((l.length - 1 : Nat) : K) = (l.length - 1 : Nat)) :
    0 ≤ stdScore sqrt l ∧
      |(stdScore sqrt l).val ^ 2 - (l.map fun x => (x.val - (meanScore l).val) ^ 2).sum / (l.length - 1 : Nat)| ≤
        ((1 + eps) ^ (l.length + 6) - 1) * ((l.map fun x => (x.val - (meanScore l).val) ^ 2).sum / (l.length - 1 : Nat)) + 3 * (1 + eps) ^ (l.length + 6) * eta := by
  have h0 : (0 : K) < (l.length - 1 : Nat) := Nat.cast_pos.2 (by omega)
  have hterm : ∀ x ∈ l, Near eps eta 3 1 ((x - meanScore l) * (x - meanScore l)).val ((x.val - (meanScore l).val) ^ 2) := by
    intro x _
    rw [Fl.val_mul, pow_two]
    have h1 : Near eps eta 1 0 (x - meanScore l).val (x.val - (meanScore l).val) :=
      (Near.refl eps eta (x.val - (meanScore l).val)).rel he (by rw [Fl.val_sub]; exact hA.sub _ _ x.rep (meanScore l).rep)
    have h2 := (h1.sq he).rnd he hη hR
    rwa [zero_add] at h2
  obtain ⟨h1, hs⟩ := Near.sum he hη hA l (fun x => (x - meanScore l) * (x - meanScore l)) (fun x => (x.val - (meanScore l).val) ^ 2) 3 1 zero_le_one (fun x _ => sq_nonneg _) hterm
  have h2 := h1.mul_const (((l.length - 1 : Nat) : K)⁻¹) (inv_nonneg.2 h0.le)
  rw [← div_eq_mul_inv, ← div_eq_mul_inv] at h2
  have h3 := h2.rnd he hη hR
  have hv : (sumOver l (fun s => (s - meanScore l) * (s - meanScore l)) / ((l.length - 1 : Nat) : Fl R)).val =
      R.rnd ((sumOver l (fun s => (s - meanScore l) * (s - meanScore l))).val / (l.length - 1 : Nat)) := by
    rw [Fl.val_div, Fl.val_natCast, hn]
  rw [← hv] at h3
  have hv0 : 0 ≤ (sumOver l (fun s => (s - meanScore l) * (s - meanScore l)) / ((l.length - 1 : Nat) : Fl R)).val := by
    rw [hv]
    refine R.nonneg (div_nonneg ?_ h0.le)
    exact sumOver_nonneg l _ (fun x _ => by
      show (0 : K) ≤ ((x - meanScore l) * (x - meanScore l) : Fl R).val
      rw [Fl.val_mul]
      exact R.nonneg (mul_self_nonneg _))
  obtain ⟨q1, q2⟩ := hsq _ hv0
  unfold stdScore
  rw [if_neg (by omega)]
  refine ⟨q1, ?_⟩
  have h4 := h3.more he (j := 2) (by rw [abs_of_nonneg hv0]; exact q2)
  have hm : (l.length : K) * 1 / ((l.length - 1 : Nat) : K) + 1 ≤ 3 := by
    have : (l.length : K) ≤ 2 * ((l.length - 1 : Nat) : K) := by
      have : l.length ≤ 2 * (l.length - 1) := by omega
      exact_mod_cast this
    rw [mul_one]
    have := (div_le_iff₀ h0).2 this
    linarith
  have hm0 : 0 ≤ (l.length : K) * 1 / ((l.length - 1 : Nat) : K) + 1 := by positivity
  have h5 := h4.mono he hη hm0 (k' := l.length + 6) (by omega) hm
  unfold Near at h5
  rw [← div_eq_mul_inv, abs_of_nonneg (div_nonneg hs h0.le)] at h5
  exact h5

/-- **C330 (partial: the multiples of the score have to be exact).** If all folds have the same score and its multiples are exact, the mean is that score and the standard deviation is 0. -/
theorem cv_equal_scores_partial (sqrt : Fl R → Fl R) (hsq : sqrt 0 = 0) (l : List (Fl R)) (hl : l ≠ []) (c : Fl R) (hall : ∀ x ∈ l, x = c)
    (hc : ∀ k : Nat, k ≤ l.length → R.rnd (k * c.val) = k * c.val) (hn : R.rnd (l.length : K) = l.length) : meanScore l = c ∧ stdScore sqrt l = 0 := by
  have hpos : 0 < l.length := List.length_pos_iff.2 hl
  have hmean : meanScore l = c := by
    unfold meanScore
    rw [if_neg hpos.ne']
    apply Fl.ext
    rw [Fl.val_div, sumOver_const_id l c hall hc, Fl.val_natCast, hn, mul_div_cancel_left₀ _ (Nat.cast_ne_zero.2 hpos.ne'), c.rep]
  refine ⟨hmean, ?_⟩
  unfold stdScore
  split
  · rfl
  · rw [hmean, sumOver_zeros l _ (fun x hx => by rw [hall x hx, Fl.sub_self', Fl.zero_mul']), Fl.zero_div', hsq]

/-- three folds with the score 0.1 (`TestScores` of sklearn/lightgbm/cross_validation.go:205) -/
def tenths : List (Fl Binary64.rounding) := List.replicate 3 (Binary64.lit (1 / 10))

/-- **C330, what does not hold.** Three folds with the same score 0.1: the mean is greater than every score and the standard deviation is positive. -/
theorem cv_equal_scores_spread (sqrt : Fl Binary64.rounding → Fl Binary64.rounding) (hsq : SqrtAccurate (1 / 2 ^ 53) sqrt) :
    (∀ x ∈ tenths, x < meanScore tenths) ∧ 0 < stdScore sqrt tenths := by
  refine ⟨by decide +kernel, ?_⟩
  have h1 : 0 < (sumOver tenths (fun s => (s - meanScore tenths) * (s - meanScore tenths)) / ((tenths.length - 1 : Nat) : Fl Binary64.rounding)).val := by decide +kernel
  obtain ⟨h2, h3⟩ := hsq _ h1.le
  show (0 : ℚ) < (stdScore sqrt tenths).val
  have e : stdScore sqrt tenths = sqrt (sumOver tenths (fun s => (s - meanScore tenths) * (s - meanScore tenths)) / ((tenths.length - 1 : Nat) : Fl Binary64.rounding)) := rfl
  rw [e]
  refine lt_of_le_of_ne h2 (fun h => ?_)
  rw [← h, abs_le] at h3
  have h4 : ((1 + 1 / 2 ^ 53 : ℚ) ^ 2 - 1) < 1 := by norm_num
  nlinarith [h3.1]

/-- the hypotheses of the two error bounds are met by binary64 and five folds -/
example (sqrt : Fl Binary64.rounding → Fl Binary64.rounding) (hsq : SqrtAccurate (1 / 2 ^ 53) sqrt) (l : List (Fl Binary64.rounding)) (hl : l.length = 5) :
    0 ≤ stdScore sqrt l ∧ |(meanScore l).val - (l.map Fl.val).sum / l.length| ≤ ((1 + 1 / 2 ^ 53) ^ (l.length + 1) - 1) * ((l.map fun x => |x.val|).sum / l.length) + 1 / 2 ^ 1075 :=
  ⟨(cv_std_error (by norm_num) (by positivity) Binary64.accurate Binary64.add_accurate sqrt hsq l (by omega) (by rw [hl]; exact Binary64.nat_exact 4 (by norm_num))).1,
    cv_mean_error (by norm_num) Binary64.accurate Binary64.add_accurate l (by rintro rfl; simp at hl) (by rw [hl]; exact Binary64.nat_exact 5 (by norm_num))⟩

/-- such a square root exists -/
example : ∃ sqrt : Fl Binary64.rounding → Fl Binary64.rounding, SqrtAccurate (1 / 2 ^ 53) sqrt := exists_sqrt

/-- four folds with the score 0.75 -/
example : meanScore (List.replicate 4 (Binary64.lit (3 / 4))) = Binary64.lit (3 / 4) ∧ stdScore id (List.replicate 4 (Binary64.lit (3 / 4))) = 0 :=
  cv_equal_scores_partial id rfl _ (by simp) _ (by simp) (by decide +kernel) (by decide +kernel)

end Scigo.Round
