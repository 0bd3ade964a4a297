import Verif.Base.Binary64Add
import Verif.Round.MetricsProps

/-!
# C282: how far rounded results are from the exact ones
-/

set_option linter.unusedSectionVars false

namespace Scigo.Round

open Scigo.Metrics

variable {K : Type _} [Field K] [LinearOrder K] [IsStrictOrderedRing K] {R : Rounding K} {eps eta : K}

/-! ## Accumulated errors -/

/-- `x` is `y` up to `k` relative errors of `eps` and `m` absolute errors of `eta` (Go `float64`, cf. metrics/regression.go:53-56) -/
def Near (eps eta : K) (k : Nat) (m : K) (x y : K) : Prop := |x - y| ≤ ((1 + eps) ^ k - 1) * |y| + m * (1 + eps) ^ k * eta

theorem grow (he : 0 ≤ eps) (k : Nat) : 1 ≤ (1 + eps) ^ k := one_le_pow₀ (by linarith)

theorem Near.refl (eps eta : K) (x : K) : Near eps eta 0 0 x x := by simp [Near]

theorem Near.mono (he : 0 ≤ eps) (hη : 0 ≤ eta) {k k' : Nat} {m m' x y : K} (h : Near eps eta k m x y) (hm0 : 0 ≤ m) (hk : k ≤ k')
    (hm : m ≤ m') : Near eps eta k' m' x y := by
  unfold Near at *
  have h1 : (1 + eps) ^ k ≤ (1 + eps) ^ k' := pow_le_pow_right₀ (by linarith) hk
  have h2 : ((1 + eps) ^ k - 1) * |y| ≤ ((1 + eps) ^ k' - 1) * |y| := mul_le_mul_of_nonneg_right (by linarith) (abs_nonneg y)
  have h3 : m * (1 + eps) ^ k * eta ≤ m' * (1 + eps) ^ k' * eta :=
    mul_le_mul_of_nonneg_right (mul_le_mul hm h1 (by linarith [grow he k]) (hm0.trans hm)) hη
  linarith

theorem abs_near {x y e : K} (h : |x - y| ≤ e) : |x| ≤ |y| + e := by
  have := abs_add_le (x - y) y
  rw [sub_add_cancel] at this
  linarith

/-- one more rounding, without underflow -/
theorem Near.rel (he : 0 ≤ eps) {k : Nat} {m x y r : K} (h : Near eps eta k m x y) (hr : |r - x| ≤ eps * |x|) :
    Near eps eta (k + 1) m r y := by
  unfold Near at *
  have h1 := abs_near h
  have h2 := abs_add_le (r - x) (x - y)
  rw [sub_add_sub_cancel] at h2
  have h3 := mul_le_mul_of_nonneg_left h1 he
  have h4 : ((1 + eps) ^ (k + 1) - 1) * |y| + m * (1 + eps) ^ (k + 1) * eta =
      eps * (|y| + (((1 + eps) ^ k - 1) * |y| + m * (1 + eps) ^ k * eta)) + (((1 + eps) ^ k - 1) * |y| + m * (1 + eps) ^ k * eta) := by
    rw [pow_succ]
    ring
  linarith

/-- one more rounding -/
theorem Near.rnd (he : 0 ≤ eps) (hη : 0 ≤ eta) (hR : R.Accurate eps eta) {k : Nat} {m x y : K} (h : Near eps eta k m x y) :
    Near eps eta (k + 1) (m + 1) (R.rnd x) y := by
  unfold Near at *
  have h0 := hR x
  have h1 := abs_near h
  have h2 := abs_add_le (R.rnd x - x) (x - y)
  rw [sub_add_sub_cancel] at h2
  have h3 := mul_le_mul_of_nonneg_left h1 he
  have h5 := mul_le_mul_of_nonneg_right (grow he (k + 1)) hη
  have h4 : ((1 + eps) ^ (k + 1) - 1) * |y| + (m + 1) * (1 + eps) ^ (k + 1) * eta =
      eps * (|y| + (((1 + eps) ^ k - 1) * |y| + m * (1 + eps) ^ k * eta)) + (((1 + eps) ^ k - 1) * |y| + m * (1 + eps) ^ k * eta) +
        (1 + eps) ^ (k + 1) * eta := by
    rw [pow_succ]
    ring
  linarith

/-- products with an exact factor -/
theorem Near.mul_const {k : Nat} {m x y : K} (h : Near eps eta k m x y) (c : K) (hc : 0 ≤ c) :
    Near eps eta k (m * c) (x * c) (y * c) := by
  unfold Near at *
  rw [← sub_mul, abs_mul, abs_mul, abs_of_nonneg hc]
  have := mul_le_mul_of_nonneg_right h hc
  refine this.trans (le_of_eq ?_)
  ring

/-- the square of a difference -/
theorem Near.sq (he : 0 ≤ eps) {k : Nat} {x y : K} (h : Near eps eta k 0 x y) : Near eps eta (k + k) 0 (x * x) (y * y) := by
  unfold Near at *
  have hg := grow he k
  rw [zero_mul, zero_mul, add_zero] at *
  set g := (1 + eps) ^ k
  have h1 := abs_near h
  have h2 : x * x - y * y = (x - y) * (x + y) := by ring
  have h3 : |x + y| ≤ (g + 1) * |y| := by
    have := abs_add_le x y
    linarith
  rw [h2, abs_mul, abs_mul, pow_add]
  refine (mul_le_mul h h3 (abs_nonneg _) (mul_nonneg (by linarith) (abs_nonneg _))).trans (le_of_eq ?_)
  ring

theorem Near.abs {k : Nat} {m x y : K} (h : Near eps eta k m x y) : Near eps eta k m |x| |y| := by
  unfold Near at *
  rw [abs_abs]
  exact (abs_abs_sub_abs_le x y).trans h

/-- a rounded sum of approximations of terms that are not negative -/
theorem Near.sum {β : Type _} (he : 0 ≤ eps) (hη : 0 ≤ eta) (hA : R.AddAccurate eps) (l : List β) (f : β → Fl R) (g : β → K) (k : Nat) (m : K)
    (hm : 0 ≤ m) (hg : ∀ x ∈ l, 0 ≤ g x) (hf : ∀ x ∈ l, Near eps eta k m (f x).val (g x)) :
    Near eps eta (k + l.length) (l.length * m) (sumOver l f).val (l.map g).sum ∧ 0 ≤ (l.map g).sum := by
  induction l using List.reverseRecOn with
  | nil =>
    refine ⟨?_, by simp⟩
    simp [Near, sumOver]
  | append_singleton l a ih =>
    obtain ⟨ih, hs⟩ := ih (fun x hx => hg x (List.mem_append_left _ hx)) (fun x hx => hf x (List.mem_append_left _ hx))
    have ha := hf a (by simp)
    have hga := hg a (by simp)
    have e1 : sumOver (l ++ [a]) f = sumOver l f + f a := by simp [sumOver]
    rw [e1, List.map_append, List.sum_append]
    simp only [List.map_cons, List.map_nil, List.sum_cons, List.sum_nil, add_zero, List.length_append, List.length_cons, List.length_nil, zero_add]
    refine ⟨?_, by linarith⟩
    rw [← add_assoc, Fl.val_add]
    refine Near.rel he (x := (sumOver l f).val + (f a).val) ?_ (hA _ _ (Fl.rep _) (Fl.rep _))
    have ha' := ha.mono he hη hm (k' := k + l.length) (by omega) (le_refl m)
    unfold Near at *
    rw [abs_of_nonneg hs] at ih
    rw [abs_of_nonneg hga] at ha'
    rw [abs_of_nonneg (add_nonneg hs hga)]
    have e2 : (sumOver l f).val + (f a).val - ((l.map g).sum + g a) = ((sumOver l f).val - (l.map g).sum) + ((f a).val - g a) := by ring
    rw [e2]
    refine (abs_add_le _ _).trans ((add_le_add ih ha').trans (le_of_eq ?_))
    push_cast
    ring

/-! ## C282 -/

/-- **C282**: the mean squared error of n pairs, computed with every operation rounded, is the exact mean of the squared differences up to
n + 4 relative errors and two underflows -/
theorem mse_error (he : 0 ≤ eps) (hη : 0 ≤ eta) (hR : R.Accurate eps eta) (hA : R.AddAccurate eps) (t p : List (Fl R)) (ht : t ≠ [])
    (hp : p.length = t.length) (hn : R.rnd (t.length : K) = t.length) :
    ∃ v, mse (some t) (some p) = .ok v ∧
      |v.val - ((t.zip p).map fun x => (x.1.val - x.2.val) ^ 2).sum / t.length| ≤
        ((1 + eps) ^ (t.length + 4) - 1) * (((t.zip p).map fun x => (x.1.val - x.2.val) ^ 2).sum / t.length) +
          2 * (1 + eps) ^ (t.length + 4) * eta := by
  have hlz : (t.zip p).length = t.length := by simp [hp]
  have hpos : 0 < t.length := List.length_pos_iff.2 ht
  have hposK : (0 : K) < t.length := Nat.cast_pos.2 hpos
  refine ⟨sumOver (t.zip p) (fun x => (x.1 - x.2) * (x.1 - x.2)) / ((t.zip p).length : Fl R), ?_, ?_⟩
  · unfold mse regGuard
    dsimp only
    rw [if_neg (by omega), if_neg (by simp [hp])]
  · rw [Fl.val_div, Fl.val_natCast, hlz, hn]
    have hterm : ∀ x ∈ t.zip p, Near eps eta 3 1 ((x.1 - x.2) * (x.1 - x.2)).val ((x.1.val - x.2.val) ^ 2) := by
      intro x _
      rw [Fl.val_mul, pow_two]
      have h1 : Near eps eta 1 0 (x.1 - x.2).val (x.1.val - x.2.val) :=
        (Near.refl eps eta (x.1.val - x.2.val)).rel he (by rw [Fl.val_sub]; exact hA.sub _ _ x.1.rep x.2.rep)
      have h2 := (h1.sq he).rnd he hη hR
      rwa [zero_add] at h2
    obtain ⟨h1, h0⟩ := Near.sum he hη hA (t.zip p) (fun x => (x.1 - x.2) * (x.1 - x.2)) (fun x => (x.1.val - x.2.val) ^ 2) 3 1
      zero_le_one (fun x _ => sq_nonneg _) hterm
    have h2 := h1.mul_const ((t.length : K)⁻¹) (inv_nonneg.2 hposK.le)
    rw [hlz, mul_one, mul_inv_cancel₀ hposK.ne', ← div_eq_mul_inv, ← div_eq_mul_inv] at h2
    have h3 := h2.rnd he hη hR
    unfold Near at h3
    rw [abs_of_nonneg (div_nonneg h0 hposK.le), show 3 + t.length + 1 = t.length + 4 by omega, one_add_one_eq_two] at h3
    exact h3

/-- **C282**: the mean absolute error of n pairs, with every operation rounded, is the exact mean of the absolute differences up to n + 2
relative errors and one underflow -/
theorem mae_error (he : 0 ≤ eps) (hη : 0 ≤ eta) (hR : R.Accurate eps eta) (hA : R.AddAccurate eps) (t p : List (Fl R)) (ht : t ≠ [])
    (hp : p.length = t.length) (hn : R.rnd (t.length : K) = t.length) :
    ∃ v, mae Fl.abs (some t) (some p) = .ok v ∧
      |v.val - ((t.zip p).map fun x => |x.1.val - x.2.val|).sum / t.length| ≤
        ((1 + eps) ^ (t.length + 2) - 1) * (((t.zip p).map fun x => |x.1.val - x.2.val|).sum / t.length) +
          (1 + eps) ^ (t.length + 2) * eta := by
  have hlz : (t.zip p).length = t.length := by simp [hp]
  have hpos : 0 < t.length := List.length_pos_iff.2 ht
  have hposK : (0 : K) < t.length := Nat.cast_pos.2 hpos
  refine ⟨sumOver (t.zip p) (fun x => (x.1 - x.2).abs) / ((t.zip p).length : Fl R), ?_, ?_⟩
  · unfold mae regGuard
    dsimp only
    rw [if_neg (by omega), if_neg (by simp [hp])]
  · rw [Fl.val_div, Fl.val_natCast, hlz, hn]
    have hterm : ∀ x ∈ t.zip p, Near eps eta 1 0 (x.1 - x.2).abs.val |x.1.val - x.2.val| := by
      intro x _
      rw [Fl.val_abs]
      exact ((Near.refl eps eta (x.1.val - x.2.val)).rel he (by rw [Fl.val_sub]; exact hA.sub _ _ x.1.rep x.2.rep)).abs
    obtain ⟨h1, h0⟩ := Near.sum he hη hA (t.zip p) (fun x => (x.1 - x.2).abs) (fun x => |x.1.val - x.2.val|) 1 0
      (le_refl _) (fun x _ => abs_nonneg _) hterm
    have h2 := h1.mul_const ((t.length : K)⁻¹) (inv_nonneg.2 hposK.le)
    rw [hlz, mul_zero, zero_mul, ← div_eq_mul_inv, ← div_eq_mul_inv] at h2
    have h3 := h2.rnd he hη hR
    unfold Near at h3
    rw [abs_of_nonneg (div_nonneg h0 hposK.le), show 1 + t.length + 1 = t.length + 2 by omega, zero_add, one_mul] at h3
    exact h3

theorem mapeLoop_eq (z : List (Fl R × Fl R)) (s : Fl R × Nat) :
    z.foldl (fun s x => if x.1 != 0 then (s.1 + (x.1 - x.2).abs / x.1.abs, s.2 + 1) else s) s =
      ((z.filter fun x => x.1 != 0).foldl (fun s x => s + (x.1 - x.2).abs / x.1.abs) s.1, s.2 + (z.filter fun x => x.1 != 0).length) := by
  induction z generalizing s with
  | nil => rfl
  | cons x z ih =>
    rw [List.foldl_cons, ih, List.filter_cons]
    by_cases h : (x.1 != 0) = true
    · rw [if_pos h, if_pos h, List.foldl_cons, List.length_cons]
      simp only [Prod.mk.injEq, true_and]
      omega
    · rw [if_neg h, if_neg h]

/-- **C282**: the mean absolute percentage error, with every operation rounded, is the exact one over the c targets that are not zero, up to
c + 4 relative errors and 201 underflows -/
theorem mape_error (he : 0 ≤ eps) (hη : 0 ≤ eta) (hR : R.Accurate eps eta) (hA : R.AddAccurate eps) (t p : List (Fl R)) (ht : t ≠ [])
    (hp : p.length = t.length) (z : List (Fl R × Fl R)) (hz : z = (t.zip p).filter fun x => x.1 != 0) (hz0 : z ≠ [])
    (hn : R.rnd (z.length : K) = z.length) (hundred : Fl R) (hh : hundred.val = 100) :
    ∃ v, mape Fl.abs hundred (some t) (some p) = .ok v ∧
      |v.val - (z.map fun x => |x.1.val - x.2.val| / |x.1.val|).sum / z.length * 100| ≤
        ((1 + eps) ^ (z.length + 4) - 1) * ((z.map fun x => |x.1.val - x.2.val| / |x.1.val|).sum / z.length * 100) +
          201 * (1 + eps) ^ (z.length + 4) * eta := by
  have hposT : 0 < t.length := List.length_pos_iff.2 ht
  have hpos : 0 < z.length := List.length_pos_iff.2 hz0
  have hposK : (0 : K) < z.length := Nat.cast_pos.2 hpos
  have hloop : mapeLoop Fl.abs (t.zip p) = (sumOver z (fun x => (x.1 - x.2).abs / x.1.abs), z.length) := by
    unfold mapeLoop sumOver
    rw [mapeLoop_eq, ← hz, Nat.zero_add]
  refine ⟨sumOver z (fun x => (x.1 - x.2).abs / x.1.abs) / (z.length : Fl R) * hundred, ?_, ?_⟩
  · unfold mape regGuard
    dsimp only
    rw [if_neg (by omega), if_neg (by simp [hp]), hloop]
    dsimp only
    rw [if_neg (by omega)]
  · rw [Fl.val_mul, hh, Fl.val_div, Fl.val_natCast, hn]
    have hterm : ∀ x ∈ z, Near eps eta 2 1 ((x.1 - x.2).abs / x.1.abs).val (|x.1.val - x.2.val| / |x.1.val|) := by
      intro x _
      rw [Fl.val_div, Fl.val_abs, Fl.val_abs]
      have h1 := ((Near.refl eps eta (x.1.val - x.2.val)).rel he
        (show |(x.1 - x.2).val - _| ≤ _ by rw [Fl.val_sub]; exact hA.sub _ _ x.1.rep x.2.rep)).abs
      have h2 := (h1.mul_const (|x.1.val|⁻¹) (inv_nonneg.2 (abs_nonneg _))).rnd he hη hR
      rw [zero_mul, zero_add (1 : K), ← div_eq_mul_inv, ← div_eq_mul_inv] at h2
      exact h2
    obtain ⟨h1, h0⟩ := Near.sum he hη hA z (fun x => (x.1 - x.2).abs / x.1.abs) (fun x => |x.1.val - x.2.val| / |x.1.val|) 2 1
      zero_le_one (fun x _ => div_nonneg (abs_nonneg _) (abs_nonneg _)) hterm
    have h2 := h1.mul_const ((z.length : K)⁻¹) (inv_nonneg.2 hposK.le)
    rw [mul_one, mul_inv_cancel₀ hposK.ne', ← div_eq_mul_inv, ← div_eq_mul_inv] at h2
    have h3 := ((h2.rnd he hη hR).mul_const 100 (by norm_num)).rnd he hη hR
    unfold Near at h3
    rw [abs_of_nonneg (mul_nonneg (div_nonneg h0 hposK.le) (by norm_num)), show 2 + z.length + 1 + 1 = z.length + 4 by omega,
      show (1 + 1) * 100 + 1 = (201 : K) by norm_num] at h3
    exact h3

/-- three pairs in float64: the error is far below the bound, but not zero -/
example : ∃ v, mse (some [Binary64.lit (1 / 10), Binary64.lit (2 / 10), Binary64.lit 3]) (some [Binary64.lit 1, Binary64.lit (1 / 3), Binary64.lit 2]) = .ok v ∧
    v.val ≠ ((([Binary64.lit (1 / 10), Binary64.lit (2 / 10), Binary64.lit 3]).zip [Binary64.lit 1, Binary64.lit (1 / 3), Binary64.lit 2]).map
      fun x => (x.1.val - x.2.val) ^ 2).sum / 3 := by
  refine ⟨_, rfl, ?_⟩
  decide +kernel

/-- float64: the bounds hold for all vectors of fewer than `2 ^ 53` entries -/
example (t p : List (Fl Binary64.rounding)) (ht : t ≠ []) (hp : p.length = t.length) (hn : t.length < 2 ^ 53) :
    ∃ v, mae Fl.abs (some t) (some p) = .ok v ∧
      |v.val - ((t.zip p).map fun x => |x.1.val - x.2.val|).sum / t.length| ≤
        ((1 + 1 / 2 ^ 53) ^ (t.length + 2) - 1) * (((t.zip p).map fun x => |x.1.val - x.2.val|).sum / t.length) +
          (1 + 1 / 2 ^ 53) ^ (t.length + 2) * (1 / 2 ^ 1075) :=
  mae_error (by positivity) (by positivity) Binary64.accurate Binary64.add_accurate t p ht hp (Binary64.nat_exact _ hn)

end Scigo.Round
