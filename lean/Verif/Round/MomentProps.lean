import Verif.Round.RoundTripProps
import Mathlib.Algebra.Order.Archimedean.Basic

/-!
# C292, C293: the statistics StandardScaler fits, and the data it returns, with every operation rounded
-/

set_option linter.unusedSectionVars false

namespace Scigo.Round

open Scigo.Preprocessing

variable {K : Type _} [Field K] [LinearOrder K] [IsStrictOrderedRing K] {R : Rounding K} {eps eta : K}

/-! ## Specification: exact moments of a column -/

/-- the exact mean of the first `n` values (cf. preprocessing/scaler.go:127-133) -/
def exactMean (n : Nat) (x : Nat → K) : K := (∑ i ∈ Finset.range n, x i) / n

/-- the exact mean of the squared distances from `m` (cf. preprocessing/scaler.go:143-149) -/
def meanSq (n : Nat) (x : Nat → K) (m : K) : K := (∑ i ∈ Finset.range n, (x i - m) ^ 2) / n

/-- the accuracy of a correctly rounded square root, as far as it is used (Go `math.Sqrt`, cf. preprocessing/scaler.go:150) -/
def SqrtAccurate (eps : K) (sqrt : Fl R → Fl R) : Prop :=
  ∀ x : Fl R, 0 ≤ x.val → 0 ≤ (sqrt x).val ∧ |(sqrt x).val ^ 2 - x.val| ≤ ((1 + eps) ^ 2 - 1) * x.val

theorem meanSq_split (n : Nat) (hn : 0 < n) (x : Nat → K) (m : K) :
    meanSq n x m = meanSq n x (exactMean n x) + (exactMean n x - m) ^ 2 := by
  have h0 : (n : K) ≠ 0 := Nat.cast_ne_zero.2 hn.ne'
  have hm : ∑ i ∈ Finset.range n, x i = n * exactMean n x := by unfold exactMean; field_simp
  have e : ∀ m, ∑ i ∈ Finset.range n, (x i - m) ^ 2 = ∑ i ∈ Finset.range n, x i ^ 2 - 2 * m * ∑ i ∈ Finset.range n, x i + n * m ^ 2 := by
    intro m
    rw [Finset.mul_sum, ← Finset.sum_sub_distrib, ← nsmul_eq_mul, ← Finset.card_range n, ← Finset.sum_const, Finset.card_range, ← Finset.sum_add_distrib]
    exact Finset.sum_congr rfl (fun i _ => by ring)
  unfold meanSq
  rw [e, e, hm]
  generalize exactMean n x = μ
  field_simp
  ring

theorem meanSq_nonneg (n : Nat) (x : Nat → K) (m : K) : 0 ≤ meanSq n x m :=
  div_nonneg (Finset.sum_nonneg fun i _ => sq_nonneg _) (Nat.cast_nonneg n)

/-! ## Rounded sums of signed terms -/

theorem sum_signed (he : 0 ≤ eps) (hA : R.AddAccurate eps) (n : Nat) (f : Nat → Fl R) :
    |(sumTo n f).val - ∑ i ∈ Finset.range n, (f i).val| ≤ ((1 + eps) ^ n - 1) * ∑ i ∈ Finset.range n, |(f i).val| := by
  induction n with
  | zero => simp
  | succ n ih =>
    rw [sumTo_succ, Fl.val_add, Finset.sum_range_succ, Finset.sum_range_succ]
    set S := (sumTo n f).val
    set T := ∑ i ∈ Finset.range n, (f i).val
    set B := ∑ i ∈ Finset.range n, |(f i).val|
    have hTB : |T| ≤ B := Finset.abs_sum_le_sum_abs _ _
    have hr := hA S (f n).val (Fl.rep _) (Fl.rep _)
    have hS := abs_near ih
    have hg := grow he n
    have h1 : |S + (f n).val| ≤ (1 + eps) ^ n * B + |(f n).val| := by
      refine (abs_add_le _ _).trans ?_
      linarith
    have h2 : R.rnd (S + (f n).val) - (T + (f n).val) = (R.rnd (S + (f n).val) - (S + (f n).val)) + (S - T) := by ring
    rw [h2]
    refine (abs_add_le _ _).trans ?_
    have h3 : eps * |S + (f n).val| ≤ eps * ((1 + eps) ^ n * B + |(f n).val|) := mul_le_mul_of_nonneg_left h1 he
    have h4 : 0 ≤ ((1 + eps) ^ n - 1) * (1 + eps) * |(f n).val| :=
      mul_nonneg (mul_nonneg (by linarith) (by linarith)) (abs_nonneg _)
    rw [pow_succ]
    nlinarith

/-- the fitted mean is the exact mean up to n + 1 relative errors of the mean of the absolute values, and one underflow -/
theorem colMean_error (he : 0 ≤ eps) (hR : R.Accurate eps eta) (hA : R.AddAccurate eps) (X : Mat (Fl R)) (j : Nat) (hr : 0 < X.r)
    (hn : R.rnd (X.r : K) = X.r) :
    |(colMean X j).val - exactMean X.r (fun i => (X.at' i j).val)| ≤
      ((1 + eps) ^ (X.r + 1) - 1) * exactMean X.r (fun i => |(X.at' i j).val|) + eta := by
  have h0 : (0 : K) < X.r := Nat.cast_pos.2 hr
  have hs := sum_signed he hA X.r (fun i => X.at' i j)
  unfold colMean exactMean
  rw [Fl.val_div, Fl.val_natCast, hn]
  set S := (sumTo X.r fun i => X.at' i j).val
  set T := ∑ i ∈ Finset.range X.r, (X.at' i j).val
  set B := ∑ i ∈ Finset.range X.r, |(X.at' i j).val|
  have hTB : |T| ≤ B := Finset.abs_sum_le_sum_abs _ _
  have hS := abs_near hs
  have h1 : |S / X.r - T / X.r| ≤ ((1 + eps) ^ X.r - 1) * (B / X.r) := by
    rw [← sub_div, abs_div, abs_of_pos h0, ← mul_div_assoc]
    exact div_le_div_of_nonneg_right hs h0.le
  have h2 : |S / X.r| ≤ (1 + eps) ^ X.r * (B / X.r) := by
    rw [abs_div, abs_of_pos h0, ← mul_div_assoc]
    exact div_le_div_of_nonneg_right (by linarith) h0.le
  have h3 := hR (S / X.r)
  have h4 : eps * |S / X.r| ≤ eps * ((1 + eps) ^ X.r * (B / X.r)) := mul_le_mul_of_nonneg_left h2 he
  have e : R.rnd (S / X.r) - T / X.r = (R.rnd (S / X.r) - S / X.r) + (S / X.r - T / X.r) := by ring
  rw [e, pow_succ]
  refine (abs_add_le _ _).trans ?_
  linarith

/-- a relative error after others -/
theorem Near.more (he : 0 ≤ eps) {k j : Nat} {m x y r : K} (h : Near eps eta k m x y) (hr : |r - x| ≤ ((1 + eps) ^ j - 1) * |x|) :
    Near eps eta (k + j) m r y := by
  unfold Near at *
  have h1 := abs_near h
  have hg := grow he j
  have h2 : ((1 + eps) ^ j - 1) * |x| ≤ ((1 + eps) ^ j - 1) * (|y| + (((1 + eps) ^ k - 1) * |y| + m * (1 + eps) ^ k * eta)) :=
    mul_le_mul_of_nonneg_left h1 (by linarith)
  have e : r - y = (r - x) + (x - y) := by ring
  rw [e]
  refine (abs_add_le _ _).trans ((add_le_add (hr.trans h2) h).trans (le_of_eq ?_))
  rw [pow_add]
  ring

/-- the variance about the stored mean, before the square root -/
theorem spread_error (he : 0 ≤ eps) (hη : 0 ≤ eta) (hR : R.Accurate eps eta) (hA : R.AddAccurate eps) (X : Mat (Fl R)) (j : Nat) (m : Fl R) (hr : 0 < X.r)
    (hn : R.rnd (X.r : K) = X.r) :
    Near eps eta (X.r + 4) 2 (sumTo X.r (fun i => (X.at' i j - m) * (X.at' i j - m)) / (X.r : Fl R)).val
      (meanSq X.r (fun i => (X.at' i j).val) m.val) ∧
    0 ≤ (sumTo X.r (fun i => (X.at' i j - m) * (X.at' i j - m)) / (X.r : Fl R)).val := by
  have h0 : (0 : K) < X.r := Nat.cast_pos.2 hr
  have hterm : ∀ i ∈ List.range X.r, Near eps eta 3 1 ((X.at' i j - m) * (X.at' i j - m)).val (((X.at' i j).val - m.val) ^ 2) := by
    intro i _
    rw [Fl.val_mul, pow_two]
    have h1 : Near eps eta 1 0 (X.at' i j - m).val ((X.at' i j).val - m.val) :=
      (Near.refl eps eta _).rel he (by rw [Fl.val_sub]; exact hA.sub _ _ (Fl.rep _) m.rep)
    have h2 := (h1.sq he).rnd he hη hR
    rwa [zero_add] at h2
  obtain ⟨h1, h2⟩ := Near.sum he hη hA (List.range X.r) (fun i => (X.at' i j - m) * (X.at' i j - m)) (fun i => ((X.at' i j).val - m.val) ^ 2) 3 1
    zero_le_one (fun _ _ => sq_nonneg _) hterm
  have e1 : ((List.range X.r).map fun i => ((X.at' i j).val - m.val) ^ 2).sum = ∑ i ∈ Finset.range X.r, ((X.at' i j).val - m.val) ^ 2 := by
    generalize X.r = n
    induction n with
    | zero => rfl
    | succ n ih => rw [List.range_succ, List.map_append, List.sum_append, ih, Finset.sum_range_succ]; simp
  have e2 : sumOver (List.range X.r) (fun i => (X.at' i j - m) * (X.at' i j - m)) = sumTo X.r (fun i => (X.at' i j - m) * (X.at' i j - m)) := rfl
  rw [e1] at h1 h2
  rw [e2] at h1
  have h3 := (h1.mul_const ((X.r : K)⁻¹) (inv_nonneg.2 h0.le)).rnd he hη hR
  rw [List.length_range, mul_one, mul_inv_cancel₀ h0.ne', ← div_eq_mul_inv, ← div_eq_mul_inv, one_add_one_eq_two, show 3 + X.r + 1 = X.r + 4 by omega] at h3
  rw [Fl.val_div, Fl.val_natCast, hn]
  refine ⟨h3, R.nonneg (div_nonneg ?_ h0.le)⟩
  generalize X.r = n
  induction n with
  | zero => exact le_refl _
  | succ n ih => rw [sumTo_succ]; exact Fl.add_nonneg' ih (Fl.mul_self_nonneg' _)

/-- the scale: either the root of the exact variance about the fitted mean up to n + 6 relative errors, or 1 for a column of tiny variance -/
theorem colScale_error (he : 0 ≤ eps) (hη : 0 ≤ eta) (hR : R.Accurate eps eta) (hA : R.AddAccurate eps) (sqrt : Fl R → Fl R)
    (hsq : SqrtAccurate eps sqrt) (lit : Fl R) (hl : 0 < lit.val) (X : Mat (Fl R)) (j : Nat) (m : Fl R) (hr : 0 < X.r) (hn : R.rnd (X.r : K) = X.r) :
    let s := (colScale sqrt Fl.abs lit X j m).val
    let q := meanSq X.r (fun i => (X.at' i j).val) m.val
    (lit.val ≤ s ∧ |s ^ 2 - q| ≤ ((1 + eps) ^ (X.r + 6) - 1) * q + 2 * (1 + eps) ^ (X.r + 6) * eta) ∨
    (s = 1 ∧ (2 - (1 + eps) ^ (X.r + 6)) * q ≤ lit.val ^ 2 + 2 * (1 + eps) ^ (X.r + 6) * eta) := by
  obtain ⟨h1, h2⟩ := spread_error he hη hR hA X j m hr hn
  unfold colScale
  dsimp only
  generalize sumTo X.r (fun i => (X.at' i j - m) * (X.at' i j - m)) / (X.r : Fl R) = v at h1 h2
  obtain ⟨h3, h4⟩ := hsq v h2
  have hq := meanSq_nonneg X.r (fun i => (X.at' i j).val) m.val
  generalize meanSq X.r (fun i => (X.at' i j).val) m.val = q at h1 hq
  have h5 : |(sqrt v).val ^ 2 - q| ≤ ((1 + eps) ^ (X.r + 6) - 1) * q + 2 * (1 + eps) ^ (X.r + 6) * eta := by
    have := h1.more he (j := 2) (r := (sqrt v).val ^ 2) (by rw [abs_of_nonneg h2]; exact h4)
    unfold Near at this
    rw [abs_of_nonneg hq] at this
    exact this
  have hab : (Fl.abs (sqrt v)).val = (sqrt v).val := by rw [Fl.val_abs, abs_of_nonneg h3]
  by_cases hlt : Fl.abs (sqrt v) < lit
  · right
    rw [if_pos hlt]
    refine ⟨rfl, ?_⟩
    have h6 : (sqrt v).val < lit.val := by
      have : (Fl.abs (sqrt v)).val < lit.val := hlt
      rwa [hab] at this
    have h7 : (sqrt v).val ^ 2 ≤ lit.val ^ 2 := pow_le_pow_left₀ h3 h6.le 2
    have h8 := (abs_le.1 h5).1
    linarith
  · left
    rw [if_neg hlt]
    refine ⟨?_, h5⟩
    have h6 : ¬ (Fl.abs (sqrt v)).val < lit.val := hlt
    rw [hab] at h6
    exact not_lt.1 h6

/-- **C292** (part that holds): after a fit the mean stored for a column is the exact mean up to n + 1 relative errors of the mean absolute value, and the
scale is the root of the population variance plus the squared error of the mean, up to n + 6 relative errors, or 1 if that variance is tiny.
Missing: errors relative to the mean and the variance themselves, see `mean_lost` and `constant_column_scaled`. -/
theorem fitted_moments_partial (he : 0 ≤ eps) (hη : 0 ≤ eta) (hR : R.Accurate eps eta) (hA : R.AddAccurate eps) (sqrt : Fl R → Fl R)
    (hsq : SqrtAccurate eps sqrt) (lit : Fl R) (hl : 0 < lit.val) (s : StdScaler (Fl R)) (hm : s.withMean = true) (hs : s.withStd = true) (X : Mat (Fl R))
    (hr : 0 < X.r) (hc : 0 < X.c) (hn : R.rnd (X.r : K) = X.r) :
    (s.fit sqrt Fl.abs lit X).2 = .ok () ∧ ∀ j < X.c,
      let x := fun i => (X.at' i j).val
      let m := ((s.fit sqrt Fl.abs lit X).1.mean.getD j 0).val
      let d := ((s.fit sqrt Fl.abs lit X).1.scale.getD j 0).val
      let q := meanSq X.r x (exactMean X.r x) + (exactMean X.r x - m) ^ 2
      |m - exactMean X.r x| ≤ ((1 + eps) ^ (X.r + 1) - 1) * exactMean X.r (fun i => |x i|) + eta ∧
      ((lit.val ≤ d ∧ |d ^ 2 - q| ≤ ((1 + eps) ^ (X.r + 6) - 1) * q + 2 * (1 + eps) ^ (X.r + 6) * eta) ∨
       (d = 1 ∧ (2 - (1 + eps) ^ (X.r + 6)) * q ≤ lit.val ^ 2 + 2 * (1 + eps) ^ (X.r + 6) * eta)) := by
  have hne : ¬ (X.r = 0 ∨ X.c = 0) := by omega
  unfold StdScaler.fit
  rw [if_neg hne]
  refine ⟨rfl, fun j hj => ?_⟩
  have h1 : (fitMean s.withMean X).getD j 0 = colMean X j := by simp [fitMean, hm, hj]
  have h2 : (fitScale sqrt Fl.abs lit s.withStd X (fitMean s.withMean X)).getD j 0 = colScale sqrt Fl.abs lit X j (colMean X j) := by
    rw [← h1]
    simp [fitScale, hs, hj]
  dsimp only
  rw [h1, h2, ← meanSq_split X.r hr]
  exact ⟨colMean_error he hR hA X j hr hn, colScale_error he hη hR hA sqrt hsq lit hl X j (colMean X j) hr hn⟩

/-! ## The standardised data -/

/-- the mean square of a rounded quotient column -/
theorem square_close {c b y z : K} (hc : 0 ≤ c) (hb : 0 ≤ b) (h : |z - y| ≤ c * |y| + b) :
    |z ^ 2 - y ^ 2| ≤ ((1 + c) ^ 2 - 1 + b * (1 + c)) * y ^ 2 + (b * (1 + c) + b ^ 2) := by
  have h1 : |z + y| ≤ 2 * |y| + (c * |y| + b) := by
    have : z + y = (z - y) + 2 * y := by ring
    rw [this]
    refine (abs_add_le _ _).trans ?_
    rw [abs_mul, abs_two]
    linarith
  have h2 : z ^ 2 - y ^ 2 = (z - y) * (z + y) := by ring
  rw [h2, abs_mul]
  have hy := abs_nonneg y
  have h3 : |z - y| * |z + y| ≤ (c * |y| + b) * (2 * |y| + (c * |y| + b)) :=
    mul_le_mul h h1 (abs_nonneg _) (by positivity)
  have h4 : 2 * |y| ≤ y ^ 2 + 1 := by nlinarith [sq_nonneg (|y| - 1), sq_abs y]
  have h5 : b * (1 + c) * (2 * |y|) ≤ b * (1 + c) * (y ^ 2 + 1) := mul_le_mul_of_nonneg_left h4 (by positivity)
  have h6 : |y| * |y| = y ^ 2 := by rw [← pow_two, sq_abs]
  nlinarith

theorem pow_sub_one_le (he : 0 ≤ eps) (k : Nat) (hk : k * eps ≤ 1 / 2) : (1 + eps) ^ k - 1 ≤ 2 * k * eps := by
  induction k with
  | zero => simp
  | succ k ih =>
    push_cast at hk ⊢
    have h1 := ih (by nlinarith)
    have h2 : (1 + eps) ^ k * (1 + eps) ≤ (1 + 2 * k * eps) * (1 + eps) := mul_le_mul_of_nonneg_right (by linarith) (by linarith)
    rw [pow_succ]
    nlinarith

theorem exactMean_le {n : Nat} {f g : Nat → K} (h : ∀ i < n, f i ≤ g i) : exactMean n f ≤ exactMean n g := by
  unfold exactMean
  exact div_le_div_of_nonneg_right (Finset.sum_le_sum fun i hi => h i (Finset.mem_range.1 hi)) (Nat.cast_nonneg n)

theorem exactMean_abs (n : Nat) (f : Nat → K) : |exactMean n f| ≤ exactMean n (fun i => |f i|) := by
  unfold exactMean
  rw [abs_div, Nat.abs_cast]
  exact div_le_div_of_nonneg_right (Finset.abs_sum_le_sum_abs _ _) (Nat.cast_nonneg n)

theorem exactMean_lin {n : Nat} (hn : 0 < n) (f : Nat → K) (a b : K) : exactMean n (fun i => a * f i + b) = a * exactMean n f + b := by
  have h0 : (n : K) ≠ 0 := Nat.cast_ne_zero.2 hn.ne'
  unfold exactMean
  rw [Finset.sum_add_distrib, ← Finset.mul_sum, Finset.sum_const, Finset.card_range, nsmul_eq_mul]
  field_simp

theorem exactMean_sub (n : Nat) (f g : Nat → K) : exactMean n (fun i => f i - g i) = exactMean n f - exactMean n g := by
  unfold exactMean
  rw [Finset.sum_sub_distrib, sub_div]

/-- moments of a column of rounded quotients `(x - m) / d` -/
theorem quotients_moments (he : 0 ≤ eps) (hη : 0 ≤ eta) (hR : R.Accurate eps eta) (hA : R.AddAccurate eps) (n : Nat) (hn : 0 < n) (x : Nat → Fl R) (m d : Fl R)
    (hd : 0 < d.val) :
    let z := fun i => ((x i - m) / d).val
    let Y := meanSq n (fun i => (x i).val) m.val / d.val ^ 2
    let c := (1 + eps) ^ 2
    |meanSq n z 0 - Y| ≤ (c ^ 2 - 1 + c * eta * c) * Y + (c * eta * c + (c * eta) ^ 2) ∧
    |exactMean n z| ≤ |m.val - exactMean n (fun i => (x i).val)| / d.val + (c - 1) * ((1 + Y) / 2) + c * eta := by
  intro z Y c
  have hc : 1 ≤ c := grow he 2
  set y : Nat → K := fun i => ((x i).val - m.val) / d.val with hy
  have hz : ∀ i, |z i - y i| ≤ (c - 1) * |y i| + c * eta := by
    intro i
    have h1 : Near eps eta 1 0 (x i - m).val ((x i).val - m.val) :=
      (Near.refl eps eta _).rel he (by rw [Fl.val_sub]; exact hA.sub _ _ (Fl.rep _) m.rep)
    have h2 := (h1.mul_const (d.val⁻¹) (inv_nonneg.2 hd.le)).rnd he hη hR
    rw [zero_mul, zero_add, ← div_eq_mul_inv, ← div_eq_mul_inv] at h2
    unfold Near at h2
    rw [one_mul] at h2
    exact h2
  have hY : Y = exactMean n (fun i => y i ^ 2) := by
    have hd0 := hd.ne'
    have e : ∀ i, y i ^ 2 = ((x i).val - m.val) ^ 2 / d.val ^ 2 := fun i => by rw [hy]; exact div_pow _ _ _
    unfold exactMean
    simp only [e, ← Finset.sum_div]
    show (∑ i ∈ Finset.range n, ((x i).val - m.val) ^ 2) / n / d.val ^ 2 = _
    rw [div_right_comm]
  have hZ : meanSq n z 0 = exactMean n (fun i => z i ^ 2) := by
    unfold meanSq exactMean
    simp only [sub_zero]
  constructor
  · rw [hZ, hY, ← exactMean_sub, ← exactMean_lin hn]
    refine (exactMean_abs _ _).trans (exactMean_le fun i _ => ?_)
    have := square_close (c := c - 1) (b := c * eta) (by linarith) (by positivity) (hz i)
    rw [add_sub_cancel] at this
    exact this
  · have h1 : exactMean n z = exactMean n (fun i => z i - y i) + exactMean n y := by rw [exactMean_sub]; ring
    have h2 : exactMean n y = (exactMean n (fun i => (x i).val) - m.val) / d.val := by
      have e : ∀ i, y i = d.val⁻¹ * (x i).val + (-(m.val / d.val)) := fun i => by rw [hy]; field_simp; ring
      rw [funext e, exactMean_lin hn]
      field_simp
      ring
    have h3 : |exactMean n (fun i => z i - y i)| ≤ (c - 1) * exactMean n (fun i => |y i|) + c * eta := by
      rw [← exactMean_lin hn]
      exact (exactMean_abs _ _).trans (exactMean_le fun i _ => hz i)
    have h4 : exactMean n (fun i => |y i|) ≤ (1 + Y) / 2 := by
      have e : (1 + Y) / 2 = exactMean n (fun i => 1 / 2 * y i ^ 2 + 1 / 2) := by rw [exactMean_lin hn, hY]; ring
      rw [e]
      refine exactMean_le fun i _ => ?_
      nlinarith [sq_nonneg (|y i| - 1), sq_abs (y i)]
    have h5 : (c - 1) * exactMean n (fun i => |y i|) ≤ (c - 1) * ((1 + Y) / 2) := mul_le_mul_of_nonneg_left h4 (by linarith)
    rw [h1]
    refine (abs_add_le _ _).trans ?_
    rw [h2, abs_div, abs_of_pos hd, abs_sub_comm m.val]
    linarith

/-- the second moment about the mean over the squared scale is near one -/
theorem ratio_numbers {r a q d : K} (hη : 0 ≤ eta) (heta : eta ≤ 1 / 10 ^ 40) (hepsl : 1 / 10 ^ 17 ≤ eps) (hr : 0 ≤ r) (hsmall : (r + 6) * eps ≤ 1 / 1000)
    (hd : 9 / 10 ^ 9 ≤ d) (hq0 : 1 / 10 ^ 15 ≤ q) (hp6 : a - 1 ≤ 2 * (r + 6) * eps) (hclose : |d ^ 2 - q| ≤ (a - 1) * q + 2 * a * eta) :
    |q / d ^ 2 - 1| ≤ (a - 1) * (q / d ^ 2) + 1 / 10 ^ 22 ∧ q / d ^ 2 ≤ 1.02 := by
  have hd0 : 0 < d := lt_of_lt_of_le (by norm_num) hd
  have hd2 : 8 / 10 ^ 17 ≤ d ^ 2 := by
    have : (9 / 10 ^ 9 : K) ^ 2 ≤ d ^ 2 := pow_le_pow_left₀ (by norm_num) hd 2
    refine le_trans ?_ this
    norm_num
  have hd2p : 0 < d ^ 2 := by positivity
  set Y := q / d ^ 2 with hYdef
  have hYq : q = Y * d ^ 2 := by rw [hYdef]; field_simp
  have hY0 : 0 ≤ Y := div_nonneg (le_trans (by positivity) hq0) hd2p.le
  have ha : a ≤ 1.01 := by norm_num; linarith
  have hae : 2 * a * eta ≤ (1 / 10 ^ 22) * d ^ 2 := by
    have h1 : a * eta ≤ 1.01 * (1 / 10 ^ 40) := mul_le_mul ha heta hη (by norm_num)
    norm_num at h1 hd2 ⊢
    linarith
  have hY1 : |Y - 1| ≤ (a - 1) * Y + 1 / 10 ^ 22 := by
    have e : d ^ 2 - q = (1 - Y) * d ^ 2 := by rw [hYq]; ring
    rw [e, abs_mul, abs_of_pos hd2p] at hclose
    have h2 : |1 - Y| * d ^ 2 ≤ ((a - 1) * Y + 1 / 10 ^ 22) * d ^ 2 := by
      refine hclose.trans ?_
      rw [add_mul, mul_assoc (a - 1), ← hYq]
      linarith
    rw [abs_sub_comm]
    exact le_of_mul_le_mul_right h2 hd2p
  refine ⟨hY1, ?_⟩
  have h3 := (abs_le.1 hY1).2
  have h4 : (a - 1) * Y ≤ 0.01 * Y := mul_le_mul_of_nonneg_right (by norm_num at ha ⊢; linarith) hY0
  norm_num at h3 h4 ⊢
  linarith

theorem square_numbers {r a c Y Z : K} (he : 0 ≤ eps) (hη : 0 ≤ eta) (heta : eta ≤ 1 / 10 ^ 40) (heps : eps ≤ 1 / 10 ^ 15) (hepsl : 1 / 10 ^ 17 ≤ eps) (hr : 0 ≤ r)
    (hY0 : 0 ≤ Y) (hp6 : a - 1 ≤ 2 * (r + 6) * eps) (hY1 : |Y - 1| ≤ (a - 1) * Y + 1 / 10 ^ 22) (hY2 : Y ≤ 1.02) (hc1 : c ≤ 1 + 2.01 * eps) (hc0 : 1 ≤ c)
    (hZ : |Z - Y| ≤ (c ^ 2 - 1 + c * eta * c) * Y + (c * eta * c + (c * eta) ^ 2)) : |Z - 1| ≤ 3 * (r + 6) * eps := by
  have hc2 : c ≤ 1.5 := by norm_num at hc1 heps ⊢; linarith
  have hce : c * eta ≤ 2 / 10 ^ 40 := by
    calc c * eta ≤ 1.5 * (1 / 10 ^ 40) := mul_le_mul hc2 heta hη (by norm_num)
      _ ≤ _ := by norm_num
  have hce0 : 0 ≤ c * eta := mul_nonneg (by linarith) hη
  have h1 : c ^ 2 - 1 ≤ 4.03 * eps := by
    have : c ^ 2 ≤ (1 + 2.01 * eps) ^ 2 := pow_le_pow_left₀ (by linarith) hc1 2
    have h : eps * eps ≤ 1 / 10 ^ 15 * eps := mul_le_mul_of_nonneg_right heps he
    norm_num at this h ⊢
    nlinarith
  have h2 : c * eta * c ≤ 3 / 10 ^ 40 := by
    calc c * eta * c ≤ 2 / 10 ^ 40 * 1.5 := mul_le_mul hce hc2 (by linarith) (by norm_num)
      _ = _ := by norm_num
  have h3 : (c * eta) ^ 2 ≤ 1 / 10 ^ 40 := by
    have : (c * eta) ^ 2 ≤ (2 / 10 ^ 40) ^ 2 := pow_le_pow_left₀ hce0 hce 2
    refine this.trans ?_
    norm_num
  have h4 : (c ^ 2 - 1 + c * eta * c) * Y ≤ (4.03 * eps + 3 / 10 ^ 40) * 1.02 := mul_le_mul (by linarith) hY2 hY0 (by positivity)
  have h5 : (a - 1) * Y ≤ (2 * (r + 6) * eps) * 1.02 := mul_le_mul hp6 hY2 hY0 (by positivity)
  have h6 : Z - 1 = (Z - Y) + (Y - 1) := by ring
  rw [h6]
  refine (abs_add_le _ _).trans ((add_le_add hZ hY1).trans ?_)
  have h7 : 0 ≤ r * eps := by positivity
  have e1 : 3 * (r + 6) * eps = 3 * (r * eps) + 18 * eps := by ring
  have e2 : 2 * (r + 6) * eps * 1.02 = 2.04 * (r * eps) + 24.48 / 2 * eps := by ring
  rw [e1]
  rw [e2] at h5
  norm_num at h2 h3 h4 h5 hepsl ⊢
  linarith

theorem mean_numbers {r a c Y d A δ E : K} (he : 0 ≤ eps) (hη : 0 ≤ eta) (heta : eta ≤ 1 / 10 ^ 40) (heps : eps ≤ 1 / 10 ^ 15) (hepsl : 1 / 10 ^ 17 ≤ eps)
    (hr : 0 ≤ r) (hd : 9 / 10 ^ 9 ≤ d) (hA0 : 0 ≤ A) (hp1 : a - 1 ≤ 2 * (r + 1) * eps) (hmean : δ ≤ (a - 1) * A + eta) (hY2 : Y ≤ 1.02)
    (hc1 : c ≤ 1 + 2.01 * eps) (hc0 : 1 ≤ c) (hE : E ≤ δ / d + (c - 1) * ((1 + Y) / 2) + c * eta) : E ≤ 2 * (r + 1) * eps * (A / d) + 3 * eps := by
  have hdpos : 0 < d := lt_of_lt_of_le (by norm_num) hd
  have hc2 : c ≤ 1.5 := by norm_num at hc1 heps ⊢; linarith
  have hce : c * eta ≤ 2 / 10 ^ 40 := by
    calc c * eta ≤ 1.5 * (1 / 10 ^ 40) := mul_le_mul hc2 heta hη (by norm_num)
      _ ≤ _ := by norm_num
  have h1 : δ / d ≤ 2 * (r + 1) * eps * (A / d) + 2 / 10 ^ 30 := by
    rw [div_le_iff₀ hdpos, add_mul, mul_assoc _ (A / d), div_mul_cancel₀ _ hdpos.ne']
    refine hmean.trans (add_le_add (mul_le_mul_of_nonneg_right hp1 hA0) ?_)
    have : (2 / 10 ^ 30 : K) * (9 / 10 ^ 9) ≤ 2 / 10 ^ 30 * d := mul_le_mul_of_nonneg_left hd (by positivity)
    refine heta.trans (le_trans ?_ this)
    norm_num
  have h2 : (c - 1) * ((1 + Y) / 2) ≤ (2.01 * eps) * 1.01 := by
    have h3 : (c - 1) * ((1 + Y) / 2) ≤ (c - 1) * 1.01 := mul_le_mul_of_nonneg_left (by norm_num at hY2 ⊢; linarith) (by linarith)
    exact h3.trans (mul_le_mul_of_nonneg_right (by linarith) (by norm_num))
  norm_num at h2 h1 hce hepsl ⊢
  linarith

/-- numbers for binary64 -/
theorem standardised_generic (he : 0 ≤ eps) (hη : 0 ≤ eta) (hR : R.Accurate eps eta) (hA : R.AddAccurate eps) (sqrt : Fl R → Fl R)
    (hsq : SqrtAccurate eps sqrt) (lit : Fl R) (hl : 9 / 10 ^ 9 ≤ lit.val) (hl2 : lit.val ≤ 11 / 10 ^ 9) (heps : eps ≤ 1 / 10 ^ 15) (hepsl : 1 / 10 ^ 17 ≤ eps) (heta : eta ≤ 1 / 10 ^ 40)
    (s : StdScaler (Fl R)) (hm : s.withMean = true) (hs : s.withStd = true) (X : Mat (Fl R))
    (hr : 0 < X.r) (hc : 0 < X.c) (hn : R.rnd (X.r : K) = X.r) (hsmall : (X.r + 6 : K) * eps ≤ 1 / 1000) (j : Nat) (hj : j < X.c)
    (hvar : 1 / 10 ^ 15 ≤ meanSq X.r (fun i => (X.at' i j).val) (exactMean X.r (fun i => (X.at' i j).val))) :
    ∃ M, (s.fitTransform sqrt Fl.abs lit X).2 = .ok M ∧ M.r = X.r ∧ M.c = X.c ∧
      |meanSq X.r (fun i => (M.at' i j).val) 0 - 1| ≤ 3 * (X.r + 6) * eps ∧
      ∃ d : K, d = ((s.fit sqrt Fl.abs lit X).1.scale.getD j 0).val ∧ 0 < d ∧
      |exactMean X.r (fun i => (M.at' i j).val)| ≤ 2 * (X.r + 1) * eps * (exactMean X.r (fun i => |(X.at' i j).val|) / d) + 3 * eps := by
  obtain ⟨M, hM, h1, h2, h3⟩ := std_values sqrt lit s hm hs X hr hc
  refine ⟨M, hM, h1, h2, ?_⟩
  have hne : ¬ (X.r = 0 ∨ X.c = 0) := by omega
  have hd : (s.fit sqrt Fl.abs lit X).1.scale.getD j 0 = colScale sqrt Fl.abs lit X j (colMean X j) := by
    have h1 : (fitMean s.withMean X).getD j 0 = colMean X j := by simp [fitMean, hm, hj]
    unfold StdScaler.fit
    rw [if_neg hne, ← h1]
    simp [fitScale, hs, hj]
  rw [hd]
  have hz : ∀ i ∈ Finset.range X.r, (M.at' i j).val = ((X.at' i j - colMean X j) / colScale sqrt Fl.abs lit X j (colMean X j)).val :=
    fun i hi => congrArg Fl.val (h3 i (Finset.mem_range.1 hi) j hj)
  have e1 : meanSq X.r (fun i => (M.at' i j).val) 0 =
      meanSq X.r (fun i => ((X.at' i j - colMean X j) / colScale sqrt Fl.abs lit X j (colMean X j)).val) 0 := by
    unfold meanSq
    exact congrArg (· / (X.r : K)) (Finset.sum_congr rfl fun i hi => by dsimp only; rw [hz i hi])
  have e2 : exactMean X.r (fun i => (M.at' i j).val) =
      exactMean X.r (fun i => ((X.at' i j - colMean X j) / colScale sqrt Fl.abs lit X j (colMean X j)).val) := by
    unfold exactMean
    rw [Finset.sum_congr rfl hz]
  rw [e1, e2]
  have hmean := colMean_error he hR hA X j hr hn
  have hscale := colScale_error he hη hR hA sqrt hsq lit (by linarith) X j (colMean X j) hr hn
  have hsplit := meanSq_split X.r hr (fun i => (X.at' i j).val) (colMean X j).val
  generalize colScale sqrt Fl.abs lit X j (colMean X j) = d at hscale ⊢
  have hq0 : 1 / 10 ^ 15 ≤ meanSq X.r (fun i => (X.at' i j).val) (colMean X j).val := by
    rw [hsplit]
    exact hvar.trans (le_add_of_nonneg_right (sq_nonneg _))
  have hrnn : (0 : K) ≤ X.r := Nat.cast_nonneg _
  have hp6 := pow_sub_one_le he (X.r + 6) (by push_cast; linarith)
  have hp1 := pow_sub_one_le he (X.r + 1) (by push_cast; linarith)
  have hg6 := grow he (X.r + 6)
  push_cast at hp6 hp1
  obtain ⟨hlo, hclose⟩ : lit.val ≤ d.val ∧ |d.val ^ 2 - meanSq X.r (fun i => (X.at' i j).val) (colMean X j).val| ≤
      ((1 + eps) ^ (X.r + 6) - 1) * meanSq X.r (fun i => (X.at' i j).val) (colMean X j).val + 2 * (1 + eps) ^ (X.r + 6) * eta := by
    rcases hscale with h | ⟨-, h⟩
    · exact h
    · exfalso
      generalize meanSq X.r (fun i => (X.at' i j).val) (colMean X j).val = q at h hq0
      generalize (1 + eps) ^ (X.r + 6) = a at h hp6 hg6
      have ha : a ≤ 1.1 := by norm_num; linarith
      have hb : lit.val ^ 2 ≤ (11 / 10 ^ 9) ^ 2 := pow_le_pow_left₀ (by linarith) hl2 2
      have hc' : a * eta ≤ 1.1 * (1 / 10 ^ 40) := mul_le_mul ha heta hη (by norm_num)
      norm_num at *
      nlinarith
  have hlo' : 9 / 10 ^ 9 ≤ d.val := hl.trans hlo
  have hdpos : 0 < d.val := lt_of_lt_of_le (by norm_num) hlo'
  obtain ⟨hZ, hE⟩ := quotients_moments he hη hR hA X.r hr (fun i => X.at' i j) (colMean X j) d hdpos
  generalize meanSq X.r (fun i => ((X.at' i j - colMean X j) / d).val) 0 = Z at hZ ⊢
  generalize exactMean X.r (fun i => ((X.at' i j - colMean X j) / d).val) = E at hE ⊢
  generalize meanSq X.r (fun i => (X.at' i j).val) (colMean X j).val = q at hZ hE hclose hq0
  generalize (1 + eps) ^ (X.r + 6) = a at hclose hp6 hg6
  have hp2 : (1 + eps) ^ 2 ≤ 1 + 2.01 * eps := by
    norm_num at heps hepsl ⊢
    nlinarith
  have hratio := ratio_numbers hη heta hepsl hrnn hsmall hlo' hq0 hp6 hclose
  refine ⟨square_numbers he hη heta heps hepsl hrnn (div_nonneg (le_trans (by positivity) hq0) (by positivity)) hp6 hratio.1 hratio.2 hp2 (grow he 2) hZ,
    d.val, rfl, hdpos, ?_⟩
  exact mean_numbers he hη heta heps hepsl hrnn hlo' (le_trans (abs_nonneg _) (exactMean_abs X.r (fun i => (X.at' i j).val))) hp1 hmean hratio.2
    hp2 (grow he 2) hE

/-! ## Binary64 -/

section
open Binary64

theorem _root_.Scigo.Binary64.rnd_rel {q : ℚ} (h : pow2 (-1022) ≤ q) : |rnd q - q| ≤ 1 / 2 ^ 53 * q := by
  have hq : 0 < q := lt_of_lt_of_le (pow2_pos _) h
  obtain ⟨l, u⟩ := expo_spec q hq.ne'
  rw [abs_of_pos hq] at l u
  have hx : -1022 ≤ expo q := by
    have := pow2_lt_iff.1 (lt_of_le_of_lt h u)
    omega
  have hlast : last q = expo q - 52 := by unfold last; omega
  unfold rnd
  rw [if_neg hq.ne', hlast]
  have hp := pow2_pos (expo q - 52)
  have h1 := roundEven_near (q / pow2 (expo q - 52))
  have e : (roundEven (q / pow2 (expo q - 52)) : ℚ) * pow2 (expo q - 52) - q =
      ((roundEven (q / pow2 (expo q - 52)) : ℚ) - q / pow2 (expo q - 52)) * pow2 (expo q - 52) := by
    field_simp
  rw [e, abs_mul, abs_of_pos hp]
  have e2 : pow2 (expo q) = pow2 (expo q - 52) * 2 ^ 52 := by
    have := pow2_add (expo q - 52) 52
    rw [sub_add_cancel] at this
    rw [this]
    norm_num [pow2]
  have h2 : |(roundEven (q / pow2 (expo q - 52)) : ℚ) - q / pow2 (expo q - 52)| * pow2 (expo q - 52) ≤ 1 / 2 * pow2 (expo q - 52) :=
    mul_le_mul_of_nonneg_right h1 hp.le
  rw [e2] at l
  norm_num at l ⊢
  linarith

/-- the hypothesis on square roots can be met in binary64 -/
theorem exists_sqrt : ∃ sqrt : Fl rounding → Fl rounding, SqrtAccurate (1 / 2 ^ 53) sqrt := by
  have key : ∀ x : Fl rounding, ∃ s : Fl rounding, 0 ≤ x.val → 0 ≤ s.val ∧ |s.val ^ 2 - x.val| ≤ ((1 + 1 / 2 ^ 53) ^ 2 - 1) * x.val := by
    intro x
    rcases lt_trichotomy x.val 0 with h | h | h
    · exact ⟨0, fun h' => absurd h' (not_le.2 h)⟩
    · refine ⟨0, fun _ => ?_⟩
      rw [h]
      simp
    · obtain ⟨q, q0, q1, q2⟩ := exists_rat_pow_btwn (K := ℚ) (n := 2) (by decide) (x := x.val * (1 - 1 / 2 ^ 106)) (y := x.val) (by nlinarith) h
      simp only [Rat.cast_id] at q1 q2
      refine ⟨lit q, fun _ => ⟨rnd_nonneg q0.le, ?_⟩⟩
      have hx : pow2 (-1074) ≤ x.val := by
        obtain ⟨m, hm⟩ := multiple x.rep
        have hm0 : 0 < m := by
          by_contra hc
          have : (m : ℚ) ≤ 0 := by exact_mod_cast not_lt.1 hc
          have := mul_nonpos_of_nonpos_of_nonneg this (pow2_pos (-1074)).le
          linarith
        rw [hm]
        have : (1 : ℚ) ≤ m := by exact_mod_cast hm0
        exact le_mul_of_one_le_left (pow2_pos _).le this
      have hq : pow2 (-1022) ≤ q := by
        by_contra hc
        have h1 : q ^ 2 < pow2 (-1022) ^ 2 := pow_lt_pow_left₀ (not_le.1 hc) q0.le (by decide)
        have h2 : pow2 (-1022) ^ 2 = pow2 (-1074) * pow2 (-970) := by rw [pow_two, ← pow2_add, ← pow2_add]; norm_num
        have h3 : pow2 (-970) ≤ 1 / 2 := by
          have : pow2 (-970) ≤ pow2 (-1) := pow2_le (by norm_num)
          refine this.trans (le_of_eq ?_)
          rw [pow2_eq]
          norm_num
        have h4 : pow2 (-1074) * pow2 (-970) ≤ pow2 (-1074) * (1 / 2) := mul_le_mul_of_nonneg_left h3 (pow2_pos _).le
        have h5 : x.val * (1 / 2) ≤ x.val * (1 - 1 / 2 ^ 106) := mul_le_mul_of_nonneg_left (by norm_num) h.le
        linarith
      have hr := rnd_rel hq
      have hs : (lit q).val = rnd q := rfl
      rw [hs]
      obtain ⟨r1, r2⟩ := abs_le.1 hr
      have hlo : q * (1 - 1 / 2 ^ 53) ≤ rnd q := by linarith
      have hhi : rnd q ≤ q * (1 + 1 / 2 ^ 53) := by linarith
      have s1 : (q * (1 - 1 / 2 ^ 53)) ^ 2 ≤ rnd q ^ 2 := pow_le_pow_left₀ (mul_nonneg q0.le (by norm_num)) hlo 2
      have s2 : rnd q ^ 2 ≤ (q * (1 + 1 / 2 ^ 53)) ^ 2 := pow_le_pow_left₀ (rnd_nonneg q0.le) hhi 2
      rw [mul_pow] at s1 s2
      rw [abs_le]
      constructor
      · norm_num at s1 q1 ⊢
        linarith
      · norm_num at s2 q2 ⊢
        linarith
  choose f hf using key
  exact ⟨f, hf⟩

/-- **C293**: in float64, a column of n < 2^40 values with standard deviation above about 3e-8 is standardised to a column whose mean square is 1 up to
3(n + 6) units of 2^-53, however large the values are; its mean is 0 up to 2(n + 1) such units times the ratio of the mean absolute value to the
scale, and three more -/
theorem standardised_moments (sqrt : Fl rounding → Fl rounding) (hsq : SqrtAccurate (1 / 2 ^ 53) sqrt) (s : StdScaler (Fl rounding)) (hm : s.withMean = true)
    (hs : s.withStd = true) (X : Mat (Fl rounding)) (hr : 0 < X.r) (hr2 : X.r < 2 ^ 40) (hc : 0 < X.c) (j : Nat) (hj : j < X.c)
    (hvar : 1 / 10 ^ 15 ≤ meanSq X.r (fun i => (X.at' i j).val) (exactMean X.r (fun i => (X.at' i j).val))) :
    ∃ M, (s.fitTransform sqrt Fl.abs (lit (1 / 10 ^ 8)) X).2 = .ok M ∧ M.r = X.r ∧ M.c = X.c ∧
      |meanSq X.r (fun i => (M.at' i j).val) 0 - 1| ≤ 3 * (X.r + 6) * (1 / 2 ^ 53) ∧
      ∃ d : ℚ, d = ((s.fit sqrt Fl.abs (lit (1 / 10 ^ 8)) X).1.scale.getD j 0).val ∧ 0 < d ∧
      |exactMean X.r (fun i => (M.at' i j).val)| ≤
        2 * (X.r + 1) * (1 / 2 ^ 53) * (exactMean X.r (fun i => |(X.at' i j).val|) / d) + 3 * (1 / 2 ^ 53) := by
  have heta : (1 : ℚ) / 2 ^ 1075 ≤ 1 / 10 ^ 40 := by
    refine one_div_le_one_div_of_le (by positivity) ?_
    have : (2 : ℚ) ^ 134 ≤ 2 ^ 1075 := pow_le_pow_right₀ (by norm_num) (by norm_num)
    refine le_trans ?_ this
    norm_num
  have hrK : (X.r : ℚ) ≤ 2 ^ 40 := by exact_mod_cast hr2.le
  refine standardised_generic (by positivity) (by positivity) accurate add_accurate sqrt hsq (lit (1 / 10 ^ 8)) ?_ ?_ (by norm_num) (by norm_num) heta s hm hs X hr hc
    (nat_exact _ (by omega)) ?_ j hj hvar
  · decide +kernel
  · decide +kernel
  · have h40 : (2 : ℚ) ^ 40 = 1099511627776 := by norm_num
    have h53 : (2 : ℚ) ^ 53 = 9007199254740992 := by norm_num
    rw [h40] at hrK
    rw [h53]
    linarith

/-- 2^53, 1 and -2^53, whose mean is 1/3 (data for preprocessing/scaler.go:114-166) -/
def lostMean : Mat (Fl rounding) := ⟨3, 1, fun i _ => lit (if i = 0 then 2 ^ 53 else if i = 1 then 1 else -2 ^ 53)⟩

/-- **C292** (negation): the mean of 2^53, 1 and -2^53 is 1/3, the mean fitted is 0 -/
theorem mean_lost (sqrt : Fl rounding → Fl rounding) :
    (((StdScaler.new true true).fit sqrt Fl.abs (lit (1 / 10 ^ 8)) lostMean).1.mean.getD 0 0).val = 0 ∧
      exactMean 3 (fun i => (lostMean.at' i 0).val) = 1 / 3 := by
  constructor
  · show (colMean lostMean 0).val = 0
    decide +kernel
  · decide +kernel

/-- four values (data for preprocessing/scaler.go:114-166) -/
def fourRows : Mat (Fl rounding) := ⟨4, 1, fun i _ => lit (if i = 0 then 1 / 10 else if i = 1 then 7 / 10 else if i = 2 then 13 / 10 else -4)⟩

/-- the hypotheses of both theorems are met -/
example : ∃ (sqrt : Fl rounding → Fl rounding) (M : Mat (Fl rounding)), ((StdScaler.new true true).fitTransform sqrt Fl.abs (lit (1 / 10 ^ 8)) fourRows).2 = .ok M ∧
    |meanSq 4 (fun i => (M.at' i 0).val) 0 - 1| ≤ 3 * (4 + 6) * (1 / 2 ^ 53) := by
  obtain ⟨sqrt, hsq⟩ := exists_sqrt
  obtain ⟨M, h1, -, -, h2, -⟩ := standardised_moments sqrt hsq (StdScaler.new true true) rfl rfl fourRows (by decide) (by decide) (by decide) 0 (by decide)
    (by decide +kernel)
  exact ⟨sqrt, M, h1, h2⟩

example : ∃ sqrt : Fl rounding → Fl rounding, ((StdScaler.new true true).fit sqrt Fl.abs (lit (1 / 10 ^ 8)) fourRows).2 = .ok () := by
  obtain ⟨sqrt, hsq⟩ := exists_sqrt
  exact ⟨sqrt, (fitted_moments_partial (by positivity) (by positivity) accurate add_accurate sqrt hsq (lit (1 / 10 ^ 8)) (by decide +kernel) (StdScaler.new true true)
    rfl rfl fourRows (by decide) (by decide) (nat_exact _ (by decide))).1⟩

end

end Scigo.Round
