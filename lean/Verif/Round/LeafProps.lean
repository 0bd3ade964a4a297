import Verif.Round.SubProps
import Verif.Trainer.FitProps

/-!
# C311: the values of leaves with every operation rounded

In exact arithmetic the value of a leaf is the minimum of the regularised objective of its rows (C122). Here: how far the
computed value is from it when every operation is rounded, and a witness that the sign of the gradients' sum can be lost.
-/

set_option linter.unusedSectionVars false

namespace Scigo.Round

open Scigo.Trainer

variable {K : Type} [Field K] [LinearOrder K] [IsStrictOrderedRing K] {R : Rounding K} {eps eta : K}

/-- the sum of the gradients moved towards 0 by the L1 penalty (cf. sklearn/lightgbm/trainer_params.go:140-158) -/
def soft (l1 G : K) : K := if 0 < l1 then if l1 < G then G - l1 else if G < -l1 then G + l1 else 0 else G

theorem soft_abs (l1 G : K) : |soft l1 G| ≤ |G| := by
  unfold soft
  split_ifs with h1 h2 h3
  · rw [abs_of_nonneg (by linarith), abs_of_nonneg (by linarith)]; linarith
  · rw [abs_of_nonpos (by linarith), abs_of_nonpos (by linarith)]; linarith
  · rw [abs_zero]; exact abs_nonneg _
  · exact le_rfl

theorem soft_lipschitz (l1 a b : K) : |soft l1 a - soft l1 b| ≤ |a - b| := by
  have h1 := le_abs_self (a - b)
  have h2 := neg_abs_le (a - b)
  unfold soft
  rw [abs_le]
  split_ifs <;> constructor <;> linarith

theorem leafValue_eq (e0 l1 l2 G H : K) : leafValue e0 l1 l2 G H = -soft l1 G / (H + l2 + e0) := by
  unfold leafValue soft
  dsimp only
  split_ifs <;> simp

/-- the computed value is a rounded quotient of a rounded numerator -/
theorem leafValue_rounded (he : 0 ≤ eps) (hA : R.AddAccurate eps) (e0 l1 l2 G H : Fl R) :
    ∃ num : Fl R, leafValue e0 l1 l2 G H = -num / (H + l2 + e0) ∧ |num.val - soft l1.val G.val| ≤ eps * |soft l1.val G.val| := by
  have z : ∀ x : K, 0 ≤ eps * |x| := fun x => mul_nonneg he (abs_nonneg x)
  unfold leafValue soft
  dsimp only
  by_cases h1 : (0 : Fl R) < l1
  · have h1' : 0 < l1.val := h1
    rw [if_pos h1, if_pos h1']
    by_cases h2 : l1 < G
    · have h2' : l1.val < G.val := h2
      rw [if_pos h2, if_pos h2']
      exact ⟨_, rfl, by rw [Fl.val_sub]; exact hA.sub _ _ G.rep l1.rep⟩
    · have h2' : ¬ l1.val < G.val := h2
      rw [if_neg h2, if_neg h2']
      by_cases h3 : G < -l1
      · have h3' : G.val < -l1.val := h3
        rw [if_pos h3, if_pos h3']
        exact ⟨_, rfl, by rw [Fl.val_add]; exact hA _ _ G.rep l1.rep⟩
      · have h3' : ¬ G.val < -l1.val := h3
        rw [if_neg h3, if_neg h3']
        refine ⟨0, Fl.ext ?_, by simp⟩
        rw [Fl.val_div, Fl.val_neg, Fl.val_zero, neg_zero, zero_div, R.zero]
  · have h1' : ¬ 0 < l1.val := h1
    rw [if_neg h1, if_neg h1']
    exact ⟨G, rfl, by rw [sub_self, abs_zero]; exact z _⟩

/-- **C311**: the computed value of a leaf of n rows is the exact minimum of its objective up to 6(n + 2) units of rounding of the sum of the absolute
gradients divided by the sum of the hessians and the regularisation, and one underflow. -/
theorem leaf_value_error (he : 0 ≤ eps) (hη : 0 ≤ eta) (hR : R.Accurate eps eta) (hA : R.AddAccurate eps) (e0 l1 l2 : Fl R) (h2 : 0 ≤ l2.val)
    (h0 : 0 < e0.val) (g h : Nat → Fl R) (rows : List Nat) (hh : ∀ i ∈ rows, 0 ≤ (h i).val) (hn : ((rows.length : K) + 2) * eps ≤ 1 / 1000) :
    |(calculateLeafValue e0 l1 l2 g h rows).val -
        leafValue e0.val l1.val l2.val (rows.map fun i => (g i).val).sum (rows.map fun i => (h i).val).sum| ≤
      6 * ((rows.length : K) + 2) * eps * ((rows.map fun i => |(g i).val|).sum / ((rows.map fun i => (h i).val).sum + l2.val + e0.val)) + eta := by
  have hGe := sum_rows_error he hA rows g
  have hHn := Near.sum (R := R) (eta := 0) he le_rfl hA rows h (fun i => (h i).val) 0 0 le_rfl hh (fun i _ => Near.refl eps 0 _)
  obtain ⟨hHn, hH0⟩ := hHn
  rw [mul_zero, zero_add] at hHn
  obtain ⟨num, hv, hnum⟩ := leafValue_rounded (R := R) he hA e0 l1 l2 (sumOver rows g) (sumOver rows h)
  rw [calculateLeafValue, hv, leafValue_eq]
  have hGS : |(rows.map fun i => (g i).val).sum| ≤ (rows.map fun i => |(g i).val|).sum := by
    clear hn hh hGe hHn hH0 hnum hv
    induction rows with
    | nil => simp
    | cons b l ih => simpa using (abs_add_le _ _).trans (by linarith)
  set n := rows.length
  set S := (rows.map fun i => |(g i).val|).sum
  set G := (rows.map fun i => (g i).val).sum
  set H := (rows.map fun i => (h i).val).sum
  have hS : 0 ≤ S := (abs_nonneg _).trans hGS
  have hD : 0 < H + l2.val + e0.val := by linarith
  -- the denominator
  have hden : Near eps 0 (n + 2) 0 (sumOver rows h + l2 + e0).val (H + l2.val + e0.val) := by
    have s1 : Near eps 0 (n + 1) 0 (sumOver rows h + l2).val (H + l2.val) := by
      rw [Fl.val_add]
      refine Near.rel he (x := (sumOver rows h).val + l2.val) ?_ (hA _ _ (Fl.rep _) (Fl.rep _))
      unfold Near at hHn ⊢
      rw [abs_of_nonneg hH0] at hHn
      rw [abs_of_nonneg (show 0 ≤ H + l2.val by linarith)]
      have := mul_nonneg (show 0 ≤ (1 + eps) ^ n - 1 by have := grow he n; linarith) h2
      have e : (sumOver rows h).val + l2.val - (H + l2.val) = (sumOver rows h).val - H := by ring
      rw [e]
      linarith
    rw [Fl.val_add]
    refine Near.rel he (k := n + 1) (x := (sumOver rows h + l2).val + e0.val) ?_ (hA _ _ (Fl.rep _) (Fl.rep _))
    unfold Near at s1 ⊢
    rw [abs_of_nonneg (show 0 ≤ H + l2.val by linarith)] at s1
    rw [abs_of_nonneg (show 0 ≤ H + l2.val + e0.val by linarith)]
    have := mul_nonneg (show 0 ≤ (1 + eps) ^ (n + 1) - 1 by have := grow he (n + 1); linarith) h0.le
    have e : (sumOver rows h + l2).val + e0.val - (H + l2.val + e0.val) = (sumOver rows h + l2).val - (H + l2.val) := by ring
    rw [e]
    linarith
  unfold Near at hden
  rw [abs_of_pos hD, zero_mul, zero_mul, add_zero] at hden
  have hk : ((n + 2 : Nat) : K) * eps ≤ 1 / 2 := by push_cast; linarith
  have hp := pow_sub_one_le he (n + 2) hk
  obtain ⟨x, hx⟩ : ∃ x, x = 2 * ((n + 2 : Nat) : K) * eps := ⟨_, rfl⟩
  rw [← hx] at hp
  have hx500 : x ≤ 1 / 500 := by rw [hx]; push_cast; linarith
  have hn0 : (0 : K) ≤ n := Nat.cast_nonneg n
  have hex : 4 * eps ≤ x := by
    rw [hx]
    push_cast
    have := mul_nonneg hn0 he
    linarith
  have hx0 : 0 ≤ x := by linarith
  have g1 : (1 + eps) ^ n ≤ (1 + eps) ^ (n + 1) := pow_le_pow_right₀ (by linarith) (by omega)
  have g2 : (1 + eps) ^ (n + 1) ≤ (1 + eps) ^ (n + 2) := pow_le_pow_right₀ (by linarith) (by omega)
  obtain ⟨D, hDe⟩ : ∃ D, D = H + l2.val + e0.val := ⟨_, rfl⟩
  obtain ⟨D', hD'e⟩ : ∃ D', D' = (sumOver rows h + l2 + e0).val := ⟨_, rfl⟩
  rw [← hDe] at hD hden ⊢
  rw [← hD'e] at hden
  have hdd : |D' - D| ≤ x * D := hden.trans (mul_le_mul_of_nonneg_right hp hD.le)
  have hlow : (1 - x) * D ≤ D' := by have := (abs_le.1 hdd).1; linarith
  have hD'0 : 0 < D' := lt_of_lt_of_le (mul_pos (by linarith) hD) hlow
  -- the numerator
  have hG1 : |(sumOver rows g).val - G| ≤ ((1 + eps) ^ n - 1) * S := hGe
  have hGt : |(sumOver rows g).val| ≤ (1 + eps) ^ n * S := by
    have := abs_add_le ((sumOver rows g).val - G) G
    rw [sub_add_cancel] at this
    linarith
  have hsG : |soft l1.val (sumOver rows g).val| ≤ (1 + eps) ^ n * S := (soft_abs _ _).trans hGt
  have hnT : |num.val - soft l1.val G| ≤ x * S := by
    have t := abs_add_le (num.val - soft l1.val (sumOver rows g).val) (soft l1.val (sumOver rows g).val - soft l1.val G)
    rw [sub_add_sub_cancel] at t
    have l := (soft_lipschitz l1.val (sumOver rows g).val G).trans hG1
    have m := hnum.trans (mul_le_mul_of_nonneg_left hsG he)
    have e : eps * ((1 + eps) ^ n * S) + ((1 + eps) ^ n - 1) * S = ((1 + eps) ^ (n + 1) - 1) * S := by rw [pow_succ]; ring
    have : ((1 + eps) ^ (n + 1) - 1) * S ≤ x * S := mul_le_mul_of_nonneg_right (by linarith) hS
    linarith
  have hT : |soft l1.val G| ≤ S := (soft_abs _ _).trans hGS
  have hnS : |num.val| ≤ (1 + x) * S := by
    have := abs_add_le (num.val - soft l1.val G) (soft l1.val G)
    rw [sub_add_cancel] at this
    linarith
  obtain ⟨T, hTe⟩ : ∃ T, T = soft l1.val G := ⟨_, rfl⟩
  rw [← hTe] at hnT hT ⊢
  rw [Fl.val_div, Fl.val_neg, ← hD'e]
  have hr := hR (-num.val / D')
  have q1 : |(-num.val / D')| ≤ (1 + x) * S / D' := by
    rw [abs_div, abs_neg, abs_of_pos hD'0]
    exact div_le_div_of_nonneg_right hnS hD'0.le
  have q2 : |(-num.val / D') - (-T / D)| ≤ 2 * x * S / D' := by
    have e : (-num.val / D') - (-T / D) = (-(num.val - T) * D + T * (D' - D)) / (D' * D) := by
      field_simp
      ring
    rw [e, abs_div, abs_of_pos (mul_pos hD'0 hD), div_le_div_iff₀ (mul_pos hD'0 hD) hD'0]
    have a1 : |-(num.val - T) * D + T * (D' - D)| ≤ x * S * D + S * (x * D) := by
      refine (abs_add_le _ _).trans (add_le_add ?_ ?_)
      · rw [abs_mul, abs_neg, abs_of_pos hD]
        exact mul_le_mul_of_nonneg_right hnT hD.le
      · rw [abs_mul]
        exact mul_le_mul hT hdd (abs_nonneg _) hS
    calc |-(num.val - T) * D + T * (D' - D)| * D' ≤ (x * S * D + S * (x * D)) * D' := mul_le_mul_of_nonneg_right a1 hD'0.le
      _ = 2 * x * S * (D' * D) := by ring
  have q3 : |R.rnd (-num.val / D') - (-T / D)| ≤ eps * ((1 + x) * S / D') + eta + 2 * x * S / D' := by
    have := abs_add_le (R.rnd (-num.val / D') - (-num.val / D')) ((-num.val / D') - (-T / D))
    rw [sub_add_sub_cancel] at this
    have m := mul_le_mul_of_nonneg_left q1 he
    linarith
  have q4 : eps * ((1 + x) * S / D') + 2 * x * S / D' ≤ 3 * x * (S / D) := by
    have e : eps * ((1 + x) * S / D') + 2 * x * S / D' = (eps * (1 + x) + 2 * x) * S / D' := by ring
    rw [e, ← mul_div_assoc, div_le_div_iff₀ hD'0 hD]
    have a1 : (eps * (1 + x) + 2 * x) ≤ 3 * x * (1 - x) := by nlinarith
    have a2 : (eps * (1 + x) + 2 * x) * (S * D) ≤ 3 * x * (1 - x) * (S * D) := mul_le_mul_of_nonneg_right a1 (mul_nonneg hS hD.le)
    have a3 : 3 * x * S * ((1 - x) * D) ≤ 3 * x * S * D' := mul_le_mul_of_nonneg_left hlow (by positivity)
    linarith
  have q5 : 6 * ((n : K) + 2) * eps = 3 * x := by rw [hx]; push_cast; ring
  rw [q5]
  linarith

/-- the objective at `w`, compared with the objective at the minimum -/
theorem objective_excess (lambda G H D v w d : K) (hD : D = H + lambda) (hpos : 0 < D) (hv : |v - -G / D| ≤ d) :
    Hist.leafObjective lambda 0 G H v ≤ Hist.leafObjective lambda 0 G H w + D / 2 * d ^ 2 := by
  obtain ⟨m, hm⟩ : ∃ m, m = -G / D := ⟨_, rfl⟩
  have hmG : G = -(D * m) := by rw [hm]; field_simp
  rw [← hm] at hv
  have e : ∀ u : K, Hist.leafObjective lambda 0 G H u = D / 2 * (u - m) ^ 2 - D / 2 * m ^ 2 := by
    intro u
    unfold Hist.leafObjective
    rw [← hD, hmG]
    ring
  rw [e, e]
  have h1 : (v - m) ^ 2 ≤ d ^ 2 := by
    rw [← sq_abs (v - m)]
    exact pow_le_pow_left₀ (abs_nonneg _) hv 2
  have h2 : 0 ≤ D / 2 * (w - m) ^ 2 := by positivity
  have h3 := mul_le_mul_of_nonneg_left h1 (show 0 ≤ D / 2 by positivity)
  linarith

open Binary64 in
/-- **C311** (what holds in float64): the value given to a leaf of n < 2^40 rows is the minimum of its objective up to 6(n + 2) units of 2^-53 of the sum of
the absolute gradients over the denominator; without L1 regularisation its objective exceeds that of any other value by at most half the denominator
times the square of that. -/
theorem leaf_value_float_partial (e0 l1 l2 : Fl rounding) (h2 : 0 ≤ l2.val) (h0 : 0 < e0.val) (g h : Nat → Fl rounding) (rows : List Nat)
    (hh : ∀ i ∈ rows, 0 ≤ (h i).val) (hn : rows.length < 2 ^ 40) :
    ∃ v S G H D d : ℚ, v = (calculateLeafValue e0 l1 l2 g h rows).val ∧ S = (rows.map fun i => |(g i).val|).sum ∧
      G = (rows.map fun i => (g i).val).sum ∧ H = (rows.map fun i => (h i).val).sum ∧ D = H + (l2.val + e0.val) ∧ 0 < D ∧
      d = 6 * (rows.length + 2) * (1 / 2 ^ 53) * (S / D) + 1 / 2 ^ 1075 ∧
      (∃ m, |v - m| ≤ d ∧ ∀ w, Hist.leafObjective (l2.val + e0.val) (max l1.val 0) G H m ≤ Hist.leafObjective (l2.val + e0.val) (max l1.val 0) G H w) ∧
      (l1.val ≤ 0 → ∀ w, Hist.leafObjective (l2.val + e0.val) 0 G H v ≤ Hist.leafObjective (l2.val + e0.val) 0 G H w + D / 2 * d ^ 2) := by
  have hH0 : 0 ≤ (rows.map fun i => (h i).val).sum := by
    apply List.sum_nonneg
    intro x hx
    obtain ⟨i, hi, rfl⟩ := List.mem_map.1 hx
    exact hh i hi
  have hnK : (rows.length : ℚ) ≤ 2 ^ 40 := by exact_mod_cast hn.le
  have hsm : ((rows.length : ℚ) + 2) * (1 / 2 ^ 53) ≤ 1 / 1000 := by
    have h40 : (2 : ℚ) ^ 40 = 1099511627776 := by norm_num
    have h53 : (2 : ℚ) ^ 53 = 9007199254740992 := by norm_num
    rw [h40] at hnK
    rw [h53]
    linarith
  have key := leaf_value_error (by positivity) (by positivity) accurate add_accurate e0 l1 l2 h2 h0 g h rows hh hsm
  have hD : 0 < (rows.map fun i => (h i).val).sum + (l2.val + e0.val) := by linarith
  rw [add_assoc] at key
  refine ⟨_, _, _, _, _, _, rfl, rfl, rfl, rfl, rfl, hD, rfl, ⟨_, key, fun w => leaf_value_optimal _ _ _ _ _ (by linarith) w⟩, fun hl w => ?_⟩
  refine objective_excess _ _ _ _ _ w _ rfl hD ?_
  rw [leafValue_eq, soft, if_neg (not_lt.2 hl), add_assoc] at key
  exact key

open Binary64 in
/-- gradients 2^53, 1 and -2^53 (data for sklearn/lightgbm/trainer.go:1278-1294) -/
def lostGrad : Nat → Fl rounding := fun i => lit (if i = 0 then 2 ^ 53 else if i = 1 then 1 else -2 ^ 53)

open Binary64 in
/-- **C311** (negation): in float64 a leaf with the gradients 2^53, 1, -2^53 and hessians 1 gets the value 0 though the value -1/3 has a smaller
objective; with the same rows in another order it gets a negative value. -/
theorem leaf_value_lost :
    calculateLeafValue (lit (1 / 10 ^ 10)) 0 0 lostGrad (fun _ => 1) [0, 1, 2] = 0 ∧
    Hist.leafObjective (1 / 10 ^ 10 : ℚ) 0 ([0, 1, 2].map fun i => (lostGrad i).val).sum 3 (-1 / 3) <
      Hist.leafObjective (1 / 10 ^ 10 : ℚ) 0 ([0, 1, 2].map fun i => (lostGrad i).val).sum 3 0 ∧
    (calculateLeafValue (lit (1 / 10 ^ 10)) 0 0 lostGrad (fun _ => 1) [0, 2, 1]).val < -3 / 10 := by
  refine ⟨by decide +kernel, ?_, by decide +kernel⟩
  have e : ([0, 1, 2].map fun i => (lostGrad i).val).sum = 1 := by decide +kernel
  rw [e]
  unfold Hist.leafObjective
  norm_num

open Binary64 in
example : ∃ v : ℚ, v = (calculateLeafValue (lit (1 / 10 ^ 10)) (lit (1 / 2)) (lit 1) lostGrad (fun _ => 1) [1, 1, 1]).val ∧ v < -6 / 10 ∧
    (0 : ℚ) ≤ (lit 1 : Fl rounding).val ∧ 0 < (lit (1 / 10 ^ 10) : Fl rounding).val :=
  ⟨_, rfl, by decide +kernel, by decide +kernel, by decide +kernel⟩

end Scigo.Round
