import Verif.Round.GainProps
import Verif.Metrics.ValueProps
import Verif.Scores.Props

/-!
# C313: the coefficient of determination with every operation rounded

`R2Score` divides two sums of squares. The residual sum has a small relative error; the total sum is taken around the rounded mean, so its error depends on
how large the values are against their spread.
-/

set_option linter.unusedSectionVars false

namespace Scigo.Round

open Scigo.Metrics

variable {K : Type} [Field K] [LinearOrder K] [IsStrictOrderedRing K] {R : Rounding K} {eps eta : K}

/-- the exact mean of some numbers (specification for metrics/regression.go:249-254) -/
def listMean (l : List K) : K := l.sum / l.length

/-- the exact sum of the squared distances from the mean (specification for metrics/regression.go:256-262) -/
def totalSquares (l : List K) : K := (l.map fun x => (x - listMean l) ^ 2).sum

/-- the exact sum of the squared residuals (specification for metrics/regression.go:256-263) -/
def residualSquares (t p : List K) : K := ((t.zip p).map fun x => (x.1 - x.2) ^ 2).sum

theorem sum_sq_shift (l : List K) (hl : l ≠ []) (m : K) :
    (l.map fun x => (x - m) ^ 2).sum = totalSquares l + l.length * (listMean l - m) ^ 2 := by
  have h0 : (l.length : K) ≠ 0 := Nat.cast_ne_zero.2 (by simpa using hl)
  have e : ∀ (l : List K) (m : K), (l.map fun x => (x - m) ^ 2).sum = (l.map fun x => x ^ 2).sum - 2 * m * l.sum + l.length * m ^ 2 := by
    intro l m
    induction l with
    | nil => simp
    | cons a l ih => simp only [List.map_cons, List.sum_cons, ih, List.length_cons]; push_cast; ring
  have hs : l.sum = l.length * listMean l := by unfold listMean; field_simp
  unfold totalSquares
  rw [e, e, hs]
  ring

/-- one rounded sum of squared differences -/
theorem sq_diff_error (he : 0 ≤ eps) (hη : 0 ≤ eta) (hR : R.Accurate eps eta) (hA : R.AddAccurate eps) {β : Type} (l : List β) (f g : β → Fl R) :
    Near eps eta (l.length + 3) l.length (sumOver l fun x => (f x - g x) * (f x - g x)).val (l.map fun x => ((f x).val - (g x).val) ^ 2).sum ∧
      0 ≤ (l.map fun x => ((f x).val - (g x).val) ^ 2).sum := by
  have h := Near.sum he hη hA l (fun x => (f x - g x) * (f x - g x)) (fun x => ((f x).val - (g x).val) ^ 2) 3 1 zero_le_one (fun x _ => sq_nonneg _)
    (fun x _ => by
      have h1 : Near eps eta 1 0 (f x - g x).val ((f x).val - (g x).val) := by
        rw [Fl.val_sub]
        exact (Near.refl eps eta _).rel he (hA.sub _ _ (f x).rep (g x).rep)
      have h2 := (h1.sq he).rnd he hη hR
      rw [← pow_two ((f x).val - (g x).val), zero_add] at h2
      exact h2)
  rw [mul_one, add_comm 3] at h
  exact h

/-- the arithmetic of the bound -/
theorem r2_numbers (he : 0 ≤ eps) (hη : 0 ≤ eta) {y T T' Rs n d tss rss q q' v : K} (hey : eps ≤ y) (hy : y ≤ 1 / 20) (hT : 0 < T) (hRs : 0 ≤ Rs) (hn : 0 ≤ n)
    (hT' : T' = T + n * d ^ 2) (hd : n * d ^ 2 ≤ y * T) (hu : 3 * n * eta ≤ y * T) (htss : |tss - T'| ≤ y * T' + n * (1 + y) * eta)
    (hrss : |rss - Rs| ≤ y * Rs + n * (1 + y) * eta) (hq : q = rss / tss) (hq' : |q' - q| ≤ eps * |q| + eta) (hv : |v - (1 - q')| ≤ eps * |1 - q'|) :
    0 < tss ∧ |v - (1 - Rs / T)| ≤ 8 * y * (1 + Rs / T) + 2 * eta := by
  have hy0 : 0 ≤ y := he.trans hey
  have hyT : 0 ≤ y * T := mul_nonneg hy0 hT.le
  have hyyT : y * (y * T) ≤ 1 / 20 * (y * T) := mul_le_mul_of_nonneg_right hy hyT
  have hnd : 0 ≤ n * d ^ 2 := by positivity
  have hu' : n * (1 + y) * eta ≤ 7 / 20 * (y * T) := by
    have : n * (1 + y) * eta = (1 + y) / 3 * (3 * n * eta) := by ring
    rw [this]
    calc (1 + y) / 3 * (3 * n * eta) ≤ (1 + y) / 3 * (y * T) := mul_le_mul_of_nonneg_left hu (by linarith)
      _ ≤ 7 / 20 * (y * T) := mul_le_mul_of_nonneg_right (by linarith) hyT
  have hyT' : y * T' ≤ y * T + 1 / 20 * (y * T) := by
    have := mul_le_mul_of_nonneg_left hd hy0
    rw [hT', mul_add]
    linarith
  have t := abs_le.1 htss
  have tE : |tss - T| ≤ 3 * (y * T) := by
    rw [abs_le]; constructor <;> linarith
  have tE' := abs_le.1 tE
  have tlow : 17 / 20 * T ≤ tss := by
    have : y * T ≤ 1 / 20 * T := mul_le_mul_of_nonneg_right hy hT.le
    linarith
  have t0 : 0 < tss := lt_of_lt_of_le (by linarith) tlow
  refine ⟨t0, ?_⟩
  have rE : |rss - Rs| ≤ y * Rs + 7 / 20 * (y * T) := by linarith
  obtain ⟨ρ, hρ⟩ : ∃ ρ, ρ = Rs / T := ⟨_, rfl⟩
  have hρ0 : 0 ≤ ρ := by rw [hρ]; positivity
  have hRρ : Rs = ρ * T := by rw [hρ]; field_simp
  rw [← hρ]
  have yρ : 0 ≤ y * ρ := mul_nonneg hy0 hρ0
  have qE : |q - ρ| ≤ 5 * (y * ρ) + 1 / 2 * y := by
    have e : q - ρ = ((rss - Rs) - ρ * (tss - T)) / tss := by
      rw [hq, hRρ]; field_simp; ring
    rw [e, abs_div, abs_of_pos t0, div_le_iff₀ t0]
    have h1 : |(rss - Rs) - ρ * (tss - T)| ≤ (y * Rs + 7 / 20 * (y * T)) + ρ * (3 * (y * T)) := by
      refine (abs_sub _ _).trans (add_le_add rE ?_)
      rw [abs_mul, abs_of_nonneg hρ0]
      exact mul_le_mul_of_nonneg_left tE hρ0
    have h2 : (5 * (y * ρ) + 1 / 2 * y) * (17 / 20 * T) ≤ (5 * (y * ρ) + 1 / 2 * y) * tss := mul_le_mul_of_nonneg_left tlow (by linarith)
    have h3 : (y * Rs + 7 / 20 * (y * T)) + ρ * (3 * (y * T)) ≤ (5 * (y * ρ) + 1 / 2 * y) * (17 / 20 * T) := by
      rw [hRρ]
      have a1 : 0 ≤ y * ρ * T := mul_nonneg yρ hT.le
      have e1 : y * (ρ * T) + 7 / 20 * (y * T) + ρ * (3 * (y * T)) = 4 * (y * ρ * T) + 7 / 20 * (y * T) := by ring
      have e2 : (5 * (y * ρ) + 1 / 2 * y) * (17 / 20 * T) = 17 / 4 * (y * ρ * T) + 17 / 40 * (y * T) := by ring
      rw [e1, e2]
      linarith
    linarith
  have yyρ : y * ρ ≤ 1 / 20 * ρ := mul_le_mul_of_nonneg_right hy hρ0
  have qA : |q| ≤ 5 / 4 * ρ + 1 / 40 := by
    have := abs_near qE
    rw [abs_of_nonneg hρ0] at this
    linarith
  have q'E : |q' - ρ| ≤ 25 / 4 * (y * ρ) + 21 / 40 * y + eta := by
    have h1 := abs_add_le (q' - q) (q - ρ)
    rw [sub_add_sub_cancel] at h1
    have h2 : eps * |q| ≤ y * (5 / 4 * ρ + 1 / 40) := mul_le_mul hey qA (abs_nonneg _) hy0
    have h3 : y * (5 / 4 * ρ + 1 / 40) = 5 / 4 * (y * ρ) + 1 / 40 * y := by ring
    linarith
  have oA : |1 - q'| ≤ 1 + ρ + (25 / 80 * ρ + 21 / 800 + eta) := by
    have h := abs_le.1 q'E
    rw [abs_le]
    constructor <;> linarith
  have h2 : eps * |1 - q'| ≤ y * (1 + ρ + (25 / 80 * ρ + 21 / 800 + eta)) := mul_le_mul hey oA (abs_nonneg _) hy0
  have h3 : y * (1 + ρ + (25 / 80 * ρ + 21 / 800 + eta)) = y + 21 / 800 * y + 105 / 80 * (y * ρ) + y * eta := by ring
  have h4 : y * eta ≤ 1 / 20 * eta := mul_le_mul_of_nonneg_right hy hη
  have a := abs_le.1 (hv.trans h2)
  have b := abs_le.1 q'E
  have e8 : 8 * y * (1 + ρ) = 8 * y + 8 * (y * ρ) := by ring
  rw [e8, abs_le]
  constructor <;> linarith

/-- **C313**: with every operation rounded, `R2Score` succeeds and is within `8 y (1 + RSS/TSS)` of the exact value, `y` being about `(n + 4)` roundings, when the
values are not too large against their spread (`spread`) and the spread does not underflow -/
theorem r2_error (he : 0 ≤ eps) (hη : 0 ≤ eta) (hR : R.Accurate eps eta) (hA : R.AddAccurate eps) (t p : List (Fl R)) (ht : t ≠ [])
    (hp : p.length = t.length) (hn : R.rnd (t.length : K) = t.length) {y : K} (hy : y ≤ 1 / 20) (hpow : (1 + eps) ^ (t.length + 4) - 1 ≤ y)
    (hT : 0 < totalSquares (t.map Fl.val)) (hspread : t.length * (y * listMean (t.map fun x => |x.val|) + eta) ^ 2 ≤ y * totalSquares (t.map Fl.val))
    (hunder : 3 * t.length * eta ≤ y * totalSquares (t.map Fl.val)) :
    ∃ v, r2Score (some t) (some p) = .ok v ∧
      |v.val - (1 - residualSquares (t.map Fl.val) (p.map Fl.val) / totalSquares (t.map Fl.val))| ≤
        8 * y * (1 + residualSquares (t.map Fl.val) (p.map Fl.val) / totalSquares (t.map Fl.val)) + 2 * eta := by
  have hlen : (t.zip p).length = t.length := by rw [List.length_zip, hp, min_self]
  have hn0 : (0 : K) < t.length := Nat.cast_pos.2 (List.length_pos_iff.2 ht)
  have hfst : (t.zip p).map (fun x => x.1) = t := List.map_fst_zip hp.ge
  have hpm : ∀ k ≤ t.length + 4, (1 + eps) ^ k - 1 ≤ y := fun k hk => by
    have := pow_le_pow_right₀ (show (1 : K) ≤ 1 + eps by linarith) hk
    linarith
  have hey : eps ≤ y := by simpa using hpm 1 (by omega)
  have hy0 : 0 ≤ y := he.trans hey
  -- the mean
  obtain ⟨m, hm⟩ : ∃ m, m = sumOver (t.zip p) (fun x => x.1) / ((t.zip p).length : Fl R) := ⟨_, rfl⟩
  have hs := sum_list_error he hA (t.zip p) (fun x => x.1)
  have es : ∀ g : Fl R → K, ((t.zip p).map fun x => g x.1).sum = (t.map g).sum := by
    intro g
    conv_rhs => rw [← hfst, List.map_map]
    rfl
  rw [es (fun a => a.val), es (fun a => |a.val|), hlen] at hs
  have hmE : |m.val - listMean (t.map Fl.val)| ≤ y * listMean (t.map fun x => |x.val|) + eta := by
    rw [hm, hlen, Fl.val_div, Fl.val_natCast, hn]
    unfold listMean
    rw [List.length_map, List.length_map]
    change |(sumOver (t.zip p) fun x => x.1).val - (t.map Fl.val).sum| ≤ _ at hs
    set S := (t.map Fl.val).sum
    set B := (t.map fun x => |x.val|).sum
    have hB : |S| ≤ B := by
      have : ∀ l : List (Fl R), |(l.map Fl.val).sum| ≤ (l.map fun x => |x.val|).sum := by
        intro l
        induction l with
        | nil => simp
        | cons b l ih => simpa using (abs_add_le _ _).trans (by linarith)
      exact this t
    have hB0 : 0 ≤ B := (abs_nonneg _).trans hB
    have r := hR ((sumOver (t.zip p) fun x => x.1).val / t.length)
    have q1 : |(sumOver (t.zip p) fun x => x.1).val / t.length - S / t.length| ≤ ((1 + eps) ^ t.length - 1) * (B / t.length) := by
      rw [← sub_div, abs_div, abs_of_pos hn0, ← mul_div_assoc]
      exact div_le_div_of_nonneg_right hs hn0.le
    have q2 := abs_near q1
    have q3 : |S / t.length| ≤ B / t.length := by
      rw [abs_div, abs_of_pos hn0]
      exact div_le_div_of_nonneg_right hB hn0.le
    have hBn : 0 ≤ B / t.length := div_nonneg hB0 hn0.le
    have q4 : |(sumOver (t.zip p) fun x => x.1).val / t.length| ≤ (1 + eps) ^ t.length * (B / t.length) := by linarith
    have q5 := mul_le_mul_of_nonneg_left q4 he
    have q6 := mul_le_mul_of_nonneg_right (hpm (t.length + 1) (by omega)) hBn
    have e6 : ((1 + eps) ^ (t.length + 1) - 1) * (B / t.length) = eps * ((1 + eps) ^ t.length * (B / t.length)) + ((1 + eps) ^ t.length - 1) * (B / t.length) := by
      rw [pow_succ]; ring
    have := abs_add_le (R.rnd ((sumOver (t.zip p) fun x => x.1).val / t.length) - (sumOver (t.zip p) fun x => x.1).val / t.length)
      ((sumOver (t.zip p) fun x => x.1).val / t.length - S / t.length)
    rw [sub_add_sub_cancel] at this
    linarith
  -- the two sums of squares
  obtain ⟨n1, p1⟩ := sq_diff_error he hη hR hA (t.zip p) (fun x => x.1) (fun _ => m)
  obtain ⟨n2, p2⟩ := sq_diff_error he hη hR hA (t.zip p) (fun x => x.1) (fun x => x.2)
  have er : ((t.zip p).map fun x => (x.1.val - x.2.val) ^ 2).sum = residualSquares (t.map Fl.val) (p.map Fl.val) := by
    unfold residualSquares
    rw [List.zip_map, List.map_map]
    rfl
  have et : ((t.zip p).map fun x => (x.1.val - m.val) ^ 2).sum =
      totalSquares (t.map Fl.val) + t.length * (listMean (t.map Fl.val) - m.val) ^ 2 := by
    rw [es (fun a => (a.val - m.val) ^ 2)]
    have h := sum_sq_shift (t.map Fl.val) (by simpa using ht) m.val
    rw [List.map_map, List.length_map] at h
    exact h
  rw [er] at n2 p2
  rw [et] at n1 p1
  have hd : t.length * (listMean (t.map Fl.val) - m.val) ^ 2 ≤ y * totalSquares (t.map Fl.val) := by
    refine le_trans (mul_le_mul_of_nonneg_left ?_ hn0.le) hspread
    rw [← sq_abs, abs_sub_comm]
    exact pow_le_pow_left₀ (abs_nonneg _) hmE 2
  have near : ∀ {a b : K}, 0 ≤ b → Near eps eta ((t.zip p).length + 3) (t.zip p).length a b → |a - b| ≤ y * b + t.length * (1 + y) * eta := by
    intro a b hb h
    unfold Near at h
    rw [hlen, abs_of_nonneg hb] at h
    have h1 := hpm (t.length + 3) (by omega)
    have h2 := mul_le_mul_of_nonneg_right h1 hb
    have h3 : (t.length : K) * (1 + eps) ^ (t.length + 3) * eta ≤ t.length * (1 + y) * eta :=
      mul_le_mul_of_nonneg_right (mul_le_mul_of_nonneg_left (by linarith) hn0.le) hη
    linarith
  have e1 := near p1 n1
  have e2 := near p2 n2
  obtain ⟨tss, htss⟩ : ∃ s, s = sumOver (t.zip p) fun x => (x.1 - m) * (x.1 - m) := ⟨_, rfl⟩
  obtain ⟨rss, hrss⟩ : ∃ s, s = sumOver (t.zip p) fun x => (x.1 - x.2) * (x.1 - x.2) := ⟨_, rfl⟩
  rw [← htss] at e1
  rw [← hrss] at e2
  have key := r2_numbers he hη (v := (1 - rss / tss).val) (q' := (rss / tss).val) hey hy hT p2 hn0.le rfl hd hunder e1 e2 rfl
    (by rw [Fl.val_div]; exact hR _) (by rw [Fl.val_sub, Fl.val_one]; simpa using hA.sub 1 (rss / tss).val (1 : Fl R).rep (rss / tss).rep)
  refine ⟨1 - rss / tss, ?_, key.2⟩
  have hne : ¬ (tss == 0) = true := by
    rw [beq_iff_eq]
    intro h0
    have := key.1
    rw [h0] at this
    exact lt_irrefl _ this
  unfold r2Score regGuard
  simp only
  rw [if_neg (by simpa using ht), if_neg (by simpa using hp), ← hm, ← htss, ← hrss, if_neg hne]

open Binary64 in
/-- **C313** (what holds in float64): fewer than 2^40 values, not all equal, whose root mean square distance from the mean is above about `2^-26 √(n + 4)` of the
mean absolute value and above `2^-480` -/
theorem r2_float_partial (t p : List (Fl rounding)) (ht : t ≠ []) (hp : p.length = t.length) (hlen : t.length < 2 ^ 40) (T S M y : ℚ)
    (hT : T = totalSquares (t.map Fl.val)) (hS : S = residualSquares (t.map Fl.val) (p.map Fl.val)) (hM : M = listMean (t.map fun x => |x.val|))
    (hy : y = (t.length + 4) * (1 / 2 ^ 52)) (h0 : t.length * (1 / 2 ^ 960) ≤ T) (hspread : 4 * y * (t.length * M ^ 2) ≤ T) :
    ∃ v, r2Score (some t) (some p) = .ok v ∧ |v.val - (1 - S / T)| ≤ 8 * y * (1 + S / T) + 1 / 2 ^ 1074 := by
  have hn1 : (1 : ℚ) ≤ t.length := by exact_mod_cast List.length_pos_iff.2 ht
  have hnK : (t.length : ℚ) ≤ 2 ^ 40 := by exact_mod_cast hlen.le
  have h53 : (2 : ℚ) ^ 53 = 9007199254740992 := by norm_num
  have h52 : (2 : ℚ) ^ 52 = 4503599627370496 := by norm_num
  have h40 : (2 : ℚ) ^ 40 = 1099511627776 := by norm_num
  rw [h40] at hnK
  have hp4 := pow_sub_one_le (K := ℚ) (eps := 1 / 2 ^ 53) (by positivity) (t.length + 4) (by rw [h53]; push_cast; linarith)
  have hyl : 1 / 2 ^ 52 ≤ y := by rw [hy, h52]; linarith
  have hyu : y ≤ 1 / 20 := by rw [hy, h52]; linarith
  have hy0 : 0 ≤ y := le_trans (by positivity) hyl
  have hpos : (0 : ℚ) < 1 / 2 ^ 960 := by positivity
  have hT0 : 0 < T := lt_of_lt_of_le (mul_pos (by linarith) hpos) h0
  -- underflow is negligible
  obtain ⟨e, hE⟩ : ∃ e : ℚ, e = 1 / 2 ^ 1075 := ⟨_, rfl⟩
  have he0 : 0 ≤ e := by rw [hE]; positivity
  have hbig : e * 2 ^ 55 ≤ 1 / 2 ^ 52 * (1 / 2 ^ 960) := by
    rw [hE]
    have a : (2 : ℚ) ^ 1075 = 2 ^ 55 * (2 ^ 52 * 2 ^ 968) := by rw [← pow_add, ← pow_add]
    have b : (2 : ℚ) ^ 968 = 2 ^ 960 * 2 ^ 8 := by rw [← pow_add]
    have c : (0 : ℚ) < 2 ^ 960 := by positivity
    rw [a, b]
    generalize (2 : ℚ) ^ 960 = w at *
    rw [h52, one_div_mul_one_div, one_div_mul_eq_div, div_le_div_iff₀ (by positivity) (by positivity)]
    norm_num
    exact le_mul_of_one_le_right c.le (by norm_num)
  have hyT : t.length * (e * 2 ^ 55) ≤ y * T := by
    calc (t.length : ℚ) * (e * 2 ^ 55) ≤ t.length * (1 / 2 ^ 52 * (1 / 2 ^ 960)) := mul_le_mul_of_nonneg_left hbig (by linarith)
      _ = 1 / 2 ^ 52 * (t.length * (1 / 2 ^ 960)) := by ring
      _ ≤ y * T := mul_le_mul hyl h0 (by positivity) hy0
  have h55 : (2 : ℚ) ^ 55 = 36028797018963968 := by norm_num
  rw [h55] at hyT
  have hne : 0 ≤ t.length * e := mul_nonneg (by linarith) he0
  have he1 : e ≤ 1 := by rw [hE]; exact div_le_one_of_le₀ (one_le_pow₀ (by norm_num)) (by positivity)
  have key := r2_error (R := rounding) (by positivity) (by positivity) accurate add_accurate t p ht hp (nat_exact _ (by omega)) hyu
    (hp4.trans (by rw [hy, h53, h52]; push_cast; linarith)) (by rw [← hT]; exact hT0) (by
      rw [← hT, ← hM, ← hE]
      have h2 : (y * M + e) ^ 2 ≤ 2 * (y * M) ^ 2 + 2 * e ^ 2 := by nlinarith [sq_nonneg (y * M - e)]
      have h3 := mul_le_mul_of_nonneg_left h2 (show (0 : ℚ) ≤ t.length by linarith)
      have h4 := mul_le_mul_of_nonneg_left hspread hy0
      have h5 : e ^ 2 ≤ e := by nlinarith
      have h6 := mul_le_mul_of_nonneg_left h5 (show (0 : ℚ) ≤ t.length by linarith)
      have e1 : (t.length : ℚ) * (2 * (y * M) ^ 2 + 2 * e ^ 2) = 1 / 2 * (y * (4 * y * (t.length * M ^ 2))) + 2 * (t.length * e ^ 2) := by ring
      rw [e1] at h3
      linarith) (by rw [← hT, ← hE]; linarith)
  rw [← hT, ← hS] at key
  have e2 : (2 : ℚ) * (1 / 2 ^ 1075) = 1 / 2 ^ 1074 := by
    have : (2 : ℚ) ^ 1075 = 2 ^ 1074 * 2 := pow_succ _ _
    rw [this]; field_simp
  rw [e2] at key
  exact key

open Binary64 in
/-- **C313** (negation): a constant target has no coefficient of determination, yet for the constant 0.1 and the prediction 0.2 a score below -10^30 is returned
(and the score 1 for the prediction 0.1); for two tiny different targets an error is returned -/
theorem r2_constant_scored :
    (∃ v, r2Score (some [lit (1 / 10), lit (1 / 10), lit (1 / 10)]) (some [lit (1 / 5), lit (1 / 5), lit (1 / 5)]) = .ok v ∧ v.val < -10 ^ 30) ∧
    r2Score (some [lit (1 / 10), lit (1 / 10), lit (1 / 10)]) (some [lit (1 / 10), lit (1 / 10), lit (1 / 10)]) = .ok (lit 1) ∧
    r2Score (some [lit (1 / 2 ^ 600), lit (2 / 2 ^ 600)]) (some [lit (1 / 2 ^ 600), lit (2 / 2 ^ 600)]) = .err (.other "no variance") := by
  have h : (match r2Score (some [lit (1 / 10), lit (1 / 10), lit (1 / 10)]) (some [lit (1 / 5), lit (1 / 5), lit (1 / 5)]) with
      | .ok v => decide (v.val < -10 ^ 30)
      | _ => false) = true := by decide +kernel
  refine ⟨?_, by decide +kernel, by decide +kernel⟩
  cases e : r2Score (some [lit (1 / 10), lit (1 / 10), lit (1 / 10)]) (some [lit (1 / 5), lit (1 / 5), lit (1 / 5)]) with
  | ok v => rw [e] at h; exact ⟨v, rfl, of_decide_eq_true h⟩
  | err x => rw [e] at h; exact absurd h Bool.false_ne_true
  | panic x => rw [e] at h; exact absurd h Bool.false_ne_true

open Binary64 in
/-- the hypotheses are met by five values around 100 with a spread of about 1 -/
example : ∃ v, r2Score (some [lit 100, lit 101, lit 99, lit (201 / 2), lit 98]) (some [lit 100, lit 100, lit 99, lit 101, lit 98]) = .ok v ∧
    |v.val - (1 - 5 / 4 / (29 / 5))| ≤ 8 * (9 * (1 / 2 ^ 52)) * (1 + 5 / 4 / (29 / 5)) + 1 / 2 ^ 1074 :=
  r2_float_partial [lit 100, lit 101, lit 99, lit (201 / 2), lit 98] [lit 100, lit 100, lit 99, lit 101, lit 98] (by simp) rfl (by simp) (29 / 5) (5 / 4) (997 / 10) _ (by decide +kernel) (by decide +kernel) (by decide +kernel)
    (by norm_num) (by decide +kernel) (by decide +kernel)

/-! ## `Score` of the regressors -/

section
variable {α : Type} [Zero α] [One α] [Add α] [Sub α] [Mul α] [Div α] [NatCast α] [BEq α]

/-- the entries of the first column of a matrix (specification for metrics/regression.go:249-264) -/
def firstColumn (n : Nat) (y : Mat α) : List α := (List.range n).map fun i => y.at' i 0

theorem sumOver_zip (n : Nat) (f g : Nat → α) (h : α × α → α) :
    sumOver (((List.range n).map f).zip ((List.range n).map g)) h = sumTo n fun i => h (f i, g i) := by
  unfold sumOver sumTo
  rw [List.zip_map', List.foldl_map]

/-- **C313** (law-free): `Score` of the linear and stochastic gradient regressors is `R2Score` of the labels and predictions -/
theorem score_is_r2 (e : GoErr) (P y : Mat α) (h0 : 0 < y.r) (hr : y.r ≤ P.r) (hc : y.c ≠ 0) (v : α) :
    Linear.LinReg.r2Body e P y = .ok v ↔ r2Score (some (firstColumn y.r y)) (some (firstColumn y.r P)) = .ok v := by
  unfold Linear.LinReg.r2Body r2Score regGuard Linear.LinReg.colMean firstColumn
  simp only [sumOver_zip, List.length_map, List.length_range, List.length_zip, min_self]
  rw [if_neg (show ¬ (y.r ≠ 0 ∧ (y.c = 0 ∨ P.r < y.r)) by omega), if_neg (show ¬ y.r = 0 by omega), if_neg (show ¬ y.r ≠ y.r by simp)]
  split <;> simp
end

open Binary64 in
/-- **C313** (what holds in float64 for the estimators): `Score` of both linear regressions and of the stochastic gradient regressor has the accuracy of `R2Score` -/
theorem regressor_score_float_partial (P Y : Mat (Fl rounding)) (hr0 : 0 < Y.r) (hr : Y.r ≤ P.r) (hc : Y.c ≠ 0) (hlen : Y.r < 2 ^ 40) (T S M y : ℚ)
    (hT : T = totalSquares ((firstColumn Y.r Y).map Fl.val)) (hS : S = residualSquares ((firstColumn Y.r Y).map Fl.val) ((firstColumn Y.r P).map Fl.val))
    (hM : M = listMean ((firstColumn Y.r Y).map fun x => |x.val|)) (hy : y = (Y.r + 4) * (1 / 2 ^ 52)) (h0 : Y.r * (1 / 2 ^ 960) ≤ T)
    (hspread : 4 * y * (Y.r * M ^ 2) ≤ T) :
    ∃ v : Fl rounding, |v.val - (1 - S / T)| ≤ 8 * y * (1 + S / T) + 1 / 2 ^ 1074 ∧
      (∀ (m : Linear.LinReg (Fl rounding)) X, m.fitted = true → m.predict X = .ok P → m.score X Y = .ok v) ∧
      (∀ (m : Linear.LM (Fl rounding)) X, m.predict X = .ok P → m.score X Y = .ok v) ∧
      ∀ (m : Online.Reg (Fl rounding)) X, m.predict X = .ok P → Scores.sgdRegressorScore m X Y = .ok v := by
  have hl : (firstColumn Y.r Y).length = Y.r := by simp [firstColumn]
  have hl' : (firstColumn Y.r P).length = Y.r := by simp [firstColumn]
  obtain ⟨v, hv, hb⟩ := r2_float_partial (firstColumn Y.r Y) (firstColumn Y.r P) (by intro h; rw [h] at hl; simp at hl; omega) (by rw [hl, hl']) (by rw [hl]; exact hlen)
    T S M y hT hS hM (by rw [hl]; exact hy) (by rw [hl]; exact h0) (by rw [hl]; exact hspread)
  have body : ∀ e, Linear.LinReg.r2Body e P Y = .ok v := fun e => (score_is_r2 e P Y hr0 hr hc v).2 hv
  refine ⟨v, hb, fun m X hf hp => ?_, fun m X hp => ?_, fun m X hp => ?_⟩
  · unfold Linear.LinReg.score
    rw [hf, hp, Outcome.bind_ok, body]
    simp [Outcome.recovered]
  · unfold Linear.LM.score
    rw [hp, Outcome.bind_ok, body]
  · unfold Scores.sgdRegressorScore
    rw [hp, Outcome.bind_ok, body]

end Scigo.Round
