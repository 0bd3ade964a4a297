import Verif.Base.Binary64
import Verif.Trainer.SampleProps

/-!
# C315: shares of rows, features and trees in float64

`int(float64(n) * fraction)` and `int(math.Ceil(rate * float64(n)))` in float64, where the fraction itself is a rounded constant: the numbers of rows, of
features, of rows kept by GOSS and of trees dropped by DART are at most one off the share that is asked for, and off by one even when the share is whole.
-/

set_option linter.unusedSectionVars false

namespace Scigo.Round

open Scigo.Trainer Binary64

/-- the conversion of a float64 to `int`, towards zero: sklearn/lightgbm/trainer_params.go:45, 96, sklearn/lightgbm/trainer.go:941, 951. Numbers outside the
range of `int` are not modelled. -/
def toInt (x : Fl rounding) : Int := if x.val < 0 then ⌈x.val⌉ else ⌊x.val⌋

/-- `int(float64(n) * fraction)`: sklearn/lightgbm/trainer_params.go:45, 96, sklearn/lightgbm/trainer.go:941, 951 -/
def scale64 (n : Int) (f : Fl rounding) : Int := toInt ((n : Fl rounding) * f)

/-- `int(math.Ceil(rate * float64(n)))`; `math.Ceil` of a float64 is exact: sklearn/lightgbm/trainer.go:255 -/
def ceil64 (rate : Fl rounding) (n : Nat) : Int := ⌈(rate * (n : Fl rounding)).val⌉

/-- how far `float64(n) * fraction` may be from the share `n * q` -/
def slack (n : Nat) (q : ℚ) : ℚ := n * q / 2 ^ 51 + 1 / 2 ^ 200

theorem share_error (n : Nat) (hn : n < 2 ^ 50) (q : ℚ) (h0 : 0 ≤ q) :
    |rounding.rnd (n * rounding.rnd q) - n * q| ≤ slack n q := by
  have a1 := Binary64.accurate q
  have a2 := Binary64.accurate (n * rounding.rnd q)
  have hr : 0 ≤ rounding.rnd q := rounding.nonneg h0
  have hN : (0 : ℚ) ≤ n := Nat.cast_nonneg n
  have hN' : (n : ℚ) ≤ 2 ^ 50 := by exact_mod_cast hn.le
  rw [abs_of_nonneg h0] at a1
  rw [abs_of_nonneg (mul_nonneg hN hr)] at a2
  have e1 : (1 : ℚ) / 2 ^ 1075 ≤ 1 / 2 ^ 200 * (1 / 2 ^ 55) := by
    have h1 : (1 : ℚ) / 2 ^ 1075 ≤ 1 / 2 ^ 255 := one_div_le_one_div_of_le (by positivity) (pow_le_pow_right₀ one_le_two (by norm_num))
    have h2 : (1 : ℚ) / 2 ^ 255 = 1 / 2 ^ 200 * (1 / 2 ^ 55) := by norm_num
    rwa [h2] at h1
  replace a1 := a1.trans (add_le_add le_rfl e1)
  replace a2 := a2.trans (add_le_add le_rfl e1)
  unfold slack
  have hη : (0 : ℚ) < 1 / 2 ^ 200 := by positivity
  generalize (1 : ℚ) / 2 ^ 200 = η at *
  generalize rounding.rnd (n * rounding.rnd q) = z at *
  generalize rounding.rnd q = r at *
  rw [abs_le] at a1 a2 ⊢
  have b1 : n * (r - q) ≤ n * (1 / 2 ^ 53 * q + η * (1 / 2 ^ 55)) := mul_le_mul_of_nonneg_left a1.2 hN
  have b2 : n * -(1 / 2 ^ 53 * q + η * (1 / 2 ^ 55)) ≤ n * (r - q) := mul_le_mul_of_nonneg_left a1.1 hN
  have b3 : (n : ℚ) * η ≤ 2 ^ 50 * η := mul_le_mul_of_nonneg_right hN' hη.le
  have b4 : 0 ≤ (n : ℚ) * q := mul_nonneg hN h0
  constructor <;> nlinarith

theorem slack_lt_one (n : Nat) (hn : n < 2 ^ 50) (q : ℚ) (h1 : q ≤ 1) : slack n q < 1 := by
  have hN' : (n : ℚ) ≤ 2 ^ 50 := by exact_mod_cast hn.le
  have : (n : ℚ) * q ≤ 2 ^ 50 := by
    have := mul_le_mul_of_nonneg_left h1 (Nat.cast_nonneg (α := ℚ) n)
    linarith
  have e : (1 : ℚ) / 2 ^ 200 < 1 / 4 := by norm_num
  unfold slack
  generalize (1 : ℚ) / 2 ^ 200 = η at *
  linarith

theorem share_val (n : Nat) (hn : n < 2 ^ 50) (q : ℚ) : (((n : Int) : Fl rounding) * lit q).val = rounding.rnd (n * rounding.rnd q) := by
  have h : (((n : Int) : Fl rounding)).val = (n : ℚ) := by
    show rounding.rnd (((n : Int) : ℚ)) = n
    rw [Int.cast_natCast]; exact nat_exact n (lt_trans hn (by norm_num))
  rw [Fl.val_mul, h]; rfl

theorem scale64_eq (n : Nat) (hn : n < 2 ^ 50) (q : ℚ) (h0 : 0 ≤ q) : scale64 n (lit q) = ⌊rounding.rnd (n * rounding.rnd q)⌋ := by
  have hz : ¬ rounding.rnd (n * rounding.rnd q) < 0 := not_lt.2 (rounding.nonneg (mul_nonneg (Nat.cast_nonneg n) (rounding.nonneg h0)))
  unfold scale64 toInt
  rw [share_val n hn q, if_neg hz]

theorem ceil64_eq (n : Nat) (hn : n < 2 ^ 50) (q : ℚ) : ceil64 (lit q) n = ⌈rounding.rnd (n * rounding.rnd q)⌉ := by
  have h : ((n : Fl rounding)).val = (n : ℚ) := nat_exact n (lt_trans hn (by norm_num))
  unfold ceil64
  rw [Fl.val_mul, h, mul_comm]; rfl

/-- the truncated share is at most one off, and right if the share is not too close to a whole number -/
theorem scale64_near (n : Nat) (hn : n < 2 ^ 50) (q : ℚ) (h0 : 0 ≤ q) (h1 : q ≤ 1) :
    |scale64 n (lit q) - ⌊n * q⌋| ≤ 1 ∧
      ((⌊n * q⌋ + slack n q ≤ n * q ∧ n * q + slack n q < ⌊n * q⌋ + 1) → scale64 n (lit q) = ⌊n * q⌋) := by
  have he := share_error n hn q h0
  have hs := slack_lt_one n hn q h1
  rw [scale64_eq n hn q h0]
  generalize rounding.rnd (n * rounding.rnd q) = z at *
  rw [abs_le] at he
  have f1 := Int.floor_le (n * q)
  have f2 := Int.lt_floor_add_one (n * q)
  refine ⟨?_, fun h => ?_⟩
  · rw [abs_le]
    constructor
    · have : ⌊n * q⌋ - 1 ≤ ⌊z⌋ := Int.le_floor.2 (by push_cast; linarith)
      linarith
    · have : ⌊z⌋ < ⌊n * q⌋ + 2 := Int.floor_lt.2 (by push_cast; linarith)
      linarith
  · rw [Int.floor_eq_iff]; constructor <;> linarith [h.1, h.2]

theorem ceil64_near (n : Nat) (hn : n < 2 ^ 50) (q : ℚ) (h0 : 0 ≤ q) (h1 : q ≤ 1) :
    |ceil64 (lit q) n - ⌈n * q⌉| ≤ 1 ∧ ceil64 (lit q) n ≤ n ∧
      ((⌈n * q⌉ - 1 + slack n q < n * q ∧ n * q + slack n q ≤ ⌈n * q⌉) → ceil64 (lit q) n = ⌈n * q⌉) := by
  have he := share_error n hn q h0
  have hs := slack_lt_one n hn q h1
  have hle : rounding.rnd (n * rounding.rnd q) ≤ n := by
    have hr : rounding.rnd q ≤ 1 := rounding.one ▸ rounding.mono h1
    have : (n : ℚ) * rounding.rnd q ≤ n := by
      have := mul_le_mul_of_nonneg_left hr (Nat.cast_nonneg (α := ℚ) n)
      linarith
    have := rounding.mono this
    rwa [nat_exact n (lt_trans hn (by norm_num))] at this
  rw [ceil64_eq n hn q]
  generalize rounding.rnd (n * rounding.rnd q) = z at *
  rw [abs_le] at he
  have f1 := Int.le_ceil (n * q)
  have f2 := Int.ceil_lt_add_one (n * q)
  refine ⟨?_, Int.ceil_le.2 (by exact_mod_cast hle), fun h => ?_⟩
  · rw [abs_le]
    constructor
    · have : ⌈n * q⌉ - 2 < ⌈z⌉ := Int.lt_ceil.2 (by push_cast; linarith)
      linarith
    · have : ⌈z⌉ ≤ ⌈n * q⌉ + 1 := Int.ceil_le.2 (by push_cast; linarith)
      linarith
  · rw [Int.ceil_eq_iff]; constructor <;> linarith [h.1, h.2]

/-- the share of `n` that a fraction `q` asks for, but at least one -/
def share (n : Nat) (q : ℚ) : Int := max 1 ⌊n * q⌋

/-- a fraction that is neither tiny nor next to 1 is inside `(0, 1)` as a float64 as well -/
theorem lit_inside (q : ℚ) (h0 : 1 / 2 ^ 200 ≤ q) (h1 : q ≤ 1 - 1 / 2 ^ 53) : ¬ ((1 : Fl rounding) ≤ lit q ∨ lit q ≤ (0 : Fl rounding)) := by
  rintro (h | h)
  · have hm : rounding.rnd q ≤ rounding.rnd (1 - 1 / 2 ^ 53) := rounding.mono h1
    have he : rounding.rnd (1 - 1 / 2 ^ 53) = 1 - 1 / 2 ^ 53 := by
      have := rnd_exact (2 ^ 53 - 1) (-53) (by norm_num) (by norm_num)
      have e : (((2 ^ 53 - 1 : Int) : ℚ)) * pow2 (-53) = 1 - 1 / 2 ^ 53 := by rw [pow2_eq]; norm_num
      rwa [e] at this
    have : (1 : ℚ) ≤ rounding.rnd q := h
    norm_num at he hm
    linarith
  · have hm : rounding.rnd (1 / 2 ^ 200) ≤ rounding.rnd q := rounding.mono h0
    have he : rounding.rnd (1 / 2 ^ 200) = 1 / 2 ^ 200 := by
      have := rnd_exact 1 (-200) (by norm_num) (by norm_num)
      have e : (((1 : Int) : ℚ)) * pow2 (-200) = 1 / 2 ^ 200 := by rw [pow2_eq]; norm_num
      rwa [e] at this
    rw [he] at hm
    have : rounding.rnd q ≤ 0 := h
    have hp : (0 : ℚ) < 1 / 2 ^ 200 := by positivity
    linarith

/-- **C315** (part): in an iteration with bagging, the number of rows is at most one off the share of the fraction, and it is that share unless `n * q` is
within `n * q / 2 ^ 51` of a whole number. Missing: a share that is whole is not always met, see `sampled_rows_not_share`. -/
theorem sampled_rows_float_partial (r : Nat → Nat) (q : ℚ) (h0 : 1 / 2 ^ 200 ≤ q) (h1 : q ≤ 1 - 1 / 2 ^ 53) (freq : Int) (hf : 0 < freq) (n : Nat)
    (hn0 : 0 < n) (hn : n < 2 ^ 50) (iteration : Nat) (hi : freq ∣ iteration) :
    |((sampleInstances scale64 r (lit q) freq n iteration).length : Int) - share n q| ≤ 1 ∧
      ((⌊n * q⌋ + slack n q ≤ n * q ∧ n * q + slack n q < ⌊n * q⌋ + 1) →
        ((sampleInstances scale64 r (lit q) freq n iteration).length : Int) = share n q) := by
  have hq0 : 0 ≤ q := le_trans (by positivity) h0
  have hq1 : q ≤ 1 := le_trans h1 (by norm_num)
  have hle : ⌊(n : ℚ) * q⌋ ≤ n := by
    have h := Int.floor_le ((n : ℚ) * q)
    have := mul_le_mul_of_nonneg_left hq1 (Nat.cast_nonneg (α := ℚ) n)
    have : ((⌊(n : ℚ) * q⌋ : Int) : ℚ) ≤ ((n : Int) : ℚ) := by push_cast; linarith
    exact_mod_cast this
  obtain ⟨a, b⟩ := scale64_near n hn q hq0 hq1
  rw [(sampled_rows scale64 r (lit q) freq n iteration hn0).2.2, if_pos ⟨hf, hi, lit_inside q h0 h1⟩]
  unfold share
  refine ⟨?_, fun h => ?_⟩
  · rw [abs_le] at a ⊢; omega
  · rw [b h]; omega

/-- **C315** (part) for features. Missing: as above, see `sampled_features_not_share`. -/
theorem sampled_features_float_partial (r : Nat → Nat) (q : ℚ) (h0 : 1 / 2 ^ 200 ≤ q) (h1 : q ≤ 1 - 1 / 2 ^ 53) (n : Nat) (hn0 : 0 < n)
    (hn : n < 2 ^ 50) :
    |((sampleFeatures scale64 r (lit q) n).length : Int) - share n q| ≤ 1 ∧
      ((⌊n * q⌋ + slack n q ≤ n * q ∧ n * q + slack n q < ⌊n * q⌋ + 1) →
        ((sampleFeatures scale64 r (lit q) n).length : Int) = share n q) := by
  have h := sampled_rows_float_partial r q h0 h1 1 one_pos n hn0 hn 0 (one_dvd _)
  have e : sampleInstances scale64 r (lit q) 1 n 0 = sampleFeatures scale64 r (lit q) n := by
    simp [sampleInstances, sampleFeatures]
  rwa [e] at h

/-- a third of 1000 rows are 333 -/
example (r : Nat → Nat) : (sampleInstances scale64 r (lit (1 / 3)) 5 1000 10).length = 333 := by
  have h := (sampled_rows_float_partial r (1 / 3) (by
    have : (1 : ℚ) / 2 ^ 200 ≤ 1 / 3 := by norm_num
    exact this) (by norm_num) 5 (by norm_num) 1000 (by norm_num) (by norm_num) 10 (by norm_num)).2
  have hfl : ⌊((1000 : Nat) : ℚ) * (1 / 3)⌋ = 333 := by norm_num
  have h' := h (by rw [hfl]; unfold slack; constructor <;> norm_num)
  unfold share at h'
  rw [hfl] at h'
  exact_mod_cast h'

/-- **C315** is false of a whole share: with `BaggingFraction` 0.29, 28 of 100 rows are used instead of 29, in every iteration with bagging -/
theorem sampled_rows_not_share (r : Nat → Nat) (freq : Int) (hf : 0 < freq) (iteration : Nat) (hi : freq ∣ iteration) :
    share 100 (29 / 100) = 29 ∧ (sampleInstances scale64 r (lit (29 / 100)) freq 100 iteration).length = 28 := by
  refine ⟨by unfold share; norm_num, ?_⟩
  have h := (sampled_rows scale64 r (lit (29 / 100)) freq 100 iteration (by norm_num)).2.2
  have hc : min ((100 : Nat) : Int) (max 1 (scale64 ((100 : Nat) : Int) (lit (29 / 100)))) = 28 := by decide +kernel
  rw [if_pos ⟨hf, hi, by decide +kernel⟩, hc] at h
  exact_mod_cast h

/-- **C315** is false for features as well: with `FeatureFraction` 0.57, 56 of 100 features are used instead of 57 -/
theorem sampled_features_not_share (r : Nat → Nat) :
    share 100 (57 / 100) = 57 ∧ (sampleFeatures scale64 r (lit (57 / 100)) 100).length = 56 := by
  refine ⟨by unfold share; norm_num, ?_⟩
  have h := (sampled_features scale64 r (lit (57 / 100)) 100 (by norm_num)).2.2
  have hc : min ((100 : Nat) : Int) (max 1 (scale64 ((100 : Nat) : Int) (lit (57 / 100)))) = 56 := by decide +kernel
  rw [if_neg (by decide +kernel), hc] at h
  exact_mod_cast h

/-- **C315** (part) for GOSS: the number of rows kept for their large gradients. Missing: a whole share, see `goss_not_share`. -/
theorem goss_top_float_partial (n : Nat) (hn : n < 2 ^ 50) (q : ℚ) (h0 : 0 ≤ q) (h1 : q ≤ 1) :
    |((topCount scale64 n (lit q) : Nat) : Int) - share n q| ≤ 1 ∧
      ((⌊n * q⌋ + slack n q ≤ n * q ∧ n * q + slack n q < ⌊n * q⌋ + 1) → ((topCount scale64 n (lit q) : Nat) : Int) = share n q) := by
  obtain ⟨a, b⟩ := scale64_near n hn q h0 h1
  unfold topCount share
  refine ⟨?_, fun h => ?_⟩
  · rw [abs_le] at a ⊢; split_ifs <;> omega
  · rw [b h]; split_ifs <;> omega

/-- the default top rate 0.2 of 1003 rows, and a drop rate of 0.1 with 25 trees, meet all hypotheses -/
example : topCount scale64 1003 (lit (1 / 5)) = 200 ∧ ceil64 (lit (1 / 10)) 25 = 3 ∧ slack 1003 (1 / 5) < 1 / 10 ^ 12 ∧
    ⌊(1003 : ℚ) * (1 / 5)⌋ = 200 ∧ ⌈(25 : ℚ) * (1 / 10)⌉ = 3 :=
  ⟨by decide +kernel, by decide +kernel, by unfold slack; norm_num, by norm_num, by norm_num⟩

/-- **C315** is false for GOSS: a top rate of 0.29 keeps 28 of 100 rows -/
theorem goss_not_share : share 100 (29 / 100) = 29 ∧ topCount scale64 100 (lit (29 / 100)) = 28 :=
  ⟨by unfold share; norm_num, by decide +kernel⟩

/-- **C315** (part) for DART: with a rate in `[0, 1]` the selection never panics, and the number of trees dropped is at most one off `⌈n * q⌉`, and that number
unless `n * q` is within `n * q / 2 ^ 51` of a whole number. Missing: a whole share, see `dart_not_share`. -/
theorem dart_drop_float_partial (r : Nat → Nat) (n : Nat) (hn0 : 0 < n) (hn : n < 2 ^ 50) (q : ℚ) (h0 : 0 ≤ q) (h1 : q ≤ 1) :
    ∃ l, selectDrop true false (ceil64 (lit q) n) 0 r n = .ok l ∧ l.Nodup ∧ (∀ i ∈ l, i < n) ∧
      |(l.length : Int) - max 1 ⌈n * q⌉| ≤ 1 ∧
      ((⌈n * q⌉ - 1 + slack n q < n * q ∧ n * q + slack n q ≤ ⌈n * q⌉) → (l.length : Int) = max 1 ⌈n * q⌉) := by
  obtain ⟨a, b, c⟩ := ceil64_near n hn q h0 h1
  obtain ⟨l, e, hl, -, -, h3, h4⟩ := dropped_trees_partial (ceil64 (lit q) n) 0 r n hn0 b
  refine ⟨l, e, h3, h4, ?_, fun h => ?_⟩
  · rw [hl]; rw [abs_le] at a ⊢
    unfold dropCount
    simp only
    split_ifs <;> omega
  · rw [hl, c h]
    unfold dropCount
    simp only
    split_ifs <;> omega

/-- **C315** is false for DART: with a drop rate of 0.07, 8 of 100 trees are dropped instead of 7 -/
theorem dart_not_share (r : Nat → Nat) : ⌈(100 : ℚ) * (7 / 100)⌉ = 7 ∧
    ∃ l, selectDrop true false (ceil64 (lit (7 / 100)) 100) 0 r 100 = .ok l ∧ l.length = 8 := by
  refine ⟨by norm_num, ?_⟩
  have e : ceil64 (lit (7 / 100)) 100 = 8 := by decide +kernel
  obtain ⟨l, h, hl, -⟩ := dropped_trees_partial (ceil64 (lit (7 / 100)) 100) 0 r 100 (by norm_num) (by rw [e]; norm_num)
  refine ⟨l, h, ?_⟩
  rw [e] at hl
  have : dropCount 8 0 = 8 := by decide
  rw [this] at hl
  exact_mod_cast hl

end Scigo.Round
