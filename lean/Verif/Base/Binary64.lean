import Verif.Base.Round
import Mathlib.Algebra.Order.Field.Power
import Mathlib.Algebra.Order.Floor.Ring
import Mathlib.Data.Rat.Floor
import Mathlib.Tactic.Ring
import Mathlib.Tactic.NormNum
import Mathlib.Tactic.Positivity
import Mathlib.Tactic.FieldSimp

/-!
# The rounding of binary64

Round to nearest, ties to even, 53 digits, gradual underflow; computable, so that examples can be run by the kernel. There is no largest
number: overflow is not modelled.
-/

namespace Scigo.Binary64

/-- `2 ^ e` (Go `float64`, cf. metrics/regression.go:53-56) -/
def pow2 : Int → ℚ
  | .ofNat n => ((2 ^ n : Nat) : ℚ)
  | .negSucc n => 1 / ((2 ^ (n + 1) : Nat) : ℚ)

theorem pow2_eq (e : Int) : pow2 e = (2 : ℚ) ^ e := by
  cases e with
  | ofNat n => simp [pow2]
  | negSucc n => simp [pow2, zpow_negSucc]

theorem pow2_pos (e : Int) : 0 < pow2 e := by rw [pow2_eq]; positivity

theorem pow2_add (a b : Int) : pow2 (a + b) = pow2 a * pow2 b := by
  rw [pow2_eq, pow2_eq, pow2_eq, zpow_add₀ (by norm_num)]

theorem pow2_le {a b : Int} (h : a ≤ b) : pow2 a ≤ pow2 b := by
  rw [pow2_eq, pow2_eq]
  exact zpow_le_zpow_right₀ (by norm_num) h

theorem pow2_lt_iff {a b : Int} : pow2 a < pow2 b ↔ a < b := by
  rw [pow2_eq, pow2_eq]
  exact zpow_lt_zpow_iff_right₀ (by norm_num)

theorem pow2_nat (n : Nat) : pow2 (n : Int) = ((2 ^ n : Nat) : ℚ) := rfl

/-- the exponent of the leading digit of a number that is not zero (Go `float64`, cf. metrics/regression.go:53-56) -/
def expo (q : ℚ) : Int :=
  let e : Int := (Nat.log2 q.num.natAbs : Int) - (Nat.log2 q.den : Int)
  if pow2 e ≤ |q| then e else e - 1

theorem abs_eq (q : ℚ) : |q| = (q.num.natAbs : ℚ) / (q.den : ℚ) := by
  conv_lhs => rw [← Rat.num_div_den q]
  rw [abs_div, Nat.abs_cast, Nat.cast_natAbs, Int.cast_abs]

theorem expo_spec (q : ℚ) (h : q ≠ 0) : pow2 (expo q) ≤ |q| ∧ |q| < pow2 (expo q + 1) := by
  have hn : q.num.natAbs ≠ 0 := by simpa using h
  have hd : q.den ≠ 0 := q.den_nz
  set n := q.num.natAbs
  have n1 : ((2 ^ Nat.log2 n : Nat) : ℚ) ≤ n := by exact_mod_cast Nat.log2_self_le hn
  have n2 : (n : ℚ) < ((2 ^ (Nat.log2 n + 1) : Nat) : ℚ) := by exact_mod_cast Nat.lt_log2_self
  have d1 : ((2 ^ Nat.log2 q.den : Nat) : ℚ) ≤ q.den := by exact_mod_cast Nat.log2_self_le hd
  have d2 : (q.den : ℚ) < ((2 ^ (Nat.log2 q.den + 1) : Nat) : ℚ) := by exact_mod_cast Nat.lt_log2_self
  rw [← pow2_nat] at n1 n2 d1 d2
  have hq : |q| = (n : ℚ) / (q.den : ℚ) := abs_eq q
  have dp : (0 : ℚ) < q.den := by exact_mod_cast q.den_pos
  have up : |q| < pow2 ((Nat.log2 n : Int) - (Nat.log2 q.den : Int) + 1) := by
    rw [hq, div_lt_iff₀ dp]
    refine lt_of_lt_of_le n2 ?_
    have e : ((Nat.log2 n + 1 : Nat) : Int) = ((Nat.log2 n : Int) - (Nat.log2 q.den : Int) + 1) + (Nat.log2 q.den : Int) := by
      push_cast; ring
    rw [e, pow2_add]
    exact mul_le_mul_of_nonneg_left d1 (pow2_pos _).le
  have lo : pow2 ((Nat.log2 n : Int) - (Nat.log2 q.den : Int) - 1) ≤ |q| := by
    rw [hq, le_div_iff₀ dp]
    refine le_trans ?_ n1
    have e : (Nat.log2 n : Int) = ((Nat.log2 n : Int) - (Nat.log2 q.den : Int) - 1) + ((Nat.log2 q.den + 1 : Nat) : Int) := by
      push_cast; ring
    conv_rhs => rw [e, pow2_add]
    exact mul_le_mul_of_nonneg_left d2.le (pow2_pos _).le
  unfold expo
  dsimp only
  split
  · rename_i h1
    exact ⟨h1, up⟩
  · rename_i h1
    refine ⟨lo, ?_⟩
    rw [sub_add_cancel]
    exact not_le.1 h1

theorem expo_neg (q : ℚ) : expo (-q) = expo q := by
  unfold expo
  simp

theorem expo_le {x y : ℚ} (hx : 0 < x) (h : x ≤ y) : expo x ≤ expo y := by
  have hy : 0 < y := lt_of_lt_of_le hx h
  have h1 := (expo_spec x hx.ne').1
  have h2 := (expo_spec y hy.ne').2
  rw [abs_of_pos hx] at h1
  rw [abs_of_pos hy] at h2
  have := pow2_lt_iff.1 (lt_of_le_of_lt (h1.trans h) h2)
  omega

/-- the nearest integer, the even one of two (IEEE 754 ties to even; Go `float64`, cf. metrics/regression.go:53-56) -/
def roundEven (q : ℚ) : Int :=
  let f := ⌊q⌋
  if q - f < 1 / 2 then f else if 1 / 2 < q - f then f + 1 else if f % 2 = 0 then f else f + 1

theorem roundEven_near (q : ℚ) : |(roundEven q : ℚ) - q| ≤ 1 / 2 := by
  have h1 := Int.floor_le q
  have h2 := Int.lt_floor_add_one q
  unfold roundEven
  dsimp only
  split
  · rw [abs_le]; constructor <;> linarith
  · split
    · rw [abs_le]; push_cast; constructor <;> linarith
    · split
      · rw [abs_le]; constructor <;> linarith
      · rw [abs_le]; push_cast; constructor <;> linarith

theorem roundEven_int (n : Int) : roundEven (n : ℚ) = n := by
  unfold roundEven
  simp

theorem roundEven_cases (q : ℚ) : roundEven q = ⌊q⌋ ∨ roundEven q = ⌊q⌋ + 1 := by
  unfold roundEven
  dsimp only
  split
  · exact Or.inl rfl
  · split
    · exact Or.inr rfl
    · split
      · exact Or.inl rfl
      · exact Or.inr rfl

theorem roundEven_mono {p q : ℚ} (h : p ≤ q) : roundEven p ≤ roundEven q := by
  have hf := Int.floor_le_floor h
  rcases hf.lt_or_eq with hlt | heq
  · rcases roundEven_cases p with h1 | h1 <;> rcases roundEven_cases q with h2 | h2 <;> omega
  · unfold roundEven
    dsimp only
    rw [heq]
    split_ifs <;> first | omega | (exfalso; linarith)

theorem roundEven_neg (q : ℚ) : roundEven (-q) = -roundEven q := by
  by_cases hi : ∃ n : Int, q = n
  · obtain ⟨n, rfl⟩ := hi
    rw [← Int.cast_neg, roundEven_int, roundEven_int]
  · have hlt : (⌊q⌋ : ℚ) < q := lt_of_le_of_ne (Int.floor_le q) (fun e => hi ⟨_, e.symm⟩)
    have hub := Int.lt_floor_add_one q
    have hfl : ⌊-q⌋ = -⌊q⌋ - 1 := by
      rw [Int.floor_eq_iff]
      push_cast
      constructor <;> linarith
    unfold roundEven
    dsimp only
    rw [hfl]
    push_cast
    split_ifs <;> first | omega | (exfalso; linarith)

/-- the exponent of the last digit kept (Go `float64`, cf. metrics/regression.go:53-56) -/
def last (q : ℚ) : Int := max (expo q - 52) (-1074)

/-- rounding to binary64 (Go `float64`, cf. metrics/regression.go:53-56) -/
def rnd (q : ℚ) : ℚ := if q = 0 then 0 else (roundEven (q / pow2 (last q)) : ℚ) * pow2 (last q)

theorem rnd_neg (q : ℚ) : rnd (-q) = -rnd q := by
  unfold rnd last
  rw [expo_neg, neg_div, roundEven_neg]
  by_cases h : q = 0
  · simp [h]
  · rw [if_neg (by simpa using h), if_neg h]
    push_cast
    ring

/-- binary64 numbers stay as they are -/
theorem rnd_exact (m e : Int) (hm : |m| < 2 ^ 53) (he : -1074 ≤ e) : rnd ((m : ℚ) * pow2 e) = (m : ℚ) * pow2 e := by
  by_cases h0 : m = 0
  · simp [h0, rnd]
  have hq : (m : ℚ) * pow2 e ≠ 0 := mul_ne_zero (by exact_mod_cast h0) (pow2_pos e).ne'
  obtain ⟨h1, -⟩ := expo_spec _ hq
  set q := (m : ℚ) * pow2 e with hqdef
  have hlt : |q| < pow2 (53 + e) := by
    rw [hqdef, abs_mul, abs_of_pos (pow2_pos e), pow2_add]
    refine mul_lt_mul_of_pos_right ?_ (pow2_pos e)
    have : ((|m| : Int) : ℚ) < ((2 ^ 53 : Int) : ℚ) := by exact_mod_cast hm
    rw [Int.cast_abs] at this
    refine lt_of_lt_of_eq this ?_
    norm_num [pow2]
  have hexp : expo q < 53 + e := pow2_lt_iff.1 (lt_of_le_of_lt h1 hlt)
  have hl : last q ≤ e := by
    unfold last
    omega
  obtain ⟨d, hd⟩ := Int.le.dest hl
  have hdiv : q / pow2 (last q) = ((m * 2 ^ d : Int) : ℚ) := by
    have e1 : q = (m : ℚ) * (pow2 (last q) * pow2 (d : Int)) := by
      rw [← pow2_add, hd]
    rw [div_eq_iff (pow2_pos _).ne']
    refine e1.trans ?_
    rw [pow2_nat]
    push_cast
    ring
  unfold rnd
  rw [if_neg hq, hdiv, roundEven_int, ← hdiv, div_mul_cancel₀ _ (pow2_pos _).ne']

theorem quot_bounds (q : ℚ) (h : q ≠ 0) : |q / pow2 (last q)| < pow2 53 := by
  obtain ⟨-, h2⟩ := expo_spec q h
  rw [abs_div, abs_of_pos (pow2_pos _), div_lt_iff₀ (pow2_pos _), ← pow2_add]
  refine lt_of_lt_of_le h2 (pow2_le ?_)
  unfold last
  omega

theorem roundEven_le (q : ℚ) (n : Int) (h : q ≤ n) : roundEven q ≤ n := by
  have := roundEven_mono h
  rwa [roundEven_int] at this

theorem le_roundEven (q : ℚ) (n : Int) (h : (n : ℚ) ≤ q) : n ≤ roundEven q := by
  have := roundEven_mono h
  rwa [roundEven_int] at this

theorem pow2_53 : pow2 53 = ((2 ^ 53 : Int) : ℚ) := by norm_num [pow2]

theorem digits_bound (q : ℚ) (h : q ≠ 0) : |roundEven (q / pow2 (last q))| ≤ 2 ^ 53 := by
  have hb := quot_bounds q h
  rw [pow2_53, abs_lt] at hb
  rw [abs_le]
  constructor
  · exact le_roundEven _ _ (by push_cast at hb ⊢; exact hb.1.le)
  · exact roundEven_le _ _ hb.2.le

theorem rnd_idem (q : ℚ) : rnd (rnd q) = rnd q := by
  by_cases h : q = 0
  · simp [h, rnd]
  have hl : -1074 ≤ last q := by unfold last; omega
  have e1 : rnd q = (roundEven (q / pow2 (last q)) : ℚ) * pow2 (last q) := by unfold rnd; rw [if_neg h]
  rw [e1]
  rcases (digits_bound q h).lt_or_eq with hlt | heq
  · exact rnd_exact _ _ hlt hl
  · have h2 : pow2 (last q + 1) = pow2 (last q) * 2 := by
      rw [pow2_add]
      norm_num [pow2]
    rcases (abs_eq_abs (a := roundEven (q / pow2 (last q))) (b := 2 ^ 53)).1 (by rw [heq]; norm_num) with h3 | h3
    · have e : (roundEven (q / pow2 (last q)) : ℚ) * pow2 (last q) = ((2 ^ 52 : Int) : ℚ) * pow2 (last q + 1) := by
        rw [h3, h2]
        push_cast
        ring
      rw [e]
      exact rnd_exact _ _ (by norm_num) (by omega)
    · have e : (roundEven (q / pow2 (last q)) : ℚ) * pow2 (last q) = ((-(2 ^ 52) : Int) : ℚ) * pow2 (last q + 1) := by
        rw [h3, h2]
        push_cast
        ring
      rw [e]
      exact rnd_exact _ _ (by norm_num) (by omega)

theorem rnd_pos_mono {x y : ℚ} (hx : 0 < x) (h : x ≤ y) : rnd x ≤ rnd y := by
  have hy : 0 < y := lt_of_lt_of_le hx h
  have hexp := expo_le hx h
  unfold rnd
  rw [if_neg hx.ne', if_neg hy.ne']
  have hl : last x ≤ last y := by unfold last; omega
  rcases hl.lt_or_eq with hlt | heq
  · have hy' : last y = expo y - 52 := by unfold last at hlt ⊢; omega
    have h1 : (roundEven (x / pow2 (last x)) : ℚ) ≤ pow2 53 := by
      have := digits_bound x hx.ne'
      rw [abs_le] at this
      rw [pow2_53]
      exact_mod_cast this.2
    have h2 : pow2 52 ≤ (roundEven (y / pow2 (last y)) : ℚ) := by
      have e52 : pow2 52 = ((2 ^ 52 : Int) : ℚ) := by norm_num [pow2]
      rw [e52]
      have : (2 ^ 52 : Int) ≤ roundEven (y / pow2 (last y)) := by
        refine le_roundEven _ _ ?_
        rw [← e52, le_div_iff₀ (pow2_pos _), ← pow2_add, hy']
        have := (expo_spec y hy.ne').1
        rw [abs_of_pos hy] at this
        refine le_of_eq_of_le ?_ this
        congr 1
        ring
      exact_mod_cast this
    calc (roundEven (x / pow2 (last x)) : ℚ) * pow2 (last x) ≤ pow2 53 * pow2 (last x) := mul_le_mul_of_nonneg_right h1 (pow2_pos _).le
      _ = pow2 (53 + last x) := (pow2_add _ _).symm
      _ ≤ pow2 (52 + last y) := pow2_le (by omega)
      _ = pow2 52 * pow2 (last y) := pow2_add _ _
      _ ≤ _ := mul_le_mul_of_nonneg_right h2 (pow2_pos _).le
  · rw [heq]
    refine mul_le_mul_of_nonneg_right ?_ (pow2_pos _).le
    exact_mod_cast roundEven_mono (div_le_div_of_nonneg_right h (pow2_pos _).le)

theorem rnd_nonneg {x : ℚ} (h : 0 ≤ x) : 0 ≤ rnd x := by
  unfold rnd
  split
  · exact le_refl _
  · refine mul_nonneg ?_ (pow2_pos _).le
    have : (0 : Int) ≤ roundEven (x / pow2 (last x)) := le_roundEven _ _ (by simpa using div_nonneg h (pow2_pos _).le)
    exact_mod_cast this

theorem rnd_mono : Monotone rnd := by
  intro x y h
  rcases lt_trichotomy x 0 with hx | rfl | hx
  · rcases lt_or_ge y 0 with hy | hy
    · have := rnd_pos_mono (x := -y) (y := -x) (by linarith) (by linarith)
      rw [rnd_neg, rnd_neg] at this
      linarith
    · have := rnd_nonneg (x := -x) (by linarith)
      rw [rnd_neg] at this
      have := rnd_nonneg hy
      linarith
  · have : rnd 0 = 0 := by simp [rnd]
    rw [this]
    exact rnd_nonneg h
  · exact rnd_pos_mono hx h

/-- binary64 without overflow (Go `float64`, cf. metrics/regression.go:53-56) -/
def rounding : Rounding ℚ where
  rnd := rnd
  mono := rnd_mono
  idem := rnd_idem
  neg := rnd_neg
  one := by
    have := rnd_exact 1 0 (by norm_num) (by norm_num)
    simpa [pow2] using this

/-- the error of one operation: half a unit in the last place, or half the smallest positive number -/
theorem accurate : rounding.Accurate (1 / 2 ^ 53) (1 / 2 ^ 1075) := by
  intro q
  show |rnd q - q| ≤ _
  by_cases h : q = 0
  · simp [h, rnd]
  have hp := pow2_pos (last q)
  have e : rnd q - q = ((roundEven (q / pow2 (last q)) : ℚ) - q / pow2 (last q)) * pow2 (last q) := by
    unfold rnd
    rw [if_neg h, sub_mul, div_mul_cancel₀ _ hp.ne']
  have hb : |rnd q - q| ≤ pow2 (last q - 1) := by
    rw [e, abs_mul, abs_of_pos hp]
    have := mul_le_mul_of_nonneg_right (roundEven_near (q / pow2 (last q))) hp.le
    refine this.trans (le_of_eq ?_)
    rw [sub_eq_add_neg, pow2_add, show pow2 (-1) = 1 / 2 from by rw [pow2_eq, zpow_neg, zpow_one, one_div]]
    ring
  have hq := (expo_spec q h).1
  have e53 : pow2 (-53) = 1 / 2 ^ 53 := by rw [pow2_eq, zpow_neg, one_div]; norm_cast
  have e1075 : pow2 (-1075) = 1 / 2 ^ 1075 := by rw [pow2_eq, zpow_neg, one_div]; norm_cast
  rw [← e53, ← e1075]
  rcases max_choice (expo q - 52) (-1074) with hm | hm
  · have hl : last q = expo q - 52 := hm
    rw [hl] at hb
    have e2 : pow2 (expo q - 52 - 1) = pow2 (-53) * pow2 (expo q) := by
      rw [← pow2_add]
      congr 1
      ring
    rw [e2] at hb
    have := mul_le_mul_of_nonneg_left hq (pow2_pos (-53)).le
    have := (pow2_pos (-1075)).le
    linarith
  · have hl : last q = -1074 := hm
    rw [hl] at hb
    have := mul_nonneg (pow2_pos (-53)).le (abs_nonneg q)
    have e3 : pow2 (-1074 - 1) = pow2 (-1075) := rfl
    linarith

/-- whole numbers up to `2 ^ 53` are representable -/
theorem nat_exact (n : Nat) (h : n < 2 ^ 53) : rounding.rnd (n : ℚ) = n := by
  have := rnd_exact n 0 (by rw [Nat.abs_cast]; exact_mod_cast h) (by norm_num)
  show rnd (n : ℚ) = n
  simpa [pow2] using this

/-- a float64 constant (Go constants are rounded to float64, cf. preprocessing/scaler.go:155) -/
def lit (q : ℚ) : Fl rounding := Fl.of rounding q

/-- `0.1 + 0.2` is not `0.3`, but the next number -/
example : (lit (1 / 10) + lit (2 / 10)).val = (lit (3 / 10)).val + 1 / 2 ^ 54 ∧ (lit (1 / 10) + lit (2 / 10)) ≠ lit (3 / 10) := by
  decide +kernel

end Scigo.Binary64
