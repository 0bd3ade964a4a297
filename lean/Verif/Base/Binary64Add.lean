import Verif.Base.Binary64
import Mathlib.Tactic.Ring

/-!
# Sums and differences of float64 do not underflow
-/

namespace Scigo

variable {K : Type _} [Field K] [LinearOrder K] [IsStrictOrderedRing K]

/-- sums of representable numbers have a relative error of at most `eps`, however small they are (Go `float64`, cf.
metrics/regression.go:53-56) -/
def Rounding.AddAccurate (R : Rounding K) (eps : K) : Prop :=
  ∀ a b, R.rnd a = a → R.rnd b = b → |R.rnd (a + b) - (a + b)| ≤ eps * |a + b|

theorem Rounding.AddAccurate.sub {R : Rounding K} {eps : K} (h : R.AddAccurate eps) (a b : K) (ha : R.rnd a = a) (hb : R.rnd b = b) :
    |R.rnd (a - b) - (a - b)| ≤ eps * |a - b| := by
  have := h a (-b) ha (by rw [R.neg, hb])
  rwa [← sub_eq_add_neg] at this

/-- the difference of two numbers within a factor of two of each other is representable (Go `float64`, cf. metrics/classification.go:151) -/
def Rounding.Sterbenz (R : Rounding K) : Prop := ∀ a b, R.rnd a = a → R.rnd b = b → a ≤ b → b ≤ 2 * a → R.rnd (b - a) = b - a

namespace Binary64

/-- every float64 is a multiple of the smallest positive one -/
theorem multiple {q : ℚ} (h : rnd q = q) : ∃ m : Int, q = m * pow2 (-1074) := by
  by_cases h0 : q = 0
  · exact ⟨0, by simp [h0]⟩
  have hl : 0 ≤ last q + 1074 := by unfold last; omega
  have e : rnd q = (roundEven (q / pow2 (last q)) : ℚ) * pow2 (last q) := by unfold rnd; rw [if_neg h0]
  refine ⟨roundEven (q / pow2 (last q)) * 2 ^ (last q + 1074).toNat, ?_⟩
  have e2 : pow2 (last q) = (2 : ℚ) ^ (last q + 1074).toNat * pow2 (-1074) := by
    have h1 : pow2 (((last q + 1074).toNat : Nat) : Int) = (2 : ℚ) ^ (last q + 1074).toNat := by rw [pow2_nat]; push_cast; rfl
    rw [← h1, Int.toNat_of_nonneg hl, ← pow2_add]
    congr 1
    omega
  push_cast
  rw [mul_assoc, ← e2, ← e]
  exact h.symm

theorem add_accurate : rounding.AddAccurate (1 / 2 ^ 53) := by
  intro a b ha hb
  obtain ⟨m, hm⟩ := multiple ha
  obtain ⟨n, hn⟩ := multiple hb
  have hab : a + b = ((m + n : Int) : ℚ) * pow2 (-1074) := by rw [hm, hn]; push_cast; ring
  have e53 : pow2 (-53) = 1 / 2 ^ 53 := by rw [pow2_eq, zpow_neg, one_div]; norm_cast
  by_cases hs : |m + n| < 2 ^ 53
  · have : rounding.rnd (a + b) = a + b := by
      rw [hab]
      exact rnd_exact _ _ hs (le_refl _)
    rw [this, sub_self, abs_zero]
    positivity
  · have h53 : pow2 (-1021) ≤ |a + b| := by
      have h1 : (2 : ℚ) ^ 53 ≤ |((m + n : Int) : ℚ)| := by exact_mod_cast not_lt.1 hs
      rw [hab, abs_mul, abs_of_pos (pow2_pos _)]
      have h2 := mul_le_mul_of_nonneg_right h1 (pow2_pos (-1074)).le
      refine le_trans (le_of_eq ?_) h2
      rw [show (-1021 : Int) = 53 + -1074 from rfl, pow2_add, pow2_53]
      push_cast
      rfl
    have h0 : a + b ≠ 0 := by
      intro h
      rw [h, abs_zero] at h53
      exact absurd (pow2_pos (-1021)) (not_lt.2 h53)
    have hex : -1021 ≤ expo (a + b) := by
      have h2 := lt_of_le_of_lt h53 (expo_spec _ h0).2
      rw [pow2_lt_iff] at h2
      omega
    have hl : last (a + b) = expo (a + b) - 52 := by unfold last; omega
    show |rnd (a + b) - (a + b)| ≤ _
    have hp := pow2_pos (last (a + b))
    set q := a + b
    have e : rnd q - q = ((roundEven (q / pow2 (last q)) : ℚ) - q / pow2 (last q)) * pow2 (last q) := by
      unfold rnd
      rw [if_neg h0, sub_mul, div_mul_cancel₀ _ hp.ne']
    rw [e, abs_mul, abs_of_pos hp, ← e53]
    have h3 := mul_le_mul_of_nonneg_right (roundEven_near (q / pow2 (last q))) hp.le
    refine h3.trans ?_
    have h4 := mul_le_mul_of_nonneg_left (expo_spec q h0).1 (pow2_pos (-53)).le
    refine le_trans (le_of_eq ?_) h4
    rw [hl, ← pow2_add, show -53 + expo q = -1 + (expo q - 52) from by ring, pow2_add (-1),
      show pow2 (-1) = 1 / 2 from by rw [pow2_eq, zpow_neg, zpow_one, one_div]]

theorem sterbenz : rounding.Sterbenz := by
  intro a b ha hb hab hba
  by_cases h0 : a = 0
  · subst h0
    have : b = 0 := le_antisymm (by linarith) hab
    rw [this, sub_zero]
    exact rounding.zero
  have hapos : 0 < a := lt_of_le_of_ne (by linarith) (Ne.symm h0)
  have hb0 : b ≠ 0 := (lt_of_lt_of_le hapos hab).ne'
  have ea : a = (roundEven (a / pow2 (last a)) : ℚ) * pow2 (last a) := by
    have : rnd a = a := ha
    unfold rnd at this; rw [if_neg h0] at this; exact this.symm
  have eb : b = (roundEven (b / pow2 (last b)) : ℚ) * pow2 (last b) := by
    have : rnd b = b := hb
    unfold rnd at this; rw [if_neg hb0] at this; exact this.symm
  have hl : last a ≤ last b := by
    have := expo_le hapos hab
    unfold last; omega
  have hla : -1074 ≤ last a := by unfold last; omega
  have e2 : pow2 (last b) = ((2 ^ (last b - last a).toNat : Int) : ℚ) * pow2 (last a) := by
    have h1 : pow2 (((last b - last a).toNat : Nat) : Int) = ((2 ^ (last b - last a).toNat : Int) : ℚ) := by rw [pow2_nat]; push_cast; rfl
    rw [← h1, Int.toNat_of_nonneg (by omega), ← pow2_add]
    congr 1
    omega
  have hq := quot_bounds a h0
  generalize hm : roundEven (a / pow2 (last a)) = m at ea
  generalize roundEven (b / pow2 (last b)) = n at eb
  rw [e2, ← mul_assoc, ← Int.cast_mul] at eb
  generalize n * 2 ^ (last b - last a).toNat = n' at eb
  have hp := pow2_pos (last a)
  have e : b - a = ((n' - m : Int) : ℚ) * pow2 (last a) := by
    rw [Int.cast_sub, sub_mul, ← ea, ← eb]
  have hbd : ((n' - m : Int) : ℚ) * pow2 (last a) ≤ m * pow2 (last a) := by rw [← e, ← ea]; linarith
  have hbd0 : 0 ≤ ((n' - m : Int) : ℚ) * pow2 (last a) := by rw [← e]; linarith
  have h1 : n' - m ≤ m := by exact_mod_cast le_of_mul_le_mul_right hbd hp
  have h2 : 0 ≤ n' - m := by exact_mod_cast nonneg_of_mul_nonneg_left hbd0 hp
  have h3 : m < 2 ^ 53 := by
    have e3 : a / pow2 (last a) = m := (div_eq_iff hp.ne').2 ea
    rw [e3, pow2_53] at hq
    exact_mod_cast (abs_lt.1 hq).2
  rw [e]
  refine rnd_exact _ _ ?_ hla
  rw [abs_of_nonneg h2]
  exact lt_of_le_of_lt h1 h3

theorem expo_two_mul {z : ℚ} (h : 0 < z) : expo (2 * z) = expo z + 1 := by
  obtain ⟨l1, u1⟩ := expo_spec z h.ne'
  obtain ⟨l2, u2⟩ := expo_spec (2 * z) (by linarith)
  rw [abs_of_pos h] at l1 u1
  rw [abs_of_pos (by linarith)] at l2 u2
  have e : ∀ k, pow2 (k + 1) = 2 * pow2 k := fun k => by rw [pow2_add, show pow2 1 = 2 from by norm_num [pow2], mul_comm]
  have h1 : pow2 (expo (2 * z)) < pow2 (expo z + 1 + 1) := by
    rw [e (expo z + 1)]
    linarith
  have h2 : pow2 (expo z + 1) < pow2 (expo (2 * z) + 1) := by
    rw [e (expo z)]
    linarith
  rw [pow2_lt_iff] at h1 h2
  omega

/-- without underflow, rounding and doubling commute -/
theorem rnd_two_mul {z : ℚ} (h : pow2 (-1022) ≤ z) : rnd (2 * z) = 2 * rnd z := by
  have hz : 0 < z := lt_of_lt_of_le (pow2_pos _) h
  have hx : -1022 ≤ expo z := by
    have h1 := (expo_spec z hz.ne').2
    rw [abs_of_pos hz] at h1
    have := lt_of_le_of_lt h h1
    rw [pow2_lt_iff] at this
    omega
  have hl : last (2 * z) = last z + 1 := by
    unfold last
    rw [expo_two_mul hz]
    omega
  unfold rnd
  have h2 : 2 * z ≠ 0 := by linarith
  rw [if_neg hz.ne', if_neg h2, hl, pow2_add, show pow2 1 = 2 from by norm_num [pow2], mul_comm (pow2 (last z)) 2,
    mul_div_mul_left _ _ (two_ne_zero)]
  ring

end Binary64

end Scigo
