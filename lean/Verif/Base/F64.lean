import Verif.Base.Binary64

/-!
# binary64 with overflow

`F64` is binary64 with infinities and NaN: the finite numbers are those of `Verif/Base/Binary64.lean` up to the largest one, a result that is larger becomes
infinite. Simplified: there is one zero, so a quotient by zero has the sign of the dividend (IEEE 754 and Go also look at the sign of the zero); there is one NaN.
`F64.lift` embeds the numbers of `Fl Binary64.rounding`; as long as nothing overflows, computations on `F64` are computations there.
-/

namespace Scigo

/-- the largest finite `float64` (Go `math.MaxFloat64`, cf. sklearn/linear_model/logistic.go:465-480) -/
def maxF64 : ℚ := (2 ^ 53 - 1) * 2 ^ 971

/-- a `float64` (Go `float64`, used throughout, cf. metrics/regression.go:53-56) -/
inductive F64
  | fin (q : { q : ℚ // Binary64.rnd q = q ∧ |q| ≤ maxF64 })
  | inf (neg : Bool)
  | nan
  deriving DecidableEq

namespace F64

/-- the `float64` nearest to a number, infinite if that is too large (IEEE 754 rounding, cf. metrics/regression.go:53-56) -/
def round (q : ℚ) : F64 :=
  if h : |Binary64.rnd q| ≤ maxF64 then .fin ⟨Binary64.rnd q, Binary64.rnd_idem q, h⟩ else .inf (decide (q < 0))

/-- a number without overflow as a `float64` (Go `float64`, cf. metrics/regression.go:53-56) -/
def lift (x : Fl Binary64.rounding) : F64 := round x.val

/-- sign change (Go `float64`, cf. metrics/regression.go:53-56) -/
def neg : F64 → F64
  | nan => nan
  | inf s => inf (!s)
  | fin q => round (-q.1)

/-- IEEE addition (Go `float64`, cf. metrics/regression.go:53-56) -/
def add : F64 → F64 → F64
  | nan, _ => nan
  | _, nan => nan
  | fin x, fin y => round (x.1 + y.1)
  | fin _, inf s => inf s
  | inf s, fin _ => inf s
  | inf s, inf t => if s = t then inf s else nan

/-- IEEE subtraction (Go `float64`, cf. metrics/regression.go:53-56) -/
def sub (a b : F64) : F64 :=
  match a, b with
  | nan, _ => nan
  | _, nan => nan
  | fin x, fin y => round (x.1 - y.1)
  | fin _, inf s => inf (!s)
  | inf s, fin _ => inf s
  | inf s, inf t => if s = t then nan else inf s

/-- IEEE multiplication; `0 * Inf = NaN` (Go `float64`, cf. metrics/regression.go:53-56) -/
def mul : F64 → F64 → F64
  | nan, _ => nan
  | _, nan => nan
  | fin x, fin y => round (x.1 * y.1)
  | fin x, inf s => if x.1 = 0 then nan else inf (s != decide (x.1 < 0))
  | inf s, fin x => if x.1 = 0 then nan else inf (s != decide (x.1 < 0))
  | inf s, inf t => inf (s != t)

/-- IEEE division; a zero divisor counts as `+0` (Go `float64`, cf. metrics/regression.go:53-56) -/
def div : F64 → F64 → F64
  | nan, _ => nan
  | _, nan => nan
  | fin x, fin y => if y.1 = 0 then (if x.1 = 0 then nan else inf (decide (x.1 < 0))) else round (x.1 / y.1)
  | fin _, inf _ => round 0
  | inf s, fin x => inf (s != decide (x.1 < 0))
  | inf _, inf _ => nan

/-- `<`, false for NaN (Go `float64`, cf. metrics/regression.go:53-56) -/
def ltB : F64 → F64 → Bool
  | nan, _ => false
  | _, nan => false
  | fin x, fin y => decide (x.1 < y.1)
  | fin _, inf s => !s
  | inf s, fin _ => s
  | inf s, inf t => s && !t

/-- `==`, false for NaN (Go `float64`, cf. metrics/regression.go:53-56) -/
def eqB : F64 → F64 → Bool
  | nan, _ => false
  | _, nan => false
  | a, b => decide (a = b)

instance : Zero F64 := ⟨round 0⟩
instance : One F64 := ⟨round 1⟩
instance : Add F64 := ⟨add⟩
instance : Sub F64 := ⟨sub⟩
instance : Neg F64 := ⟨neg⟩
instance : Mul F64 := ⟨mul⟩
instance : Div F64 := ⟨div⟩
instance : NatCast F64 := ⟨fun n => round n⟩
instance : LT F64 := ⟨fun a b => ltB a b = true⟩
instance : LE F64 := ⟨fun a b => ltB a b = true ∨ eqB a b = true⟩
instance : DecidableLT F64 := fun a b => inferInstanceAs (Decidable (ltB a b = true))
instance : DecidableLE F64 := fun a b => inferInstanceAs (Decidable (ltB a b = true ∨ eqB a b = true))
instance : BEq F64 := ⟨eqB⟩

/-- the number is neither infinite nor NaN (cf. pkg/errors/numerical.go:20-60) -/
def IsFin : F64 → Prop
  | fin _ => True
  | _ => False

instance : DecidablePred IsFin := fun a => by cases a <;> unfold IsFin <;> infer_instance

/-- absolute value (Go `math.Abs`, cf. metrics/regression.go:92) -/
def abs : F64 → F64
  | nan => nan
  | inf _ => inf false
  | fin q => if q.1 < 0 then round (-q.1) else fin q

theorem maxF64_pos : 0 < maxF64 := by norm_num [maxF64]

theorem maxF64_rep : Binary64.rnd maxF64 = maxF64 := by
  have := Binary64.rnd_exact (2 ^ 53 - 1) 971 (by norm_num) (by norm_num)
  have e : (((2 ^ 53 - 1 : Int) : ℚ)) * Binary64.pow2 971 = maxF64 := by
    have e1 : Binary64.pow2 971 = 2 ^ 971 := by rw [Binary64.pow2_eq]; exact zpow_natCast 2 971
    have e2 : ((2 ^ 53 - 1 : Int) : ℚ) = 2 ^ 53 - 1 := by norm_num
    rw [e1, e2, maxF64]
  rwa [e] at this

/-- rounding does not leave an interval with representable ends -/
theorem rnd_abs_le {q B : ℚ} (hB : Binary64.rnd B = B) (h : |q| ≤ B) : |Binary64.rnd q| ≤ B := by
  rw [abs_le] at h ⊢
  have h1 := Binary64.rnd_mono h.1
  have h2 := Binary64.rnd_mono h.2
  rw [Binary64.rnd_neg] at h1
  rw [hB] at h1 h2
  exact ⟨h1, h2⟩

theorem round_fin {q : ℚ} (h : |Binary64.rnd q| ≤ maxF64) : round q = .fin ⟨Binary64.rnd q, Binary64.rnd_idem q, h⟩ := dif_pos h

section
variable {x y : Fl Binary64.rounding}

theorem lift_fin (h : |x.val| ≤ maxF64) : lift x = .fin ⟨x.val, x.rep, h⟩ := by
  have hr : Binary64.rnd x.val = x.val := x.rep
  have h' : |Binary64.rnd x.val| ≤ maxF64 := by rw [hr]; exact h
  unfold lift
  rw [round_fin h']
  congr 1
  exact Subtype.ext hr

theorem lift_isFin (h : |x.val| ≤ maxF64) : (lift x).IsFin := by rw [lift_fin h]; trivial

theorem round_rnd (q : ℚ) : round (Binary64.rnd q) = round q := by
  by_cases h : |Binary64.rnd q| ≤ maxF64
  · rw [round_fin h, round_fin (by rw [Binary64.rnd_idem]; exact h)]
    congr 1
    exact Subtype.ext (Binary64.rnd_idem q)
  · have h0 : Binary64.rnd 0 = 0 := Binary64.rounding.zero
    have hne : Binary64.rnd q ≠ 0 := fun e => h (by rw [e, abs_zero]; exact maxF64_pos.le)
    unfold round
    rw [dif_neg (by rw [Binary64.rnd_idem]; exact h), dif_neg h]
    congr 1
    rw [decide_eq_decide]
    constructor
    · intro hq
      by_contra hc
      have := Binary64.rnd_nonneg (not_lt.1 hc)
      linarith
    · intro hq
      have := Binary64.rnd_mono hq.le
      rw [h0] at this
      exact lt_of_le_of_ne this hne

theorem lift_add (hx : |x.val| ≤ maxF64) (hy : |y.val| ≤ maxF64) : lift x + lift y = lift (x + y) := by
  rw [lift_fin hx, lift_fin hy]
  exact (round_rnd _).symm

theorem lift_sub (hx : |x.val| ≤ maxF64) (hy : |y.val| ≤ maxF64) : lift x - lift y = lift (x - y) := by
  rw [lift_fin hx, lift_fin hy]
  exact (round_rnd _).symm

theorem lift_mul (hx : |x.val| ≤ maxF64) (hy : |y.val| ≤ maxF64) : lift x * lift y = lift (x * y) := by
  rw [lift_fin hx, lift_fin hy]
  exact (round_rnd _).symm

theorem lift_div (hx : |x.val| ≤ maxF64) (hy : |y.val| ≤ maxF64) (h0 : y.val ≠ 0) : lift x / lift y = lift (x / y) := by
  rw [lift_fin hx, lift_fin hy]
  show (if y.val = 0 then _ else round (x.val / y.val)) = _
  rw [if_neg h0]
  exact (round_rnd _).symm

theorem lift_neg (hx : |x.val| ≤ maxF64) : -lift x = lift (-x) := by
  rw [lift_fin hx]
  rfl

theorem lift_zero : lift 0 = 0 := rfl
theorem lift_one : lift 1 = 1 := rfl
theorem lift_natCast (n : Nat) : lift (n : Fl Binary64.rounding) = (n : F64) := round_rnd _

theorem lift_lt (hx : |x.val| ≤ maxF64) (hy : |y.val| ≤ maxF64) : lift x < lift y ↔ x < y := by
  rw [lift_fin hx, lift_fin hy]
  show decide (x.val < y.val) = true ↔ _
  rw [decide_eq_true_iff, Fl.lt_iff]

theorem lift_eq (hx : |x.val| ≤ maxF64) (hy : |y.val| ≤ maxF64) : (lift x == lift y) = decide (x = y) := by
  rw [lift_fin hx, lift_fin hy]
  show decide _ = _
  rw [decide_eq_decide, F64.fin.injEq, Subtype.mk.injEq]
  exact ⟨fun h => Fl.ext h, fun h => h ▸ rfl⟩

theorem lift_le (hx : |x.val| ≤ maxF64) (hy : |y.val| ≤ maxF64) : lift x ≤ lift y ↔ x ≤ y := by
  show lift x < lift y ∨ (lift x == lift y) = true ↔ _
  rw [lift_lt hx hy, lift_eq hx hy, decide_eq_true_iff, le_iff_lt_or_eq]

theorem lift_abs (hx : |x.val| ≤ maxF64) : (lift x).abs = lift x.abs := by
  unfold Fl.abs
  rw [lift_fin hx]
  show (if x.val < 0 then _ else _) = _
  split
  · rfl
  · exact (lift_fin hx).symm

/-- a bound that survives the rounding -/
theorem add_bound {A B C : ℚ} (hx : |x.val| ≤ A) (hy : |y.val| ≤ B) (hC : Binary64.rnd C = C) (h : A + B ≤ C) : |(x + y).val| ≤ C :=
  rnd_abs_le hC (((abs_add_le _ _).trans (add_le_add hx hy)).trans h)

theorem sub_bound {A B C : ℚ} (hx : |x.val| ≤ A) (hy : |y.val| ≤ B) (hC : Binary64.rnd C = C) (h : A + B ≤ C) : |(x - y).val| ≤ C :=
  rnd_abs_le hC (((abs_sub _ _).trans (add_le_add hx hy)).trans h)

theorem mul_bound {A B C : ℚ} (hx : |x.val| ≤ A) (hy : |y.val| ≤ B) (hC : Binary64.rnd C = C) (h : A * B ≤ C) : |(x * y).val| ≤ C :=
  rnd_abs_le hC (by
    rw [abs_mul]
    exact (mul_le_mul hx hy (abs_nonneg _) ((abs_nonneg _).trans hx)).trans h)

theorem div_bound {A C : ℚ} (hx : |x.val| ≤ A) (hy : 1 ≤ |y.val|) (hC : Binary64.rnd C = C) (h : A ≤ C) : |(x / y).val| ≤ C :=
  rnd_abs_le hC (by
    rw [abs_div]
    exact (div_le_self (abs_nonneg _) hy).trans (hx.trans h))

end

/-- powers of two times small whole numbers are representable -/
theorem rep_mul_pow (m k : Nat) (hm : m < 2 ^ 53) : Binary64.rnd ((m : ℚ) * 2 ^ k) = (m : ℚ) * 2 ^ k := by
  have := Binary64.rnd_exact m k (by rw [Nat.abs_cast]; exact_mod_cast hm) (by omega)
  rw [Binary64.pow2_eq] at this
  simpa using this

theorem rep_pow (k : Nat) : Binary64.rnd (2 ^ k) = 2 ^ k := by
  have := rep_mul_pow 1 k (by norm_num)
  simpa using this

theorem pow_le_max {k : Nat} (h : k ≤ 1023) : (2 : ℚ) ^ k ≤ maxF64 := by
  have h1 : (2 : ℚ) ^ k ≤ 2 ^ 1023 := pow_le_pow_right₀ (by norm_num) h
  have h2 : (2 : ℚ) ^ 1023 ≤ maxF64 := by
    unfold maxF64
    rw [show (1023 : Nat) = 52 + 971 from rfl, pow_add]
    exact mul_le_mul_of_nonneg_right (by norm_num) (by positivity)
  exact h1.trans h2

/-- the largest number plus itself is infinite, and infinity minus itself no number -/
example : (round maxF64 + round maxF64 = inf false) ∧ round maxF64 + round maxF64 - (round maxF64 + round maxF64) = nan ∧ (nan == nan) = false := by decide +kernel

end F64

end Scigo
