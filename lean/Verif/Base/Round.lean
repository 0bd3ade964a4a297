import Mathlib.Algebra.Order.Field.Basic
import Mathlib.Algebra.Order.Group.Abs
import Mathlib.Data.Nat.Cast.Order.Field
import Mathlib.Tactic.Linarith

/-!
# Numbers with rounded arithmetic

`Fl R` is the set of numbers that a rounding `R` leaves alone, with every operation followed by `R`. The models of this project take
their arithmetic as instance arguments, so they can be run on `Fl R`. Not modelled: overflow (there is no largest number), NaN and the
sign of zero; a quotient by zero is zero, so theorems about quotients come with a divisor that is not zero.
-/

namespace Scigo

variable {K : Type _} [Field K] [LinearOrder K] [IsStrictOrderedRing K]

/-- a rounding of exact results to representable numbers, as IEEE 754 demands of `+ - * /` (Go `float64`, used throughout, e.g.
metrics/regression.go:53-56): monotone, symmetric, leaves its own results and 1 alone -/
structure Rounding (K : Type _) [Field K] [LinearOrder K] where
  rnd : K → K
  mono : Monotone rnd
  idem : ∀ x, rnd (rnd x) = rnd x
  neg : ∀ x, rnd (-x) = -rnd x
  one : rnd 1 = 1

/-- the relative error of a rounding is at most `eps`, or its absolute error at most `eta` (Go `float64`, cf. metrics/regression.go:53-56) -/
def Rounding.Accurate (R : Rounding K) (eps eta : K) : Prop := ∀ x, |R.rnd x - x| ≤ eps * |x| + eta

/-- representable numbers (Go `float64`, cf. metrics/regression.go:53-56) -/
def Fl (R : Rounding K) : Type _ := { x : K // R.rnd x = x }

namespace Rounding

variable (R : Rounding K)

theorem zero : R.rnd 0 = 0 := by
  have := R.neg 0
  rw [neg_zero] at this
  linarith

theorem nonneg {x : K} (h : 0 ≤ x) : 0 ≤ R.rnd x := R.zero ▸ R.mono h

theorem nonpos {x : K} (h : x ≤ 0) : R.rnd x ≤ 0 := by
  have := R.mono h
  rwa [R.zero] at this

end Rounding

namespace Fl

variable {R : Rounding K}

/-- the number itself (Go `float64`, cf. metrics/regression.go:53-56) -/
def val (a : Fl R) : K := a.1

theorem rep (a : Fl R) : R.rnd a.val = a.val := a.2

@[ext] theorem ext {a b : Fl R} (h : a.val = b.val) : a = b := Subtype.ext h

/-- the rounded value of an exact result (Go `float64`, cf. metrics/regression.go:53-56) -/
def of (R : Rounding K) (x : K) : Fl R := ⟨R.rnd x, R.idem x⟩

@[simp] theorem val_of (x : K) : (of R x).val = R.rnd x := rfl

instance : Zero (Fl R) := ⟨⟨0, R.zero⟩⟩
instance : One (Fl R) := ⟨⟨1, R.one⟩⟩
instance : Add (Fl R) := ⟨fun a b => of R (a.val + b.val)⟩
instance : Sub (Fl R) := ⟨fun a b => of R (a.val - b.val)⟩
instance : Mul (Fl R) := ⟨fun a b => of R (a.val * b.val)⟩
instance : Div (Fl R) := ⟨fun a b => of R (a.val / b.val)⟩
instance : Neg (Fl R) := ⟨fun a => ⟨-a.val, by rw [R.neg, a.rep]⟩⟩
instance : NatCast (Fl R) := ⟨fun n => of R (n : K)⟩
instance : IntCast (Fl R) := ⟨fun n => of R (n : K)⟩
instance : LinearOrder (Fl R) := inferInstanceAs (LinearOrder { x : K // R.rnd x = x })

@[simp] theorem val_zero : (0 : Fl R).val = 0 := rfl
@[simp] theorem val_one : (1 : Fl R).val = 1 := rfl
theorem val_add (a b : Fl R) : (a + b).val = R.rnd (a.val + b.val) := rfl
theorem val_sub (a b : Fl R) : (a - b).val = R.rnd (a.val - b.val) := rfl
theorem val_mul (a b : Fl R) : (a * b).val = R.rnd (a.val * b.val) := rfl
theorem val_div (a b : Fl R) : (a / b).val = R.rnd (a.val / b.val) := rfl
@[simp] theorem val_neg (a : Fl R) : (-a).val = -a.val := rfl
theorem val_natCast (n : Nat) : (n : Fl R).val = R.rnd (n : K) := rfl
theorem le_iff {a b : Fl R} : a ≤ b ↔ a.val ≤ b.val := Iff.rfl
theorem lt_iff {a b : Fl R} : a < b ↔ a.val < b.val := Iff.rfl

/-- the absolute value, which needs no rounding (Go `math.Abs`, cf. metrics/regression.go:92) -/
def abs (a : Fl R) : Fl R := if a.val < 0 then -a else a

theorem val_abs (a : Fl R) : a.abs.val = |a.val| := by
  unfold abs
  split
  · rename_i h; rw [val_neg, abs_of_neg h]
  · rename_i h; rw [abs_of_nonneg (not_lt.1 h)]

/-! ### What is left of the laws -/

theorem add_comm' (a b : Fl R) : a + b = b + a := ext (by rw [val_add, val_add, add_comm])
theorem mul_comm' (a b : Fl R) : a * b = b * a := ext (by rw [val_mul, val_mul, mul_comm])
theorem zero_add' (a : Fl R) : 0 + a = a := ext (by rw [val_add, val_zero, zero_add, a.rep])
theorem add_zero' (a : Fl R) : a + 0 = a := ext (by rw [val_add, val_zero, add_zero, a.rep])
theorem sub_zero' (a : Fl R) : a - 0 = a := ext (by rw [val_sub, val_zero, sub_zero, a.rep])
theorem sub_self' (a : Fl R) : a - a = 0 := ext (by rw [val_sub, sub_self, R.zero]; rfl)
theorem mul_one' (a : Fl R) : a * 1 = a := ext (by rw [val_mul, val_one, mul_one, a.rep])
theorem one_mul' (a : Fl R) : 1 * a = a := ext (by rw [val_mul, val_one, one_mul, a.rep])
theorem mul_zero' (a : Fl R) : a * 0 = 0 := ext (by rw [val_mul, val_zero, mul_zero, R.zero])
theorem zero_mul' (a : Fl R) : 0 * a = 0 := ext (by rw [val_mul, val_zero, zero_mul, R.zero])
theorem div_one' (a : Fl R) : a / 1 = a := ext (by rw [val_div, val_one, div_one, a.rep])
theorem zero_div' (a : Fl R) : 0 / a = 0 := ext (by rw [val_div, val_zero, zero_div, R.zero])
theorem div_self' (a : Fl R) (h : a ≠ 0) : a / a = 1 := by
  have h' : a.val ≠ 0 := fun e => h (ext e)
  exact ext (by rw [val_div, div_self h', R.one, val_one])

theorem add_le {a b c d : Fl R} (h1 : a ≤ c) (h2 : b ≤ d) : a + b ≤ c + d := R.mono (add_le_add h1 h2)
theorem sub_le {a b c d : Fl R} (h1 : a ≤ c) (h2 : d ≤ b) : a - b ≤ c - d := R.mono (sub_le_sub h1 h2)
theorem mul_le {a b c d : Fl R} (h1 : a ≤ c) (h2 : b ≤ d) (ha : 0 ≤ b) (hc : 0 ≤ c) : a * b ≤ c * d :=
  R.mono (mul_le_mul h1 h2 ha hc)
theorem div_le {a b c : Fl R} (h1 : a ≤ b) (hc : 0 ≤ c) : a / c ≤ b / c := R.mono (div_le_div_of_nonneg_right h1 hc)
theorem add_nonneg' {a b : Fl R} (h1 : 0 ≤ a) (h2 : 0 ≤ b) : 0 ≤ a + b := R.nonneg (add_nonneg h1 h2)
theorem sub_nonneg' {a b : Fl R} (h : b ≤ a) : 0 ≤ a - b := R.nonneg (sub_nonneg.2 h)
theorem mul_nonneg' {a b : Fl R} (h1 : 0 ≤ a) (h2 : 0 ≤ b) : 0 ≤ a * b := R.nonneg (mul_nonneg h1 h2)
theorem mul_self_nonneg' (a : Fl R) : 0 ≤ a * a := R.nonneg (mul_self_nonneg _)
theorem div_nonneg' {a b : Fl R} (h1 : 0 ≤ a) (h2 : 0 ≤ b) : 0 ≤ a / b := R.nonneg (div_nonneg h1 h2)
theorem le_add_right' {a b : Fl R} (h : 0 ≤ b) : a ≤ a + b := by
  have := add_le (le_refl a) h
  rwa [add_zero'] at this
theorem le_add_left' {a b : Fl R} (h : 0 ≤ b) : a ≤ b + a := by
  rw [add_comm']
  exact le_add_right' h
theorem div_le_one' {a b : Fl R} (ha : 0 ≤ a) (h : a ≤ b) : a / b ≤ 1 := by
  by_cases hb : b = 0
  · have : a = 0 := le_antisymm (hb ▸ h) ha
    subst this hb
    rw [zero_div']
    exact (zero_le_one : (0 : K) ≤ 1)
  · have := div_le h (le_trans ha h)
    rwa [div_self' b hb] at this
theorem natCast_nonneg' (n : Nat) : (0 : Fl R) ≤ n := R.nonneg (Nat.cast_nonneg n)
theorem natCast_le {m n : Nat} (h : m ≤ n) : (m : Fl R) ≤ n := R.mono (Nat.cast_le.2 h)
theorem one_le_natCast {n : Nat} (h : 1 ≤ n) : (1 : Fl R) ≤ n := by
  have : (1 : K) ≤ n := by exact_mod_cast h
  have := R.mono this
  rw [R.one] at this
  exact this
theorem natCast_pos {n : Nat} (h : 1 ≤ n) : (0 : Fl R) < n := lt_of_lt_of_le (zero_lt_one : (0 : K) < 1) (one_le_natCast h)

end Fl

end Scigo
