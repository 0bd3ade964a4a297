import Mathlib.Analysis.SpecialFunctions.Log.Basic
import Mathlib.Data.Real.Sqrt

/-!
# Exact numbers with the special values of IEEE 754

`XReal` is ℝ with `NaN`, `-Inf` and `+Inf`. Arithmetic follows IEEE 754 and Go's `math`
package except for rounding, overflow of finite results, and the sign of zero (the only zero is `+0`).
It is used to instantiate the generic models where special values matter.
-/

namespace Scigo

/-- a `float64` up to rounding (Go `float64`, cf. pkg/errors/numerical.go:20-60) -/
inductive XReal
  | nan
  | ninf
  | fin (x : ℝ)
  | pinf

namespace XReal

open Classical in
noncomputable instance : DecidableEq XReal := Classical.decEq _

/-- IEEE addition (Go `float64`, cf. pkg/errors/numerical.go:20-60) -/
noncomputable def add : XReal → XReal → XReal
  | nan, _ => nan
  | _, nan => nan
  | fin x, fin y => fin (x + y)
  | fin _, b => b
  | a, fin _ => a
  | ninf, ninf => ninf
  | pinf, pinf => pinf
  | ninf, pinf => nan
  | pinf, ninf => nan

/-- sign change (Go `float64`, cf. pkg/errors/numerical.go:20-60) -/
noncomputable def neg : XReal → XReal
  | nan => nan
  | ninf => pinf
  | pinf => ninf
  | fin x => fin (-x)

/-- IEEE multiplication; `0 * Inf = NaN` (Go `float64`, cf. pkg/errors/numerical.go:20-60) -/
noncomputable def mul : XReal → XReal → XReal
  | nan, _ => nan
  | _, nan => nan
  | fin x, fin y => fin (x * y)
  | fin x, pinf => if x = 0 then nan else if 0 < x then pinf else ninf
  | fin x, ninf => if x = 0 then nan else if 0 < x then ninf else pinf
  | pinf, fin x => if x = 0 then nan else if 0 < x then pinf else ninf
  | ninf, fin x => if x = 0 then nan else if 0 < x then ninf else pinf
  | pinf, pinf => pinf
  | ninf, ninf => pinf
  | pinf, ninf => ninf
  | ninf, pinf => ninf

/-- IEEE division; a zero divisor counts as `+0` (Go `float64`, cf. pkg/errors/numerical.go:20-60) -/
noncomputable def div : XReal → XReal → XReal
  | nan, _ => nan
  | _, nan => nan
  | fin x, fin y =>
    if y = 0 then (if x = 0 then nan else if 0 < x then pinf else ninf) else fin (x / y)
  | fin _, _ => fin 0
  | pinf, fin y => if 0 ≤ y then pinf else ninf
  | ninf, fin y => if 0 ≤ y then ninf else pinf
  | _, _ => nan

noncomputable instance : Add XReal := ⟨add⟩
noncomputable instance : Neg XReal := ⟨neg⟩
noncomputable instance : Sub XReal := ⟨fun a b => add a (neg b)⟩
noncomputable instance : Mul XReal := ⟨mul⟩
noncomputable instance : Div XReal := ⟨div⟩
noncomputable instance : Zero XReal := ⟨fin 0⟩
noncomputable instance : One XReal := ⟨fin 1⟩
noncomputable instance : NatCast XReal := ⟨fun n => fin n⟩
noncomputable instance : IntCast XReal := ⟨fun n => fin n⟩
noncomputable instance : Inhabited XReal := ⟨fin 0⟩

/-- IEEE `<`: false as soon as a NaN is involved (Go `float64`, cf. pkg/errors/numerical.go:20-60) -/
def lt : XReal → XReal → Prop
  | fin x, fin y => x < y
  | ninf, fin _ => True
  | ninf, pinf => True
  | fin _, pinf => True
  | _, _ => False

/-- IEEE `<=` (Go `float64`, cf. pkg/errors/numerical.go:20-60) -/
def le : XReal → XReal → Prop
  | fin x, fin y => x ≤ y
  | ninf, fin _ => True
  | ninf, pinf => True
  | fin _, pinf => True
  | ninf, ninf => True
  | pinf, pinf => True
  | _, _ => False

instance : LT XReal := ⟨lt⟩
instance : LE XReal := ⟨le⟩
open Classical in
noncomputable instance : DecidableLT XReal := fun _ _ => Classical.propDecidable _
open Classical in
noncomputable instance : DecidableLE XReal := fun _ _ => Classical.propDecidable _

/-- Go `math.Log` (Go `float64`, cf. pkg/errors/numerical.go:20-60) -/
noncomputable def log : XReal → XReal
  | nan => nan
  | ninf => nan
  | pinf => pinf
  | fin x => if x = 0 then ninf else if x < 0 then nan else fin (Real.log x)

/-- Go `math.Exp` without overflow or underflow (Go `float64`, cf. pkg/errors/numerical.go:20-60) -/
noncomputable def exp : XReal → XReal
  | nan => nan
  | ninf => fin 0
  | pinf => pinf
  | fin x => fin (Real.exp x)

/-- Go `math.Sqrt` (Go `float64`, cf. pkg/errors/numerical.go:20-60) -/
noncomputable def sqrt : XReal → XReal
  | nan => nan
  | ninf => nan
  | pinf => pinf
  | fin x => if x < 0 then nan else fin (Real.sqrt x)

/-- Go `math.Abs` (Go `float64`, cf. pkg/errors/numerical.go:20-60) -/
noncomputable def abs : XReal → XReal
  | nan => nan
  | ninf => pinf
  | pinf => pinf
  | fin x => fin |x|

@[simp] theorem zero_def : (0 : XReal) = fin 0 := rfl
@[simp] theorem one_def : (1 : XReal) = fin 1 := rfl
@[simp] theorem natCast_def (n : Nat) : (n : XReal) = fin n := rfl
@[simp] theorem intCast_def (n : Int) : (n : XReal) = fin n := rfl
@[simp] theorem fin_add (x y : ℝ) : fin x + fin y = fin (x + y) := rfl
@[simp] theorem fin_sub (x y : ℝ) : fin x - fin y = fin (x - y) := by
  change fin (x + -y) = _; rw [sub_eq_add_neg]
@[simp] theorem fin_mul (x y : ℝ) : fin x * fin y = fin (x * y) := rfl
@[simp] theorem fin_neg (x : ℝ) : -fin x = fin (-x) := rfl
theorem fin_div (x y : ℝ) (h : y ≠ 0) : fin x / fin y = fin (x / y) := by
  change (if y = 0 then _ else fin (x / y)) = _
  rw [if_neg h]
@[simp] theorem fin_lt (x y : ℝ) : fin x < fin y ↔ x < y := Iff.rfl
@[simp] theorem fin_le (x y : ℝ) : fin x ≤ fin y ↔ x ≤ y := Iff.rfl
@[simp] theorem ninf_lt_fin (x : ℝ) : ninf < fin x := trivial
@[simp] theorem not_fin_lt_ninf (x : ℝ) : ¬ fin x < ninf := fun h => h
@[simp] theorem not_ninf_lt_ninf : ¬ ninf < ninf := fun h => h
@[simp] theorem fin_lt_pinf (x : ℝ) : fin x < pinf := trivial
@[simp] theorem not_lt_nan (a : XReal) : ¬ a < nan := by cases a <;> exact fun h => h
@[simp] theorem not_nan_lt (a : XReal) : ¬ nan < a := fun h => h
@[simp] theorem ninf_add_fin (x : ℝ) : ninf + fin x = ninf := rfl
@[simp] theorem ninf_sub_fin (x : ℝ) : ninf - fin x = ninf := rfl
@[simp] theorem nan_add (a : XReal) : nan + a = nan := by cases a <;> rfl
@[simp] theorem add_nan (a : XReal) : a + nan = nan := by cases a <;> rfl
@[simp] theorem exp_fin (x : ℝ) : exp (fin x) = fin (Real.exp x) := rfl
@[simp] theorem exp_ninf : exp ninf = fin 0 := rfl
theorem log_fin (x : ℝ) (h : 0 < x) : log (fin x) = fin (Real.log x) := by
  simp only [log]; rw [if_neg h.ne', if_neg (not_lt.2 h.le)]
@[simp] theorem log_zero : log (fin 0) = ninf := by unfold log; simp
@[simp] theorem fin_inj (x y : ℝ) : fin x = fin y ↔ x = y := ⟨fun h => by injection h, fun h => by rw [h]⟩

end XReal

end Scigo
