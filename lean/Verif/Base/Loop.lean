import Mathlib.Algebra.BigOperators.Group.Finset.Basic
import Mathlib.Algebra.BigOperators.Group.List.Basic
import Mathlib.Algebra.BigOperators.Ring.Finset

/-!
# Accumulation loops

`acc := 0.0; for … { acc += f(i) }` as left folds, and their meaning in exact arithmetic.
The folds keep Go's left-to-right order of additions, so the definitions themselves are
valid for floating point; only the lemmas about `∑` are ideal-arithmetic.
-/

namespace Scigo

variable {α β : Type _}

/-- `sum := 0.0; for i := 0; i < n; i++ { sum += f(i) }` — the accumulation loop used in
e.g. `metrics/regression.go:77-81`, `preprocessing/scaler.go:126-131`. -/
def sumTo [Add α] [Zero α] (n : Nat) (f : Nat → α) : α :=
  (List.range n).foldl (fun s i => s + f i) 0

/-- `sum := 0.0; for _, x := range l { sum += f(x) }` over a slice
(e.g. `pkg/errors/numerical.go:78-80`). -/
def sumOver [Add α] [Zero α] (l : List β) (f : β → α) : α :=
  l.foldl (fun s x => s + f x) 0

theorem foldl_add_eq [AddCommMonoid α] (l : List β) (f : β → α) (a : α) :
    l.foldl (fun s x => s + f x) a = a + (l.map f).sum := by
  induction l generalizing a with
  | nil => simp
  | cons x xs ih => simp [ih, add_assoc]

theorem sumOver_eq [AddCommMonoid α] (l : List β) (f : β → α) :
    sumOver l f = (l.map f).sum := by
  simp [sumOver, foldl_add_eq]

theorem sumTo_eq [AddCommMonoid α] (n : Nat) (f : Nat → α) :
    sumTo n f = ∑ i ∈ Finset.range n, f i := by
  rw [sumTo, foldl_add_eq, zero_add]
  induction n with
  | zero => simp
  | succ n ih => rw [List.range_succ, List.map_append, List.sum_append, ih, Finset.sum_range_succ]; simp

theorem sumTo_succ [Add α] [Zero α] (n : Nat) (f : Nat → α) :
    sumTo (n + 1) f = sumTo n f + f n := by
  simp [sumTo, List.range_succ]

@[simp] theorem sumTo_zero [Add α] [Zero α] (f : Nat → α) : sumTo 0 f = 0 := rfl

theorem sumTo_congr [Add α] [Zero α] {n : Nat} {f g : Nat → α} (h : ∀ i < n, f i = g i) :
    sumTo n f = sumTo n g := by
  induction n with
  | zero => rfl
  | succ n ih =>
    rw [sumTo_succ, sumTo_succ, ih (fun i hi => h i (Nat.lt_succ_of_lt hi)), h n (Nat.lt_succ_self n)]

end Scigo
