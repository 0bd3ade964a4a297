import Verif.Linear.Model
import Mathlib.Algebra.Order.BigOperators.Ring.Finset
import Mathlib.Algebra.Order.Field.Basic

/-!
# Specification of linear regression
-/

namespace Scigo.Linear

open Finset

variable {K : Type _}

section
variable [Field K]

/-- the affine prediction `Σ_j X_ij w_j + b` -/
def affine (X : Mat K) (w : Nat → K) (b : K) (i : Nat) : K :=
  ∑ j ∈ range X.c, X.at' i j * w j + b

/-- residual sum of squares of the coefficients `w, b` on `X, y` -/
def rss (X y : Mat K) (w : Nat → K) (b : K) : K :=
  ∑ i ∈ range X.r, (y.at' i 0 - affine X w b i) ^ 2

/-- the normal equations: the residual is orthogonal to the constant and to every column -/
def NormalEquations (X y : Mat K) (w : Nat → K) (b : K) : Prop :=
  (∑ i ∈ range X.r, (y.at' i 0 - affine X w b i) = 0) ∧
  ∀ j < X.c, ∑ i ∈ range X.r, X.at' i j * (y.at' i 0 - affine X w b i) = 0

/-- the columns of `[1 | X]` are linearly independent -/
def FullRank (X : Mat K) : Prop :=
  ∀ (w : Nat → K) (b : K), (∀ i < X.r, affine X w b i = 0) → b = 0 ∧ ∀ j < X.c, w j = 0

/-- a square matrix has a two-sided inverse `B` -/
def IsInverse (A B : Mat K) : Prop :=
  (∀ i < A.r, ∀ j < A.r, ∑ k ∈ range A.r, A.at' i k * B.at' k j = if i = j then 1 else 0) ∧
  (∀ i < A.r, ∀ j < A.r, ∑ k ∈ range A.r, B.at' i k * A.at' k j = if i = j then 1 else 0)

/-- contract of gonum's `Dense.Inverse` in exact arithmetic: a nil error means the receiver is the
inverse (square arguments) -/
def InverseSound (inv : Mat K → Option (Mat K)) : Prop :=
  ∀ A B, A.c = A.r → inv A = some B → IsInverse A B ∧ B.r = A.r ∧ B.c = A.r

/-- the other half of the contract: an error means the matrix is singular (some non-zero vector is
mapped to zero). gonum also reports badly conditioned matrices, so this half is used only where a
theorem says so. -/
def InverseComplete (inv : Mat K → Option (Mat K)) : Prop :=
  ∀ A, A.c = A.r → inv A = none →
    ∃ v : Nat → K, (∃ k < A.r, v k ≠ 0) ∧ ∀ i < A.r, ∑ k ∈ range A.r, A.at' i k * v k = 0

/-- contract of gonum's `QR.SolveTo` in exact arithmetic (at least as many rows as columns): a nil
error means the result solves the least-squares problem, i.e. the residual is orthogonal to every
column -/
def SolveSound (solve : Mat K → Mat K → Option (Mat K)) : Prop :=
  ∀ A y th, A.c ≤ A.r → y.r = A.r → y.c = 1 → solve A y = some th →
    ∀ k < A.c, ∑ i ∈ range A.r, A.at' i k *
      (y.at' i 0 - ∑ l ∈ range A.c, A.at' i l * th.at' l 0) = 0

/-- coefficient of determination of predictions `p` against column `y` -/
def r2 (n : Nat) (y p : Nat → K) : K :=
  1 - (∑ i ∈ range n, (y i - p i) ^ 2) /
    (∑ i ∈ range n, (y i - (∑ k ∈ range n, y k) / n) ^ 2)

end

/-- a dynamic value together with the memory it points to, if it is a reference -/
def derefVal (h : Heap K) (v : Dyn K) : Dyn K × Option (Cell K) :=
  (v, match v with | .ref a => some (h.cell a) | _ => none)

/-- a map with its values followed one level down -/
def derefMap (h : Heap K) (m : DMap K) : String → Option (Dyn K × Option (Cell K)) :=
  fun k => (m k).map (derefVal h)

/-- what a user sees of exported weights, following references one level down (the values of the two
maps are compared together with the memory they point to) -/
def MWRef.view (h : Heap K) (w : MWRef K) :
    List K × List String × (String → Option (Dyn K × Option (Cell K))) ×
      (String → Option (Dyn K × Option (Cell K))) :=
  (MWRef.floatsAt h w.coefficients, MWRef.strsAt h w.features,
    derefMap h (MWRef.dmapAt h w.hyper), derefMap h (MWRef.dmapAt h w.meta_))

/-- the addresses the fields of a weights value hold -/
def MWRef.owns (w : MWRef K) (a : Nat) : Prop :=
  w.coefficients = some a ∨ w.features = some a ∨ w.hyper = some a ∨ w.meta_ = some a

/-- every address held by the fields is allocated -/
def MWRef.Valid (h : Heap K) (w : MWRef K) : Prop := ∀ a, w.owns a → a < h.next

/-- no value in either map is a slice or a map -/
def MWRef.Flat (h : Heap K) (w : MWRef K) : Prop :=
  (∀ k a, MWRef.dmapAt h w.hyper k ≠ some (.ref a)) ∧
  (∀ k a, MWRef.dmapAt h w.meta_ k ≠ some (.ref a))

/-- any sequence of writes -/
def writes (h : Heap K) (ops : List (Nat × Cell K)) : Heap K :=
  ops.foldl (fun h o => h.write o.1 o.2) h

end Scigo.Linear
