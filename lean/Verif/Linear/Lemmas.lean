import Verif.Linear.Spec
import Mathlib.Tactic.Ring
import Mathlib.Tactic.Linarith
import Mathlib.Tactic.FieldSimp
import Mathlib.Algebra.BigOperators.Group.Finset.Piecewise
import Mathlib.Data.List.GetD

namespace Scigo.Linear

open Finset

set_option linter.unusedSectionVars false

variable {K : Type _}

section field
variable [Field K]

theorem predRow_eq (w : List K) (b : K) (X : Mat K) (i : Nat) :
    predRow w b X i = affine X (fun j => w.getD j 0) b i := by
  unfold predRow affine
  rw [foldl_add_eq, add_comm]
  congr 1

theorem affine_congr {X : Mat K} {w w' : Nat → K} (b : K) (i : Nat) (h : ∀ j < X.c, w j = w' j) :
    affine X w b i = affine X w' b i := by
  unfold affine
  congr 1
  exact sum_congr rfl (fun j hj => by rw [h j (mem_range.1 hj)])

/-- `[1|X] θ` as an affine prediction -/
theorem design_mul (X : Mat K) (th : Nat → K) (i : Nat) :
    ∑ k ∈ range (X.c + 1), (withIntercept X).at' i k * th k = affine X (fun j => th (j + 1)) (th 0) i := by
  rw [sum_range_succ']
  simp [withIntercept, affine]

/-- `θ = B v` with `A B = 1` gives `A θ = v` -/
theorem inverse_solves {A B : Mat K} (h : IsInverse A B) (v : Nat → K) {k : Nat} (hk : k < A.r) :
    ∑ l ∈ range A.r, A.at' k l * (∑ m ∈ range A.r, B.at' l m * v m) = v k := by
  simp only [mul_sum]
  rw [sum_comm]
  have : ∀ m ∈ range A.r, ∑ l ∈ range A.r, A.at' k l * (B.at' l m * v m) = if k = m then v m else 0 := by
    intro m hm
    have := h.1 k hk m (mem_range.1 hm)
    simp only [← mul_assoc, ← sum_mul, this]
    split <;> simp
  rw [sum_congr rfl this]
  simp [hk]

/-- Gram matrix applied to `θ` is `Dᵀ (D θ)` -/
theorem gram_mul (D : Mat K) (th : Nat → K) (k : Nat) :
    ∑ l ∈ range D.c, (∑ i ∈ range D.r, D.at' i k * D.at' i l) * th l =
      ∑ i ∈ range D.r, D.at' i k * ∑ l ∈ range D.c, D.at' i l * th l := by
  simp only [sum_mul, mul_sum]
  rw [sum_comm]
  exact sum_congr rfl (fun i _ => sum_congr rfl (fun l _ => by ring))

theorem solveNormal_normal {B : Mat K} (D y : Mat K)
    (hB : IsInverse (mulMat (transpose D) D) B) (hc : B.c = D.c) (k : Nat) (hk : k < D.c) :
    ∑ i ∈ range D.r, D.at' i k *
      (y.at' i 0 - ∑ l ∈ range D.c, D.at' i l * LinReg.solveNormal B D y l) = 0 := by
  have h := inverse_solves hB (fun m => ∑ i ∈ range D.r, D.at' i m * y.at' i 0) (k := k) hk
  have e : ∀ l, LinReg.solveNormal B D y l =
      ∑ m ∈ range D.c, B.at' l m * ∑ i ∈ range D.r, D.at' i m * y.at' i 0 := by
    intro l
    simp only [LinReg.solveNormal, mulVec, sumTo_eq, transpose, hc]
  simp only [mulMat, transpose, sumTo_eq] at h
  rw [gram_mul D (fun l => ∑ m ∈ range D.c, B.at' l m * ∑ i ∈ range D.r, D.at' i m * y.at' i 0) k] at h
  simp only [mul_sub, sum_sub_distrib, e]
  rw [h, sub_self]

/-- orthogonality for `[1|X]` are the normal equations -/
theorem normalEquations_of_design (X y : Mat K) (th : Nat → K)
    (h : ∀ k < X.c + 1, ∑ i ∈ range X.r, (withIntercept X).at' i k *
      (y.at' i 0 - ∑ l ∈ range (X.c + 1), (withIntercept X).at' i l * th l) = 0) :
    NormalEquations X y (fun j => th (j + 1)) (th 0) := by
  simp only [design_mul] at h
  refine ⟨?_, fun j hj => ?_⟩
  · simpa [withIntercept] using h 0 (by omega)
  · simpa [withIntercept] using h (j + 1) (by omega)

/-- Pythagoras: the RSS of any coefficients exceeds that of a solution of the normal equations by the
squared distance of the fitted values -/
theorem rss_decomp_aux (X y : Mat K) {w : Nat → K} {b : K} (w' : Nat → K) (b' : K)
    (h1 : (∑ i ∈ range X.r, (y.at' i 0 - affine X w b i)) * (b' - b) = 0)
    (h2 : ∀ j < X.c, ∑ i ∈ range X.r, X.at' i j * (y.at' i 0 - affine X w b i) = 0) :
    rss X y w' b' = rss X y w b + ∑ i ∈ range X.r, (affine X w' b' i - affine X w b i) ^ 2 := by
  have key : ∑ i ∈ range X.r, (y.at' i 0 - affine X w b i) * (affine X w' b' i - affine X w b i) = 0 := by
    have e : ∀ i, affine X w' b' i - affine X w b i =
        ∑ j ∈ range X.c, X.at' i j * (w' j - w j) + (b' - b) := by
      intro i
      simp only [affine, mul_sub, sum_sub_distrib]
      ring
    simp only [e, mul_add, sum_add_distrib, mul_sum]
    rw [sum_comm, ← sum_mul, h1, add_zero]
    apply sum_eq_zero
    intro j hj
    have := h2 j (mem_range.1 hj)
    have e2 : ∀ i ∈ range X.r, (y.at' i 0 - affine X w b i) * (X.at' i j * (w' j - w j)) =
        (X.at' i j * (y.at' i 0 - affine X w b i)) * (w' j - w j) := fun i _ => by ring
    rw [sum_congr rfl e2, ← sum_mul, this, zero_mul]
  unfold rss
  have e3 : ∀ i ∈ range X.r, (y.at' i 0 - affine X w' b' i) ^ 2 =
      (y.at' i 0 - affine X w b i) ^ 2 + (affine X w' b' i - affine X w b i) ^ 2 -
        2 * ((y.at' i 0 - affine X w b i) * (affine X w' b' i - affine X w b i)) := fun i _ => by ring
  rw [sum_congr rfl e3, sum_sub_distrib, sum_add_distrib, ← mul_sum, key]
  ring

theorem rss_decomp (X y : Mat K) {w : Nat → K} {b : K} (h : NormalEquations X y w b)
    (w' : Nat → K) (b' : K) :
    rss X y w' b' = rss X y w b + ∑ i ∈ range X.r, (affine X w' b' i - affine X w b i) ^ 2 :=
  rss_decomp_aux X y w' b' (by rw [h.1, zero_mul]) h.2

end field

section ordered
variable [Field K] [LinearOrder K] [IsStrictOrderedRing K]

theorem sum_sq_eq_zero {n : Nat} {f : Nat → K} (h : ∑ i ∈ range n, f i ^ 2 = 0) :
    ∀ i < n, f i = 0 := by
  intro i hi
  have := (sum_eq_zero_iff_of_nonneg (fun i _ => sq_nonneg (f i))).1 h i (mem_range.2 hi)
  exact pow_eq_zero_iff (two_ne_zero) |>.1 this

theorem sum_sq_nonneg (n : Nat) (f : Nat → K) : 0 ≤ ∑ i ∈ range n, f i ^ 2 :=
  sum_nonneg (fun i _ => sq_nonneg (f i))

/-- a Gram matrix kills a vector iff the design does -/
theorem gram_kernel (D : Mat K) (v : Nat → K)
    (h : ∀ k < D.c, ∑ l ∈ range D.c, (mulMat (transpose D) D).at' k l * v l = 0) :
    ∀ i < D.r, ∑ l ∈ range D.c, D.at' i l * v l = 0 := by
  apply sum_sq_eq_zero
  have h2 : ∑ k ∈ range D.c, v k * ∑ i ∈ range D.r, D.at' i k * ∑ l ∈ range D.c, D.at' i l * v l = 0 := by
    apply sum_eq_zero
    intro k hk
    have := h k (mem_range.1 hk)
    simp only [mulMat, transpose, sumTo_eq] at this
    rw [gram_mul D v k] at this
    rw [this, mul_zero]
  rw [← h2]
  simp only [mul_sum]
  rw [sum_comm]
  apply sum_congr rfl
  intro i _
  rw [sq, sum_mul]
  apply sum_congr rfl
  intro k _
  rw [mul_sum]
  exact sum_congr rfl (fun l _ => by ring)

end ordered

end Scigo.Linear
