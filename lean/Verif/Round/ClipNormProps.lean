import Verif.Round.AssignProps
import Verif.Base.Binary64Add
import Verif.Errors.Model

/-!
# C326: the norm of a clipped gradient in `float64`

In exact arithmetic the norm of the result of `ClipGradient` is at most the limit (C05).  In `float64` the norm, the factor and every entry are rounded; here is by how much the limit can be exceeded.
-/

set_option linter.unusedSectionVars false

namespace Scigo.Round

open Scigo.Errors

variable {K : Type} [Field K] [LinearOrder K] [IsStrictOrderedRing K] {R : Rounding K}

/-! ## Specification -/

/-- the exact sum of the squares of the entries (cf. pkg/errors/numerical.go:76-80) -/
def exactSquares (g : List (Fl R)) : K := (g.map fun x => x.val ^ 2).sum

/-- no underflow: the relative error of the rounding of `x` is at most `eps` (cf. pkg/errors/numerical.go:76-91) -/
def RelAccurate (R : Rounding K) (eps x : K) : Prop := |R.rnd x - x| ≤ eps * |x|

/-! ## The sum of squares -/

theorem foldl_squares_lower {eps : K} (h0 : 0 ≤ eps) (h1 : eps ≤ 1) (hA : R.AddAccurate eps) (g : List (Fl R)) (hg : ∀ x ∈ g, RelAccurate R eps (x.val * x.val)) (a : Fl R) (ha : 0 ≤ a.val) :
    (1 - eps) ^ g.length * (a.val + (1 - eps) * exactSquares g) ≤ (g.foldl (fun s x => s + x * x) a).val := by
  have e0 : 0 ≤ 1 - eps := sub_nonneg.2 h1
  have e1 : 1 - eps ≤ 1 := sub_le_self _ h0
  induction g generalizing a with
  | nil =>
    simp [exactSquares]
  | cons x g ih =>
    have hsq : (1 - eps) * x.val ^ 2 ≤ (x * x).val := by
      have h := hg x (by simp)
      have hp : 0 ≤ x.val * x.val := mul_self_nonneg _
      unfold RelAccurate at h
      rw [abs_of_nonneg hp] at h
      have := (abs_le.1 h).1
      rw [Fl.val_mul, pow_two]
      linarith
    have hsq0 : 0 ≤ (x * x).val := Fl.mul_self_nonneg' x
    have hnn : 0 ≤ a.val + (x * x).val := add_nonneg ha hsq0
    have hadd : (1 - eps) * (a.val + (x * x).val) ≤ (a + x * x).val := by
      have h := hA a.val (x * x).val a.rep (x * x).rep
      rw [abs_of_nonneg hnn] at h
      have := (abs_le.1 h).1
      rw [Fl.val_add]
      linarith
    have hpos : 0 ≤ (a + x * x).val := R.nonneg hnn
    have := ih (fun y hy => hg y (by simp [hy])) (a + x * x) hpos
    refine le_trans ?_ this
    have hE : 0 ≤ exactSquares g := by
      unfold exactSquares
      apply List.sum_nonneg
      intro y hy
      obtain ⟨z, _, rfl⟩ := List.mem_map.1 hy
      exact sq_nonneg _
    have hc : exactSquares (x :: g) = x.val ^ 2 + exactSquares g := by simp [exactSquares]
    rw [hc, List.length_cons, pow_succ, mul_assoc]
    apply mul_le_mul_of_nonneg_left _ (pow_nonneg e0 _)
    have k1 : (1 - eps) * ((1 - eps) * exactSquares g) ≤ (1 - eps) * exactSquares g := mul_le_of_le_one_left (mul_nonneg e0 hE) e1
    have k2 : (1 - eps) * ((1 - eps) * x.val ^ 2) ≤ (1 - eps) * (x * x).val := mul_le_mul_of_nonneg_left hsq e0
    nlinarith

/-- the square of the norm is at least the exact sum of the squares, up to the errors -/
theorem norm_lower {eps : K} (h0 : 0 ≤ eps) (h1 : (1 + eps) ^ 2 ≤ 2) (hA : R.AddAccurate eps) (sqrt : Fl R → Fl R) (hs : SqrtAccurate eps sqrt) (g : List (Fl R))
    (hg : ∀ x ∈ g, RelAccurate R eps (x.val * x.val)) :
    0 ≤ (gradNorm sqrt g).val ∧ (2 - (1 + eps) ^ 2) * (1 - eps) ^ (g.length + 1) * exactSquares g ≤ (gradNorm sqrt g).val ^ 2 := by
  have h1' : eps ≤ 1 := by nlinarith
  have hS : (1 - eps) ^ (g.length + 1) * exactSquares g ≤ (sumOver g fun x => x * x).val := by
    have := foldl_squares_lower h0 h1' hA g hg 0 (by simp)
    rw [Fl.val_zero, zero_add, ← mul_assoc, ← pow_succ] at this
    exact this
  have hS0 : 0 ≤ (sumOver g fun x => x * x).val := by
    refine le_trans ?_ hS
    refine mul_nonneg (pow_nonneg (sub_nonneg.2 h1') _) ?_
    unfold exactSquares
    apply List.sum_nonneg
    intro y hy
    obtain ⟨z, _, rfl⟩ := List.mem_map.1 hy
    exact sq_nonneg _
  obtain ⟨n0, n1⟩ := hs _ hS0
  refine ⟨n0, ?_⟩
  have := (abs_le.1 n1).1
  have k := mul_le_mul_of_nonneg_left hS (sub_nonneg.2 h1)
  unfold gradNorm
  nlinarith

theorem exactSquares_scale_le (g : List (Fl R)) (s : Fl R) (B : K) (h : ∀ x ∈ g, (x * s).val ^ 2 ≤ B * x.val ^ 2) : exactSquares (g.map fun x => x * s) ≤ B * exactSquares g := by
  induction g with
  | nil => simp [exactSquares]
  | cons x g ih =>
    have h1 := h x (by simp)
    have h2 := ih fun y hy => h y (by simp [hy])
    have hc : exactSquares (x :: g) = x.val ^ 2 + exactSquares g := by simp [exactSquares]
    have hc' : exactSquares ((x :: g).map fun x => x * s) = (x * s).val ^ 2 + exactSquares (g.map fun x => x * s) := by simp [exactSquares]
    rw [hc, hc']
    linarith

/-- **C326.** The exact norm of the result of `ClipGradient` exceeds the limit by at most the factor `(1 + eps)² / sqrt ((2 - (1 + eps)²) (1 - eps)^(n+1))`, about `1 + (n/2 + 3.5) eps` for a gradient of
`n` entries: for every gradient, every limit that is not negative and every square root that is accurate, if none of the squares and none of the scaled entries underflows. -/
theorem clip_gradient_norm {eps : K} (h0 : 0 ≤ eps) (h1 : (1 + eps) ^ 2 ≤ 2) (hA : R.AddAccurate eps) (sqrt : Fl R → Fl R) (hs : SqrtAccurate eps sqrt) (g : List (Fl R)) (m : Fl R) (hm : 0 ≤ m)
    (hg : ∀ x ∈ g, RelAccurate R eps (x.val * x.val)) (hq : RelAccurate R eps (m.val / (gradNorm sqrt g).val))
    (hc : ∀ x ∈ g, RelAccurate R eps (x.val * (m / gradNorm sqrt g).val)) :
    (2 - (1 + eps) ^ 2) * (1 - eps) ^ (g.length + 1) * exactSquares (clipGradient sqrt g m) ≤ (1 + eps) ^ 4 * m.val ^ 2 := by
  obtain ⟨n0, n1⟩ := norm_lower h0 h1 hA sqrt hs g hg
  have h1' : eps ≤ 1 := by nlinarith
  have hm' : 0 ≤ m.val := hm
  have hF : 0 ≤ (2 - (1 + eps) ^ 2) * (1 - eps) ^ (g.length + 1) := mul_nonneg (sub_nonneg.2 h1) (pow_nonneg (sub_nonneg.2 h1') _)
  have hone : 1 ≤ (1 + eps) ^ 4 := one_le_pow₀ (by linarith)
  unfold clipGradient
  by_cases h : gradNorm sqrt g > m
  · simp only [if_pos h]
    have hlt : m.val < (gradNorm sqrt g).val := h
    have npos : 0 < (gradNorm sqrt g).val := lt_of_le_of_lt hm' hlt
    generalize hN : gradNorm sqrt g = N at *
    have q0 : 0 ≤ m.val / N.val := div_nonneg hm' n0
    have s0 : 0 ≤ (m / N).val := R.nonneg q0
    have s1 : (m / N).val ≤ (1 + eps) * (m.val / N.val) := by
      unfold RelAccurate at hq
      rw [abs_of_nonneg q0] at hq
      have := (abs_le.1 hq).2
      rw [Fl.val_div]
      linarith
    have entry : ∀ x ∈ g, (x * (m / N)).val ^ 2 ≤ ((1 + eps) ^ 4 * (m.val / N.val) ^ 2) * x.val ^ 2 := by
      intro x hx
      have hr := hc x hx
      unfold RelAccurate at hr
      have habs : |(x * (m / N)).val| ≤ (1 + eps) * |x.val * (m / N).val| := by
        rw [Fl.val_mul]
        calc |R.rnd (x.val * (m / N).val)| = |(R.rnd (x.val * (m / N).val) - x.val * (m / N).val) + x.val * (m / N).val| := by rw [sub_add_cancel]
          _ ≤ _ := abs_add_le _ _
          _ ≤ _ := by linarith
      have h2 : |x.val * (m / N).val| ≤ |x.val| * ((1 + eps) * (m.val / N.val)) := by
        rw [abs_mul, abs_of_nonneg s0]
        exact mul_le_mul_of_nonneg_left s1 (abs_nonneg _)
      have h3 : |(x * (m / N)).val| ≤ (1 + eps) ^ 2 * (m.val / N.val) * |x.val| := by
        calc _ ≤ _ := habs
          _ ≤ (1 + eps) * (|x.val| * ((1 + eps) * (m.val / N.val))) := mul_le_mul_of_nonneg_left h2 (by linarith)
          _ = _ := by ring
      have h4 := pow_le_pow_left₀ (abs_nonneg _) h3 2
      rw [sq_abs] at h4
      calc _ ≤ _ := h4
        _ = ((1 + eps) ^ 4 * (m.val / N.val) ^ 2) * |x.val| ^ 2 := by ring
        _ = _ := by rw [sq_abs]
    have hsum := exactSquares_scale_le g (m / N) _ entry
    have hB : 0 ≤ (1 + eps) ^ 4 * (m.val / N.val) ^ 2 := mul_nonneg (by linarith) (sq_nonneg _)
    calc _ ≤ (2 - (1 + eps) ^ 2) * (1 - eps) ^ (g.length + 1) * (((1 + eps) ^ 4 * (m.val / N.val) ^ 2) * exactSquares g) := mul_le_mul_of_nonneg_left hsum hF
      _ = ((1 + eps) ^ 4 * (m.val / N.val) ^ 2) * ((2 - (1 + eps) ^ 2) * (1 - eps) ^ (g.length + 1) * exactSquares g) := by ring
      _ ≤ ((1 + eps) ^ 4 * (m.val / N.val) ^ 2) * N.val ^ 2 := mul_le_mul_of_nonneg_left n1 hB
      _ = (1 + eps) ^ 4 * m.val ^ 2 := by field_simp
  · simp only [if_neg h]
    have hle : (gradNorm sqrt g).val ≤ m.val := not_lt.1 h
    calc _ ≤ _ := n1
      _ ≤ m.val ^ 2 := pow_le_pow_left₀ n0 hle 2
      _ ≤ _ := le_mul_of_one_le_left (sq_nonneg _) hone

open Binary64 in
/-- the hypotheses of `clip_gradient_norm` are met for the gradient 1, 2, 2 of norm 3 and the limit 1 -/
example : ∃ sqrt : Fl rounding → Fl rounding,
    (2 - (1 + 1 / 2 ^ 53) ^ 2) * (1 - 1 / 2 ^ 53) ^ 4 * exactSquares (clipGradient sqrt [lit 1, lit 2, lit 2] (lit 1)) ≤ (1 + 1 / 2 ^ 53) ^ 4 * (lit 1).val ^ 2 ∧
    (clipGradient sqrt [lit 1, lit 2, lit 2] (lit 1)).getD 1 0 = lit (2 / 3) := by
  obtain ⟨sqrt, h1, h2, _⟩ := sqrt_nine
  have hN : gradNorm sqrt [lit 1, lit 2, lit 2] = lit 3 := by
    refine Eq.trans ?_ h2
    unfold gradNorm
    refine congrArg sqrt ?_
    decide +kernel
  refine ⟨sqrt, clip_gradient_norm (by norm_num) (by norm_num) add_accurate sqrt h1 [lit 1, lit 2, lit 2] (lit 1) (by decide +kernel) ?_ ?_ ?_, ?_⟩
  · intro x hx
    simp only [List.mem_cons, List.not_mem_nil, or_false] at hx
    unfold RelAccurate
    rcases hx with rfl | rfl | rfl <;> decide +kernel
  · rw [hN]
    unfold RelAccurate
    decide +kernel
  · intro x hx
    rw [hN]
    simp only [List.mem_cons, List.not_mem_nil, or_false] at hx
    unfold RelAccurate
    rcases hx with rfl | rfl | rfl <;> decide +kernel
  · have hlt : lit 3 > lit 1 := by decide +kernel
    unfold clipGradient
    simp only [hN, if_pos hlt]
    decide +kernel

end Scigo.Round
