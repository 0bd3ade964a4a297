import Verif.Boost.Objective
import Verif.Online.Spec
import Mathlib.Analysis.SpecialFunctions.Log.Deriv
import Mathlib.Analysis.SpecialFunctions.ExpDeriv
import Mathlib.Analysis.Calculus.Deriv.Abs
import Mathlib.Analysis.Calculus.Deriv.Pow
import Mathlib.Analysis.Calculus.Deriv.Inv

/-!
# Objective functions: derivatives (C55, C57)
-/

namespace Scigo.Boost

open Scigo.Online Filter Topology

/-- the literals of the file as real numbers -/
noncomputable def realLits : Lits ℝ := ⟨1 / 10 ^ 7, 1 / 10 ^ 16, 1 / 10 ^ 15, 700⟩

/-- the cross entropy of a raw score `p` and a target `t` -/
noncomputable def crossEntropy (p t : ℝ) : ℝ :=
  -t * Real.log (1 / (1 + Real.exp (-p))) - (1 - t) * Real.log (1 - 1 / (1 + Real.exp (-p)))

/-! ## Helper lemmas -/

theorem clampA_id {p : ℝ} (h1 : -700 ≤ p) (h2 : p ≤ 700) : clampA realLits p = p := by
  have a : minA p realLits.big = p := by unfold minA; rw [if_neg]; exact not_lt.2 h2
  unfold clampA
  rw [a]
  unfold maxA
  split_ifs with h
  · rfl
  · exact le_antisymm h1 (not_lt.1 h)

theorem minA_id {p : ℝ} (h2 : p ≤ 700) : minA p realLits.big = p := by
  unfold minA; rw [if_neg]; exact not_lt.2 h2

theorem clampA_near {p : ℝ} (h1 : -700 < p) (h2 : p < 700) : ∀ᶠ q in 𝓝 p, clampA realLits q = q := by
  filter_upwards [Ioo_mem_nhds h1 h2] with q hq
  exact clampA_id hq.1.le hq.2.le

theorem maxA_pos {a b : ℝ} (h : 0 < a) : 0 < maxA a b := by
  unfold maxA; split_ifs with h'
  · exact h.trans h'
  · exact h

/-- functions that agree on the two sides of a point -/
theorem hasDerivAt_of_sides {f g h : ℝ → ℝ} {d x : ℝ} (hg : HasDerivAt g d x) (hh : HasDerivAt h d x)
    (hl : ∀ y, y ≤ x → f y = g y) (hr : ∀ y, x ≤ y → f y = h y) : HasDerivAt f d x := by
  have h1 : HasDerivWithinAt f d (Set.Iic x) x :=
    hg.hasDerivWithinAt.congr (fun y hy => hl y hy) (hl x le_rfl)
  have h2 : HasDerivWithinAt f d (Set.Ici x) x :=
    hh.hasDerivWithinAt.congr (fun y hy => hr y hy) (hr x le_rfl)
  have := h1.union h2
  rwa [Set.Iic_union_Ici, hasDerivWithinAt_univ] at this

/-- the same when the agreement holds only near the point -/
theorem hasDerivAt_of_sides' {f g h : ℝ → ℝ} {d x e : ℝ} (he : 0 < e) (hg : HasDerivAt g d x) (hh : HasDerivAt h d x)
    (hl : ∀ y, x - e < y → y ≤ x → f y = g y) (hr : ∀ y, x ≤ y → y < x + e → f y = h y) : HasDerivAt f d x := by
  have : HasDerivAt (fun y => if y < x - e then g y else if x + e < y then h y else if y = x - e then g y
      else if y = x + e then h y else f y) d x := by
    refine hasDerivAt_of_sides hg hh ?_ ?_
    · intro y hy
      split_ifs with a b c d
      · rfl
      · linarith
      · rfl
      · linarith
      · exact hl y (lt_of_le_of_ne (not_lt.1 a) (Ne.symm c)) hy
    · intro y hy
      split_ifs with a b c d
      · linarith
      · rfl
      · linarith
      · rfl
      · exact hr y hy (lt_of_le_of_ne (not_lt.1 b) d)
  refine this.congr_of_eventuallyEq ?_
  filter_upwards [Ioo_mem_nhds (show x - e < x by linarith) (show x < x + e by linarith)] with y hy
  rw [if_neg (by linarith [hy.1]), if_neg (by linarith [hy.2]), if_neg (by linarith [hy.1] : ¬ y = x - e) , if_neg]
  · intro h; linarith [hy.2]

theorem sub_deriv (t p : ℝ) : HasDerivAt (fun q : ℝ => q - t) 1 p := (hasDerivAt_id p).sub_const t

/-! ## C55 -/

/-- C55, squared error (also `lambdarank`) -/
theorem l2_derivative (p t : ℝ) :
    HasDerivAt (fun q => (l2 realNum).loss q t) ((l2 realNum).grad p t) p ∧
      HasDerivAt (fun q => (l2 realNum).grad q t) ((l2 realNum).hess p t) p ∧ 0 < (l2 realNum).hess p t := by
  refine ⟨?_, sub_deriv t p, one_pos⟩
  have h := ((sub_deriv t p).const_mul (1 / 2 : ℝ)).mul (sub_deriv t p)
  exact h.congr_deriv (by show _ = p - t; ring)

/-- C55, absolute error, at distance `1e-7` or more from the kink -/
theorem l1_derivative (p t : ℝ) (h : 1 / 10 ^ 7 ≤ |p - t|) :
    HasDerivAt (fun q => (l1 realNum realLits).loss q t) ((l1 realNum realLits).grad p t) p ∧
      0 < (l1 realNum realLits).hess p t := by
  refine ⟨?_, one_pos⟩
  show HasDerivAt (fun q => |q - t|) (if |p - t| < 1 / 10 ^ 7 then 0 else if 0 < p - t then 1 else -1) p
  rw [if_neg (not_lt.2 h)]
  have hpos : (0 : ℝ) < 1 / 10 ^ 7 := by positivity
  have hne : p - t ≠ 0 := by
    intro h0; rw [h0, abs_zero] at h; linarith
  rcases lt_or_gt_of_ne hne with h0 | h0
  · rw [if_neg (by linarith)]
    exact ((hasDerivAt_abs_neg h0).comp p (sub_deriv t p)).congr_deriv (mul_one _)
  · rw [if_pos h0]
    exact ((hasDerivAt_abs_pos h0).comp p (sub_deriv t p)).congr_deriv (mul_one _)

/-- C55, Huber loss with any positive threshold, kinks of the gradient included -/
theorem huber_derivative (delta p t : ℝ) (hd : 0 < delta) :
    HasDerivAt (fun q => (huber realNum realLits delta).loss q t) ((huber realNum realLits delta).grad p t) p ∧
      0 < (huber realNum realLits delta).hess p t := by
  constructor
  · show HasDerivAt (fun q => if |q - t| ≤ delta then 1 / 2 * (q - t) * (q - t) else delta * (|q - t| - 1 / 2 * delta))
      (if |p - t| ≤ delta then p - t else if 0 < p - t then delta else -delta) p
    have hquad : HasDerivAt (fun q : ℝ => 1 / 2 * (q - t) * (q - t)) (p - t) p := (l2_derivative p t).1
    have hup : HasDerivAt (fun q : ℝ => delta * ((q - t) - 1 / 2 * delta)) delta p := by
      simpa using ((sub_deriv t p).sub_const (1 / 2 * delta)).const_mul delta
    have hlo : HasDerivAt (fun q : ℝ => delta * (-(q - t) - 1 / 2 * delta)) (-delta) p := by
      simpa using (((sub_deriv t p).neg).sub_const (1 / 2 * delta)).const_mul delta
    rcases lt_trichotomy (p - t) (-delta) with h | h | h
    · rw [if_neg (by rw [abs_of_neg (by linarith)]; linarith), if_neg (by linarith)]
      refine hlo.congr_of_eventuallyEq ?_
      filter_upwards [Iio_mem_nhds (show p < t - delta by linarith)] with q hq
      have hq : q < t - delta := hq
      rw [if_neg (by rw [abs_of_neg (by linarith)]; linarith), abs_of_neg (by linarith)]
    · rw [if_pos (by rw [h, abs_neg, abs_of_pos hd])]
      rw [show p - t = -delta from h] at hquad ⊢
      refine hasDerivAt_of_sides' hd hlo hquad ?_ ?_
      · intro y hy1 hy2
        rcases eq_or_lt_of_le hy2 with rfl | hy2
        · rw [if_pos (by rw [h, abs_neg, abs_of_pos hd]), h]; ring
        · rw [if_neg (by rw [abs_of_neg (by linarith)]; linarith), abs_of_neg (by linarith)]
      · intro y hy1 hy2
        rw [if_pos (by rw [abs_le]; constructor <;> linarith)]
    · rcases lt_trichotomy (p - t) delta with h' | h' | h'
      · rw [if_pos (by rw [abs_le]; constructor <;> linarith)]
        refine hquad.congr_of_eventuallyEq ?_
        filter_upwards [Ioo_mem_nhds (show t - delta < p by linarith) (show p < t + delta by linarith)] with q hq
        rw [if_pos (by rw [abs_le]; constructor <;> linarith [hq.1, hq.2])]
      · rw [if_pos (by rw [h', abs_of_pos hd])]
        rw [show p - t = delta from h'] at hquad ⊢
        refine hasDerivAt_of_sides' hd hquad hup ?_ ?_
        · intro y hy1 hy2
          rw [if_pos (by rw [abs_le]; constructor <;> linarith)]
        · intro y hy1 hy2
          rcases eq_or_lt_of_le hy1 with rfl | hy1
          · rw [if_pos (by rw [h', abs_of_pos hd]), h']; ring
          · rw [if_neg (by rw [abs_of_pos (by linarith)]; linarith), abs_of_pos (by linarith)]
      · rw [if_neg (by rw [abs_of_pos (by linarith)]; linarith), if_pos (by linarith)]
        refine hup.congr_of_eventuallyEq ?_
        filter_upwards [Ioi_mem_nhds (show t + delta < p by linarith)] with q hq
        have hq : t + delta < q := hq
        rw [if_neg (by rw [abs_of_pos (by linarith)]; linarith), abs_of_pos (by linarith)]
  · show (0 : ℝ) < if |p - t| ≤ delta then 1 else 1 / 10 ^ 7
    split_ifs <;> positivity

/-- C55, quantile loss, away from its kink -/
theorem quantile_derivative (floor ceil : ℝ → Nat) (a p t : ℝ) (h : p ≠ t) :
    HasDerivAt (fun q => (quantile realNum floor ceil a).loss q t) ((quantile realNum floor ceil a).grad p t) p ∧
      0 < (quantile realNum floor ceil a).hess p t := by
  refine ⟨?_, one_pos⟩
  show HasDerivAt (fun q => if 0 < q - t then a * (q - t) else (a - 1) * (q - t))
    (if 0 < p - t then a else if p - t < 0 then a - 1 else 0) p
  rcases lt_or_gt_of_ne h with h | h
  · rw [if_neg (by linarith), if_pos (by linarith)]
    have := (sub_deriv t p).const_mul (a - 1)
    rw [mul_one] at this
    refine this.congr_of_eventuallyEq ?_
    filter_upwards [Iio_mem_nhds h] with q hq
    rw [if_neg (by have : q < t := hq; linarith)]
  · rw [if_pos (by linarith)]
    have := (sub_deriv t p).const_mul a
    rw [mul_one] at this
    refine this.congr_of_eventuallyEq ?_
    filter_upwards [Ioi_mem_nhds h] with q hq
    rw [if_pos (by have : t < q := hq; linarith)]

theorem fair_side (c : ℝ) (hc : 0 < c) (d : ℝ) (hd : 0 < c + d) :
    HasDerivAt (fun d : ℝ => c * c * (d / c - Real.log (1 + d / c))) (c * d / (d + c)) d := by
  have h1 : HasDerivAt (fun d : ℝ => d / c) (1 / c) d := (hasDerivAt_id d).div_const c
  have h2 : HasDerivAt (fun d : ℝ => 1 + d / c) (1 / c) d := by simpa using h1.const_add 1
  have hne : 1 + d / c ≠ 0 := by
    have : 1 + d / c = (c + d) / c := by field_simp
    rw [this]; positivity
  have h3 := (h1.sub (h2.log hne)).const_mul (c * c)
  refine h3.congr_deriv ?_
  have hcd : c + d ≠ 0 := hd.ne'
  have : d + c ≠ 0 := by rw [add_comm]; exact hcd
  have e : 1 + d / c = (d + c) / c := by field_simp; ring
  rw [e]
  field_simp
  ring

/-- C55, Fair loss, kink of the absolute value included -/
theorem fair_derivative (c p t : ℝ) (hc : 0 < c) :
    HasDerivAt (fun q => (fair realNum c).loss q t) ((fair realNum c).grad p t) p ∧ 0 < (fair realNum c).hess p t := by
  constructor
  · show HasDerivAt (fun q => c * c * (|q - t| / c - Real.log (1 + |q - t| / c))) (c * (p - t) / (|p - t| + c)) p
    have hpos : 0 ≤ p - t → HasDerivAt (fun q => c * c * ((q - t) / c - Real.log (1 + (q - t) / c)))
        (c * (p - t) / ((p - t) + c)) p := fun h => by
      have := (fair_side c hc (p - t) (by linarith)).comp p (sub_deriv t p)
      rw [mul_one] at this; exact this
    have hneg : p - t ≤ 0 → HasDerivAt (fun q => c * c * (-(q - t) / c - Real.log (1 + -(q - t) / c)))
        (c * (p - t) / (-(p - t) + c)) p := fun h => by
      have := (fair_side c hc (-(p - t)) (by linarith)).comp p (sub_deriv t p).neg
      refine this.congr_deriv ?_
      ring
    rcases lt_trichotomy (p - t) 0 with h | h | h
    · rw [abs_of_neg h]
      refine (hneg h.le).congr_of_eventuallyEq ?_
      filter_upwards [Iio_mem_nhds (show p < t by linarith)] with q hq
      rw [abs_of_neg (by have : q < t := hq; linarith)]
    · have h1 := hneg h.le
      have h2 := hpos h.ge
      rw [h] at h1 h2 ⊢
      simp only [mul_zero, zero_div, abs_zero] at h1 h2 ⊢
      refine hasDerivAt_of_sides h1 h2 ?_ ?_
      · intro y hy
        rw [abs_of_nonpos (by linarith)]
      · intro y hy
        rw [abs_of_nonneg (by linarith)]
    · rw [abs_of_pos h]
      refine (hpos h.le).congr_of_eventuallyEq ?_
      filter_upwards [Ioi_mem_nhds (show t < p by linarith)] with q hq
      rw [abs_of_pos (by have : t < q := hq; linarith)]
  · show 0 < c * c / ((|p - t| + c) * (|p - t| + c))
    have := abs_nonneg (p - t)
    positivity

/-- C55, Poisson loss below the clamp -/
theorem poisson_derivative (p t : ℝ) (h : p < 700) :
    HasDerivAt (fun q => (poisson realNum realLits).loss q t) ((poisson realNum realLits).grad p t) p ∧
      HasDerivAt (fun q => (poisson realNum realLits).grad q t) ((poisson realNum realLits).hess p t) p ∧
      0 < (poisson realNum realLits).hess p t := by
  have near : ∀ᶠ q in 𝓝 p, minA q realLits.big = q := by
    filter_upwards [Iio_mem_nhds h] with q hq
    exact minA_id (le_of_lt hq)
  refine ⟨?_, ?_, Real.exp_pos _⟩
  · show HasDerivAt (fun q => Real.exp (minA q realLits.big) - t * q) (Real.exp (minA p realLits.big) - t) p
    rw [minA_id h.le]
    have := (Real.hasDerivAt_exp p).sub ((hasDerivAt_id p).const_mul t)
    rw [mul_one] at this
    refine this.congr_of_eventuallyEq ?_
    filter_upwards [near] with q hq
    rw [hq]; rfl
  · show HasDerivAt (fun q => Real.exp (minA q realLits.big) - t) (Real.exp (minA p realLits.big)) p
    rw [minA_id h.le]
    refine ((Real.hasDerivAt_exp p).sub_const t).congr_of_eventuallyEq ?_
    filter_upwards [near] with q hq
    rw [hq]

/-- C55, Gamma deviance of a positive target inside the clamp -/
theorem gamma_derivative (p t : ℝ) (ht : 0 < t) (h1 : -700 < p) (h2 : p < 700) :
    HasDerivAt (fun q => (gamma realNum realLits).loss q t) ((gamma realNum realLits).grad p t) p ∧
      HasDerivAt (fun q => (gamma realNum realLits).grad q t) (2 * t * Real.exp (-p)) p ∧
      0 < (gamma realNum realLits).hess p t ∧
      (1 / 10 ^ 16 ≤ 2 * t * Real.exp (-p) → (gamma realNum realLits).hess p t = 2 * t * Real.exp (-p)) := by
  have hexp : HasDerivAt (fun q : ℝ => Real.exp (-q)) (-Real.exp (-p)) p := by
    simpa using (hasDerivAt_neg p).exp
  refine ⟨?_, ?_, maxA_pos (by show (0 : ℝ) < 1 / 10 ^ 16; positivity), ?_⟩
  · show HasDerivAt (fun q => if t ≤ 0 then 0 else 2 * (Real.log (Real.exp (clampA realLits q) / t) +
      t / Real.exp (clampA realLits q) - 1)) (2 * (1 - t * Real.exp (-clampA realLits p))) p
    rw [clampA_id h1.le h2.le]
    have hd : HasDerivAt (fun q : ℝ => 2 * (q - Real.log t + t * Real.exp (-q) - 1)) (2 * (1 - t * Real.exp (-p))) p := by
      have := (((((hasDerivAt_id p).sub_const (Real.log t)).add (hexp.const_mul t)).sub_const 1).const_mul 2)
      refine this.congr_deriv ?_
      ring
    refine hd.congr_of_eventuallyEq ?_
    filter_upwards [clampA_near h1 h2] with q hq
    rw [hq, if_neg (not_le.2 ht), Real.log_div (Real.exp_pos q).ne' ht.ne', Real.log_exp, Real.exp_neg, div_eq_mul_inv]
  · show HasDerivAt (fun q => 2 * (1 - t * Real.exp (-clampA realLits q))) (2 * t * Real.exp (-p)) p
    have hd : HasDerivAt (fun q : ℝ => 2 * (1 - t * Real.exp (-q))) (2 * t * Real.exp (-p)) p := by
      have := (((hexp.const_mul t).const_sub 1).const_mul 2)
      refine this.congr_deriv ?_
      ring
    refine hd.congr_of_eventuallyEq ?_
    filter_upwards [clampA_near h1 h2] with q hq
    rw [hq]
  · intro hle
    show maxA (1 / 10 ^ 16) (2 * t * Real.exp (-clampA realLits p)) = _
    rw [clampA_id h1.le h2.le]
    unfold maxA
    split_ifs with h
    · rfl
    · exact le_antisymm hle (not_lt.1 h)

/-- C55, Tweedie deviance with a variance power between 1 and 2, inside the clamp -/
theorem tweedie_derivative (v p t : ℝ) (hv1 : 1 < v) (hv2 : v < 2) (h1 : -700 < p) (h2 : p < 700) :
    HasDerivAt (fun q => (tweedie realNum realLits v).loss q t) ((tweedie realNum realLits v).grad p t) p ∧
      HasDerivAt (fun q => (tweedie realNum realLits v).grad q t)
        (2 * ((2 - v) * Real.exp ((2 - v) * p) - (1 - v) * t * Real.exp ((1 - v) * p))) p ∧
      0 < (tweedie realNum realLits v).hess p t := by
  have c1 : ∀ q : ℝ, -700 < q → q < 700 → clampA realLits ((2 - v) * q) = (2 - v) * q := fun q a b =>
    clampA_id (by nlinarith) (by nlinarith)
  have c2 : ∀ q : ℝ, -700 < q → q < 700 → clampA realLits ((1 - v) * q) = (1 - v) * q := fun q a b =>
    clampA_id (by nlinarith) (by nlinarith)
  have hexp : ∀ k : ℝ, HasDerivAt (fun q : ℝ => Real.exp (k * q)) (k * Real.exp (k * p)) p := fun k => by
    have h0 : HasDerivAt (fun q : ℝ => k * q) k p := by simpa using (hasDerivAt_id p).const_mul k
    have := h0.exp
    rwa [mul_comm] at this
  have n1 : (2 - v) ≠ 0 := by linarith
  have n2 : (1 - v) ≠ 0 := by linarith
  refine ⟨?_, ?_, maxA_pos (by show (0 : ℝ) < 1 / 10 ^ 16; positivity)⟩
  · show HasDerivAt (fun q => if t == 0 then 2 * Real.exp (clampA realLits q) ^ (2 - v) / (2 - v)
      else 2 * (t ^ (2 - v) / ((1 - v) * (2 - v)) - t * Real.exp (clampA realLits q) ^ (1 - v) / (1 - v) +
        Real.exp (clampA realLits q) ^ (2 - v) / (2 - v)))
      (2 * (Real.exp (clampA realLits ((2 - v) * p)) - t * Real.exp (clampA realLits ((1 - v) * p)))) p
    rw [c1 p h1 h2, c2 p h1 h2]
    have hpow : ∀ (q k : ℝ), Real.exp q ^ k = Real.exp (k * q) := fun q k => by rw [mul_comm, Real.exp_mul]
    by_cases ht : t = 0
    · subst ht
      have hd : HasDerivAt (fun q : ℝ => 2 * Real.exp ((2 - v) * q) / (2 - v))
          (2 * (Real.exp ((2 - v) * p) - 0 * Real.exp ((1 - v) * p))) p := by
        have := ((hexp (2 - v)).const_mul 2).div_const (2 - v)
        refine this.congr_deriv ?_
        field_simp
        ring
      refine hd.congr_of_eventuallyEq ?_
      filter_upwards [clampA_near h1 h2] with q hq
      rw [hq, if_pos (by simp), hpow]
    · have hd : HasDerivAt (fun q : ℝ => 2 * (t ^ (2 - v) / ((1 - v) * (2 - v)) - t * Real.exp ((1 - v) * q) / (1 - v) +
          Real.exp ((2 - v) * q) / (2 - v))) (2 * (Real.exp ((2 - v) * p) - t * Real.exp ((1 - v) * p))) p := by
        have := ((((((hexp (1 - v)).const_mul t).div_const (1 - v)).const_sub (t ^ (2 - v) / ((1 - v) * (2 - v)))).add
          ((hexp (2 - v)).div_const (2 - v))).const_mul 2)
        refine this.congr_deriv ?_
        field_simp
        ring
      refine hd.congr_of_eventuallyEq ?_
      filter_upwards [clampA_near h1 h2] with q hq
      rw [hq, if_neg (by simpa using ht), hpow, hpow]
  · show HasDerivAt (fun q => 2 * (Real.exp (clampA realLits ((2 - v) * q)) - t * Real.exp (clampA realLits ((1 - v) * q)))) _ p
    have hd : HasDerivAt (fun q : ℝ => 2 * (Real.exp ((2 - v) * q) - t * Real.exp ((1 - v) * q)))
        (2 * ((2 - v) * Real.exp ((2 - v) * p) - (1 - v) * t * Real.exp ((1 - v) * p))) p := by
      have := ((hexp (2 - v)).sub ((hexp (1 - v)).const_mul t)).const_mul 2
      refine this.congr_deriv ?_
      ring
    refine hd.congr_of_eventuallyEq ?_
    filter_upwards [Ioo_mem_nhds h1 h2] with q hq
    rw [c1 q hq.1 hq.2, c2 q hq.1 hq.2]

/-- C55: where it is not at its floor (in particular not for large negative targets) the Tweedie Hessian is the
derivative of its gradient -/
theorem tweedie_hessian (v p t : ℝ) (hv1 : 1 < v) (hv2 : v < 2) (h1 : -700 < p) (h2 : p < 700)
    (hfloor : 1 / 10 ^ 16 ≤ 2 * ((2 - v) * Real.exp ((2 - v) * p) - (1 - v) * t * Real.exp ((1 - v) * p))) :
    HasDerivAt (fun q => (tweedie realNum realLits v).grad q t) ((tweedie realNum realLits v).hess p t) p := by
  have c1 : clampA realLits ((2 - v) * p) = (2 - v) * p := clampA_id (by nlinarith) (by nlinarith)
  have c2 : clampA realLits ((1 - v) * p) = (1 - v) * p := clampA_id (by nlinarith) (by nlinarith)
  have he : (tweedie realNum realLits v).hess p t =
      2 * ((2 - v) * Real.exp ((2 - v) * p) - (1 - v) * t * Real.exp ((1 - v) * p)) := by
    show maxA (1 / 10 ^ 16) |2 * ((2 - v) * Real.exp (clampA realLits ((2 - v) * p)) -
      (1 - v) * t * Real.exp (clampA realLits ((1 - v) * p)))| = _
    rw [c1, c2, abs_of_nonneg (le_trans (by positivity) hfloor)]
    unfold maxA
    split_ifs with h
    · rfl
    · exact le_antisymm hfloor (not_lt.1 h)
  rw [he]
  exact (tweedie_derivative v p t hv1 hv2 h1 h2).2.1

/-! ## C57 -/

theorem crossEntropy_eq (p t : ℝ) : crossEntropy p t = Real.log (1 + Real.exp p) - t * p := by
  unfold crossEntropy
  have h1 : 1 / (1 + Real.exp (-p)) = Real.exp p / (1 + Real.exp p) := by
    rw [Real.exp_neg]; have := Real.exp_pos p; field_simp; ring
  have h2 : 1 - 1 / (1 + Real.exp (-p)) = 1 / (1 + Real.exp p) := by
    rw [h1]; have := Real.exp_pos p; field_simp; ring
  have hp := Real.exp_pos p
  rw [h2, h1, Real.log_div hp.ne' (by positivity), Real.log_exp, one_div, Real.log_inv]
  ring

/-- C57 (partial): for negative raw scores inside the clamp the reported loss is the cross entropy. Missing: all other raw
scores, see `binary_loss_error`. -/
theorem binary_loss_partial (p t : ℝ) (h1 : -700 ≤ p) (h2 : p < 0) :
    (binary realNum realLits).loss p t = crossEntropy p t := by
  show (if 0 ≤ clampA realLits p then t * clampA realLits p + Real.log (1 + Real.exp (-clampA realLits p))
    else -t * clampA realLits p + Real.log (1 + Real.exp (clampA realLits p))) = _
  rw [clampA_id h1 (by linarith), if_neg (by linarith), crossEntropy_eq]
  ring

/-- C57 is false: for raw scores from 0 to 700 the reported loss is off by `(2t - 1) p`; a confident correct positive
prediction is charged and a confident wrong one rewarded -/
theorem binary_loss_error (p t : ℝ) (h1 : 0 ≤ p) (h2 : p ≤ 700) :
    (binary realNum realLits).loss p t = crossEntropy p t + (2 * t - 1) * p := by
  show (if 0 ≤ clampA realLits p then t * clampA realLits p + Real.log (1 + Real.exp (-clampA realLits p))
    else -t * clampA realLits p + Real.log (1 + Real.exp (clampA realLits p))) = _
  rw [clampA_id (by linarith) h2, if_pos h1, crossEntropy_eq]
  have : 1 + Real.exp (-p) = (1 + Real.exp p) / Real.exp p := by
    rw [Real.exp_neg]; have := Real.exp_pos p; field_simp; ring
  rw [this, Real.log_div (by positivity) (Real.exp_pos p).ne', Real.log_exp]
  ring

/-- C57 is false: a concrete score and target -/
theorem binary_loss_wrong : ∃ p t : ℝ, 0 ≤ t ∧ t ≤ 1 ∧ |p| ≤ 700 ∧
    (binary realNum realLits).loss p t ≠ crossEntropy p t := by
  refine ⟨1, 1, by norm_num, by norm_num, by norm_num, ?_⟩
  rw [binary_loss_error 1 1 (by norm_num) (by norm_num)]
  intro h; linarith

/-- C57: the gradient used for training is nevertheless that of the cross entropy, and the Hessian its derivative -/
theorem binary_gradient (p t : ℝ) (h1 : -700 < p) (h2 : p < 700) :
    HasDerivAt (fun q => crossEntropy q t) ((binary realNum realLits).grad p t) p ∧
      HasDerivAt (fun q => (binary realNum realLits).grad q t)
        (1 / (1 + Real.exp (-p)) * (1 - 1 / (1 + Real.exp (-p)))) p ∧
      0 < (binary realNum realLits).hess p t := by
  have hs : 1 / (1 + Real.exp (-p)) = Real.exp p / (1 + Real.exp p) := by
    rw [Real.exp_neg]; have := Real.exp_pos p; field_simp; ring
  have hp := Real.exp_pos p
  refine ⟨?_, ?_, maxA_pos (by show (0 : ℝ) < 1 / 10 ^ 16; positivity)⟩
  · show HasDerivAt (fun q => crossEntropy q t) (1 / (1 + Real.exp (-clampA realLits p)) - t) p
    rw [clampA_id h1.le h2.le, hs]
    have hd := (((Real.hasDerivAt_exp p).const_add 1).log (by positivity)).sub ((hasDerivAt_id p).const_mul t)
    rw [mul_one] at hd
    exact hd.congr_of_eventuallyEq (Eventually.of_forall fun q => by exact crossEntropy_eq q t)
  · show HasDerivAt (fun q => 1 / (1 + Real.exp (-clampA realLits q)) - t) _ p
    have hd : HasDerivAt (fun q : ℝ => 1 / (1 + Real.exp (-q)) - t) (1 / (1 + Real.exp (-p)) * (1 - 1 / (1 + Real.exp (-p)))) p := by
      have hexp : HasDerivAt (fun q : ℝ => 1 + Real.exp (-q)) (-Real.exp (-p)) p := by
        simpa using (hasDerivAt_neg p).exp.const_add 1
      have hpos := Real.exp_pos (-p)
      have := (hexp.inv (by positivity)).sub_const t
      simp only [one_div]
      refine this.congr_deriv ?_
      field_simp
      ring
    refine hd.congr_of_eventuallyEq ?_
    filter_upwards [clampA_near h1 h2] with q hq
    rw [hq]

/-- the hypotheses of the theorems above are met -/
example : HasDerivAt (fun q => (huber realNum realLits 2).loss q 1) 2 3 := by
  have := (huber_derivative 2 3 1 (by norm_num)).1
  have e : (huber realNum realLits 2).grad 3 1 = 2 := by
    show (if |(3 : ℝ) - 1| ≤ 2 then (3 : ℝ) - 1 else if (0 : ℝ) < 3 - 1 then 2 else -2) = 2
    norm_num
  rwa [e] at this

end Scigo.Boost
