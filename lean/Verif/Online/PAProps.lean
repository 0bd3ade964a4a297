import Verif.Online.Lemmas
import Mathlib.Tactic.Positivity

/-!
# Properties of the passive-aggressive models (C45)
-/

set_option linter.unusedSectionVars false

namespace Scigo.Online

open Finset

/-- weighted Cauchy–Schwarz: no correction with slack `z` is cheaper than `L²/(s+k)/2` -/
theorem pa_lower_bound (n : Nat) (x u : Nat → ℝ) (C L z σ : ℝ) (hC : 0 < C) (hL : 0 ≤ L)
    (hσ : σ ^ 2 = 1) (hz : L ≤ z + σ * ∑ i ∈ range n, x i * u i) :
    1 / 2 * (L ^ 2 / (∑ i ∈ range n, x i ^ 2 + 1 / (2 * C))) ≤
      1 / 2 * ∑ i ∈ range n, u i ^ 2 + C * z ^ 2 := by
  set s := ∑ i ∈ range n, x i ^ 2 with hs
  set A := ∑ i ∈ range n, u i ^ 2 with hA
  set a := σ * ∑ i ∈ range n, x i * u i with ha
  have hs0 : 0 ≤ s := sum_nonneg fun i _ => sq_nonneg _
  have hA0 : 0 ≤ A := sum_nonneg fun i _ => sq_nonneg _
  have hcs : a ^ 2 ≤ s * A := by
    rw [ha, mul_pow, hσ, one_mul]
    exact sum_mul_sq_le_sq_mul_sq _ _ _
  have hk : 0 < 1 / (2 * C) := by positivity
  set k := 1 / (2 * C) with hkd
  have hCk : 2 * C * k = 1 := by rw [hkd]; field_simp
  have hsk : 0 < s + k := by linarith
  set B := 2 * C * z ^ 2 with hB
  have hB0 : 0 ≤ B := by positivity
  have hBk : B * k = z ^ 2 := by
    rw [hB, show 2 * C * z ^ 2 * k = (2 * C * k) * z ^ 2 by ring, hCk, one_mul]
  have hcross : 2 * (a * z) ≤ A * k + B * s := by
    refine le_of_sq_le_sq' ?_ (by positivity)
    have e1 : (2 * (a * z)) ^ 2 = 4 * (a ^ 2 * z ^ 2) := by ring
    have e2 : a ^ 2 * z ^ 2 ≤ (s * A) * (B * k) := by
      rw [hBk]; exact mul_le_mul_of_nonneg_right hcs (sq_nonneg _)
    rw [e1]
    nlinarith [sq_nonneg (A * k - B * s)]
  have hmain : L ^ 2 ≤ (A + B) * (s + k) := by
    have h1 : L ^ 2 ≤ (z + a) ^ 2 := by nlinarith
    nlinarith
  rw [← sub_nonneg]
  have : 1 / 2 * A + C * z ^ 2 - 1 / 2 * (L ^ 2 / (s + k))
      = 1 / 2 * (((A + B) * (s + k) - L ^ 2) / (s + k)) := by
    rw [hB]; field_simp
  rw [this]
  have := div_nonneg (sub_nonneg.2 hmain) hsk.le
  linarith
where
  le_of_sq_le_sq' {a b : ℝ} (h : a ^ 2 ≤ b ^ 2) (hb : 0 ≤ b) : a ≤ b := by
    by_contra hc
    push Not at hc
    nlinarith

theorem entry_addScaled (w x : List ℝ) (tau : ℝ) (h : x.length = w.length) (i : Nat) (hi : i < w.length) :
    entry (addScaled w x tau) i = entry w i + tau * entry x i := by
  rw [entry, addScaled, getD_map_range _ _ _ _ hi, if_pos (h ▸ hi)]
  rfl

theorem lin_addScaled (w x : List ℝ) (tau b c : ℝ) (h : x.length = w.length) :
    lin x.length (entry x) (entry (addScaled w x tau)) (b + c) =
      lin x.length (entry x) (entry w) b + tau * ∑ i ∈ range x.length, entry x i ^ 2 + c := by
  unfold lin
  have : ∑ i ∈ range x.length, entry (addScaled w x tau) i * entry x i
      = ∑ i ∈ range x.length, entry w i * entry x i + tau * ∑ i ∈ range x.length, entry x i ^ 2 := by
    rw [mul_sum, ← sum_add_distrib]
    refine sum_congr rfl fun i hi => ?_
    rw [entry_addScaled w x tau h i (h ▸ mem_range.1 hi)]
    ring
  rw [this]; ring

/-- all loss names give the same step: the signed loss over `‖x‖² + 1/(2C)` -/
theorem paTau_eq (loss : String) (C eps : ℝ) (x : List ℝ) (p y : ℝ) :
    paTau realNum loss C eps x p y =
      (if y < p then -1 else 1) *
        (max 0 (|y - p| - eps) / (∑ i ∈ range x.length, entry x i ^ 2 + 1 / (2 * C))) := by
  unfold paTau
  rw [dotSelf_eq]
  have ha : realNum.abs (y - p) = |y - p| := rfl
  have h2 : realNum.two = 2 := rfl
  simp only
  by_cases h1 : loss = "squared_epsilon_insensitive"
  · rw [if_pos h1]
    by_cases h2 : eps < realNum.abs (y - p)
    · rw [if_pos h2, ← ha, max_eq_right (by linarith)]
      split_ifs <;> simp [realNum]
    · rw [if_neg h2, ← ha, max_eq_left (by linarith)]; simp
  · rw [if_neg h1]
    by_cases h2 : 0 < realNum.abs (y - p) - eps
    · rw [if_pos h2, if_pos h2, ← ha, max_eq_right h2.le]
      split_ifs <;> simp [realNum]
    · rw [if_neg h2, if_neg (lt_irrefl _), ← ha, max_eq_left (not_lt.1 h2)]; simp

/-- the state after one sample -/
theorem pa_update_eq (m : PA ℝ) (w x : List ℝ) (y : ℝ) (hc : m.coef = some w)
    (hx : x.length = w.length) :
    let p := lin x.length (entry x) (entry w) m.intercept
    let tau := paTau realNum m.loss m.C m.epsilon x p y
    m.updateWeights realNum x y = some { m with
      coef := some (if tau = 0 then w else addScaled w x tau)
      intercept := if tau = 0 then m.intercept else
        if m.fitIntercept then m.intercept + tau else m.intercept
      t := m.t + 1 } := by
  intro p tau
  unfold PA.updateWeights
  simp only [hc, Option.getD_some, hx, lt_irrefl, if_false, score_eq]
  have hp : lin w.length (entry x) (entry w) m.intercept = p := by rw [← hx]
  rw [hp]
  by_cases h : tau = 0
  · have h' : (paTau realNum m.loss m.C m.epsilon x p y == 0) = true := beq_iff_eq.2 h
    rw [if_pos h', if_pos h, if_pos h, ← hc]
  · have h' : ¬ (paTau realNum m.loss m.C m.epsilon x p y == 0) = true := fun e => h (beq_iff_eq.1 e)
    rw [if_neg h', if_neg h, if_neg h]

theorem den_pos (C : ℝ) (hC : 0 < C) (n : Nat) (x : Nat → ℝ) :
    0 < ∑ i ∈ range n, x i ^ 2 + 1 / (2 * C) := by
  have : 0 ≤ ∑ i ∈ range n, x i ^ 2 := sum_nonneg fun i _ => sq_nonneg _
  have : 0 < 1 / (2 * C) := by positivity
  linarith

theorem paTau_zero_iff (m : PA ℝ) (hC : 0 < m.C) (x : List ℝ) (p y : ℝ) :
    paTau realNum m.loss m.C m.epsilon x p y = 0 ↔ max 0 (|y - p| - m.epsilon) = 0 := by
  rw [paTau_eq]
  have hd := den_pos m.C hC x.length (entry x)
  constructor
  · intro h
    rcases mul_eq_zero.1 h with h | h
    · split_ifs at h <;> norm_num at h
    · rcases div_eq_zero_iff.1 h with h | h
      · exact h
      · exact absurd h hd.ne'
  · intro h; rw [h]; simp

/-- **C45** Passive: the step leaves weights and intercept unchanged exactly when the
epsilon-insensitive loss of the sample is zero (or the sample gives nothing to move: a zero row and no
intercept). -/
theorem pa_unchanged_iff (m : PA ℝ) (w x : List ℝ) (y : ℝ) (hC : 0 < m.C) (hc : m.coef = some w)
    (hx : x.length = w.length) :
    ∃ m', m.updateWeights realNum x y = some m' ∧ m'.t = m.t + 1 ∧
      ((m'.coef = m.coef ∧ m'.intercept = m.intercept) ↔
        epsLoss m.epsilon x.length (entry x) y (entry w) m.intercept = 0 ∨
        ((∀ i < x.length, entry x i = 0) ∧ m.fitIntercept = false)) := by
  refine ⟨_, pa_update_eq m w x y hc hx, rfl, ?_⟩
  simp only
  set p := lin x.length (entry x) (entry w) m.intercept
  set tau := paTau realNum m.loss m.C m.epsilon x p y with htau
  have hz : tau = 0 ↔ epsLoss m.epsilon x.length (entry x) y (entry w) m.intercept = 0 :=
    paTau_zero_iff m hC x p y
  by_cases h : tau = 0
  · rw [if_pos h, if_pos h]
    exact ⟨fun _ => Or.inl (hz.1 h), fun _ => ⟨hc.symm, rfl⟩⟩
  · rw [if_neg h, if_neg h]
    constructor
    · rintro ⟨h1, h2⟩
      right
      rw [hc] at h1
      injection h1 with h1
      refine ⟨fun i hi => ?_, ?_⟩
      · have := entry_addScaled w x tau hx i (hx ▸ hi)
        rw [h1] at this
        have : tau * entry x i = 0 := by linarith
        rcases mul_eq_zero.1 this with e | e
        · exact absurd e h
        · exact e
      · by_contra hf
        have hf : m.fitIntercept = true := by simpa using hf
        rw [if_pos hf] at h2
        exact h (by linarith)
    · rintro (h1 | ⟨h1, h2⟩)
      · exact absurd (hz.2 h1) h
      · refine ⟨?_, by rw [h2]; simp⟩
        rw [hc]
        congr 1
        refine List.ext_getElem (by simp [addScaled]) fun i a b => ?_
        have := entry_addScaled w x tau hx i b
        rw [h1 i (hx ▸ b), mul_zero, add_zero, entry, entry, List.getD_eq_getElem _ _ a,
          List.getD_eq_getElem _ _ b] at this
        exact this

/-- **C45** Aggressive, without intercept: among all weight vectors the new one minimises half the
squared distance to the old one plus `C` times its squared loss on the sample (the PA-II problem), and
the loss of the sample is multiplied by exactly `k / (‖x‖² + k)` with `k = 1/(2C)`, so it strictly
decreases unless it is zero or the row is zero. With an intercept this fails, see
`pa_with_intercept_false`; that case is what is missing. -/
theorem pa_step_optimal_partial (m : PA ℝ) (w x : List ℝ) (y : ℝ) (hC : 0 < m.C) (hε : 0 ≤ m.epsilon)
    (hf : m.fitIntercept = false) (hc : m.coef = some w) (hx : x.length = w.length) :
    ∃ m' w', m.updateWeights realNum x y = some m' ∧ m'.coef = some w' ∧ w'.length = w.length ∧
      m'.intercept = m.intercept ∧
      (∀ v : Nat → ℝ,
        paObjective m.C x.length
          (fun u => epsLoss m.epsilon x.length (entry x) y u m.intercept) (entry w) (entry w') ≤
        paObjective m.C x.length
          (fun u => epsLoss m.epsilon x.length (entry x) y u m.intercept) (entry w) v) ∧
      epsLoss m.epsilon x.length (entry x) y (entry w') m.intercept =
        epsLoss m.epsilon x.length (entry x) y (entry w) m.intercept *
          (1 / (2 * m.C) / (∑ i ∈ range x.length, entry x i ^ 2 + 1 / (2 * m.C))) := by
  set p := lin x.length (entry x) (entry w) m.intercept with hp
  set tau := paTau realNum m.loss m.C m.epsilon x p y with htau
  set L := max 0 (|y - p| - m.epsilon) with hL
  have hL0 : 0 ≤ L := le_max_left _ _
  set s := ∑ i ∈ range x.length, entry x i ^ 2 with hs
  have hs0 : 0 ≤ s := sum_nonneg fun i _ => sq_nonneg _
  set k := 1 / (2 * m.C) with hk
  have hk0 : 0 < k := by positivity
  have hsk : 0 < s + k := by linarith
  have hCk : 2 * m.C * k = 1 := by rw [hk]; field_simp
  set σ : ℝ := if y < p then -1 else 1 with hσ
  have hσ2 : σ ^ 2 = 1 := by rw [hσ]; split_ifs <;> norm_num
  have habs : |y - p| = σ * (y - p) := by
    rw [hσ]; split_ifs with h
    · rw [abs_of_neg (by linarith)]; ring
    · rw [abs_of_nonneg (by linarith)]; ring
  have ht : tau = σ * (L / (s + k)) := paTau_eq _ _ _ _ _ _
  have hloss : epsLoss m.epsilon x.length (entry x) y (entry w) m.intercept = L := rfl
  -- the new weights
  have hlen : (if tau = 0 then w else addScaled w x tau).length = w.length := by
    split_ifs <;> simp [addScaled]
  have hlin : lin x.length (entry x) (entry (if tau = 0 then w else addScaled w x tau)) m.intercept
      = p + tau * s := by
    by_cases h : tau = 0
    · rw [if_pos h, h]; simp [hp]
    · rw [if_neg h]
      have := lin_addScaled w x tau m.intercept 0 hx
      rw [add_zero, add_zero] at this
      exact this
  have hdist : ∑ i ∈ range x.length,
      (entry (if tau = 0 then w else addScaled w x tau) i - entry w i) ^ 2 = tau ^ 2 * s := by
    rw [hs, mul_sum]
    refine sum_congr rfl fun i hi => ?_
    by_cases h : tau = 0
    · rw [if_pos h, h]; simp
    · rw [if_neg h, entry_addScaled w x tau hx i (hx ▸ mem_range.1 hi)]; ring
  have hnew : epsLoss m.epsilon x.length (entry x) y
      (entry (if tau = 0 then w else addScaled w x tau)) m.intercept = L * (k / (s + k)) := by
    unfold epsLoss
    rw [hlin]
    rcases eq_or_lt_of_le hL0 with h | h
    · have h0 : tau = 0 := by rw [ht, ← h]; simp
      rw [h0, zero_mul, add_zero, ← h, zero_mul]
      exact h.symm
    · have hLe : L = |y - p| - m.epsilon := by
        rw [hL]; refine max_eq_right ?_
        by_contra hc
        rw [hL, max_eq_left (le_of_not_ge hc)] at h
        exact lt_irrefl _ h
      have e1 : σ * (y - (p + tau * s)) = m.epsilon + L * (k / (s + k)) := by
        have : σ * (y - (p + tau * s)) = σ * (y - p) - σ ^ 2 * (L / (s + k)) * s := by
          rw [ht]; ring
        rw [this, hσ2, ← habs]
        have : L * (k / (s + k)) = L - L / (s + k) * s := by field_simp; ring
        rw [this]
        linarith
      have hpos : 0 ≤ L * (k / (s + k)) := mul_nonneg hL0 (div_nonneg hk0.le hsk.le)
      have e2 : |y - (p + tau * s)| = m.epsilon + L * (k / (s + k)) := by
        have : |σ| = 1 := by rw [hσ]; split_ifs <;> simp
        rw [← e1, ← abs_of_nonneg (show 0 ≤ σ * (y - (p + tau * s)) by rw [e1]; linarith), abs_mul, this,
          one_mul]
      rw [e2, add_sub_cancel_left]
      exact max_eq_right hpos
  refine ⟨_, _, pa_update_eq m w x y hc hx, rfl, hlen, ?_, ?_, ?_⟩
  · simp only [hf, Bool.false_eq_true, if_false]
    split_ifs <;> rfl
  · intro v
    unfold paObjective
    simp only
    rw [hdist, hnew]
    rcases eq_or_lt_of_le hL0 with h0 | h0
    · have ht0 : tau = 0 := by rw [ht, ← h0]; simp
      rw [ht0, ← h0]
      have h1 : 0 ≤ ∑ i ∈ range x.length, (v i - entry w i) ^ 2 := sum_nonneg fun i _ => sq_nonneg _
      have h2 := mul_nonneg hC.le (sq_nonneg (epsLoss m.epsilon x.length (entry x) y v m.intercept))
      simp only [zero_mul, ne_eq, OfNat.ofNat_ne_zero, not_false_eq_true, zero_pow, mul_zero, add_zero]
      linarith
    have hv : L ≤ epsLoss m.epsilon x.length (entry x) y v m.intercept
        + σ * ∑ i ∈ range x.length, entry x i * (v i - entry w i) := by
      have hd := lin_diff x.length (entry x) (entry w) v m.intercept m.intercept
      rw [sub_self, add_zero, ← hp] at hd
      rw [← hd]
      unfold epsLoss
      set q := lin x.length (entry x) v m.intercept
      have hLe : L = |y - p| - m.epsilon := by
        rw [hL]; refine max_eq_right ?_
        by_contra hc
        rw [hL, max_eq_left (le_of_not_ge hc)] at h0
        exact lt_irrefl _ h0
      rw [hLe, habs]
      have h1 : σ * (y - q) ≤ |y - q| := by
        have : |σ| = 1 := by rw [hσ]; split_ifs <;> simp
        calc σ * (y - q) ≤ |σ * (y - q)| := le_abs_self _
          _ = |y - q| := by rw [abs_mul, this, one_mul]
      have h2 := le_max_right 0 (|y - q| - m.epsilon)
      nlinarith
    have := pa_lower_bound x.length (entry x) (fun i => v i - entry w i) m.C L
      (epsLoss m.epsilon x.length (entry x) y v m.intercept) σ hC hL0 hσ2 hv
    have e : 1 / 2 * (tau ^ 2 * s) + m.C * (L * (k / (s + k))) ^ 2 = 1 / 2 * (L ^ 2 / (s + k)) := by
      rw [ht, mul_pow, hσ2]
      have hC2 : m.C = 1 / (2 * k) := by rw [hk]; field_simp
      rw [hC2]
      field_simp
    rw [e]
    exact this
  · rw [hnew, hloss]

/-- a model meeting the hypotheses: loss positive, row not zero -/
noncomputable def exPA : PA ℝ :=
  { C := 1, loss := "epsilon_insensitive", epsilon := 1 / 10, fitIntercept := false, warmStart := false,
    maxIter := 1000, coef := some [1, 2], intercept := 0, nFeatures := 2, nIter := 0, t := 0,
    fitted := true }

example : 0 < exPA.C ∧ 0 ≤ exPA.epsilon ∧ exPA.fitIntercept = false ∧ exPA.coef = some [1, 2] ∧
    ([3, 1] : List ℝ).length = ([1, 2] : List ℝ).length ∧
    0 < epsLoss exPA.epsilon 2 (entry [3, 1]) 9 (entry [1, 2]) exPA.intercept := by
  refine ⟨by norm_num [exPA], by norm_num [exPA], rfl, rfl, rfl, ?_⟩
  norm_num [epsLoss, lin, sum_range_succ, entry, exPA]

/-- **C45** is false with the (default) intercept, because the step length ignores the intercept
column. First, with the default `C = 1`, `epsilon = 0.1`: from the zero model, on the row `[0]` with
target `1.1`, the step ends at intercept 2 with loss `0.8`, although intercept 1 is closer and has loss
zero. Second, with `C = 10` the step increases the loss of that sample from 1 to `18.8`. -/
theorem pa_with_intercept_false :
    (∃ m', ({ exPA with fitIntercept := true, coef := some [0] } : PA ℝ).updateWeights realNum [0] (11 / 10)
        = some m' ∧ m'.coef = some [0] ∧ m'.intercept = 2 ∧
      epsLoss (1 / 10) 1 (entry [0]) (11 / 10) (entry [0]) 2 = 4 / 5 ∧
      epsLoss (1 / 10) 1 (entry [0]) (11 / 10) (entry [0]) 1 = 0) ∧
    (∃ m', ({ exPA with C := 10, fitIntercept := true, coef := some [0] } : PA ℝ).updateWeights realNum
        [0] (11 / 10) = some m' ∧ m'.coef = some [0] ∧
      epsLoss (1 / 10) 1 (entry [0]) (11 / 10) (entry [0]) 0 = 1 ∧
      epsLoss (1 / 10) 1 (entry [0]) (11 / 10) (entry [0]) m'.intercept = 94 / 5) := by
  have hl : lin 1 (entry [0]) (entry [0]) (0 : ℝ) = 0 := by simp [lin, entry]
  have ht : ∀ C : ℝ, paTau realNum "epsilon_insensitive" C (1 / 10) [0] 0 (11 / 10) = 1 / (1 / (2 * C)) := by
    intro C
    rw [paTau_eq]
    have h1 : max 0 (|(11 / 10 : ℝ) - 0| - 1 / 10) = 1 := by
      rw [abs_of_pos (by norm_num)]; norm_num
    rw [h1]
    norm_num [entry]
  have hsc : addScaled [0] [0] (2 : ℝ) = [0] := by simp [addScaled]
  have hsc' : addScaled [0] [0] (20 : ℝ) = [0] := by simp [addScaled]
  constructor
  · refine ⟨_, pa_update_eq _ [0] [0] _ rfl rfl, ?_, ?_, ?_, ?_⟩
    · simp only [List.length_singleton, exPA, hl, ht]
      norm_num [hsc]
    · simp only [List.length_singleton, exPA, hl, ht]
      norm_num
    · unfold epsLoss
      rw [show lin 1 (entry [0]) (entry [0]) (2 : ℝ) = 2 by simp [lin, entry], abs_of_neg (by norm_num)]
      norm_num
    · unfold epsLoss
      rw [show lin 1 (entry [0]) (entry [0]) (1 : ℝ) = 1 by simp [lin, entry], abs_of_pos (by norm_num)]
      norm_num
  · refine ⟨_, pa_update_eq _ [0] [0] _ rfl rfl, ?_, ?_, ?_⟩
    · simp only [List.length_singleton, exPA, hl, ht]
      norm_num [hsc']
    · unfold epsLoss
      rw [hl, abs_of_pos (by norm_num)]
      norm_num
    · simp only [List.length_singleton, exPA, hl, ht]
      norm_num
      unfold epsLoss
      rw [show lin 1 (entry [0]) (entry [0]) (20 : ℝ) = 20 by simp [lin, entry], abs_of_neg (by norm_num)]
      norm_num

/-! ## The classifier -/

/-- **C45** (classifier, without intercept) A step of `PassiveAggressiveClassifier` solves, for every class
separately, the PA-II problem of the hinge loss of that class against the rest: the new weights minimise
half the squared distance plus `C` times the squared hinge loss on the sample; a label outside the
known classes changes nothing. What is missing: the case with an intercept, where the step overshoots
as in `pa_with_intercept_false`. -/
theorem paClf_step_optimal_partial (m : PAClf ℝ) (W : List (List ℝ)) (x : List ℝ) (label : Int)
    (hC : 0 < m.C) (hf : m.fitIntercept = false) (hc : m.coef = some W)
    (hW : W.length = m.classes.length) (hx : ∀ w ∈ W, w.length = x.length) :
    (label ∉ m.classes → m.updateWeights realNum x label = some m) ∧
    (∀ k, m.classes.idxOf? label = some k →
      ∃ m' W', m.updateWeights realNum x label = some m' ∧ m'.coef = some W' ∧
        W'.length = W.length ∧
        ∀ c < m.classes.length,
          m'.intercept.getD c 0 = m.intercept.getD c 0 ∧
          ∀ v : Nat → ℝ,
            paObjective m.C x.length
              (fun u => hingeLoss (if c = k then 1 else -1) x.length (entry x) u (m.intercept.getD c 0))
              (entry (W.getD c [])) (entry (W'.getD c [])) ≤
            paObjective m.C x.length
              (fun u => hingeLoss (if c = k then 1 else -1) x.length (entry x) u (m.intercept.getD c 0))
              (entry (W.getD c [])) v) := by
  constructor
  · intro h
    unfold PAClf.updateWeights
    have : m.classes.idxOf? label = none := by rw [List.idxOf?_eq_none_iff]; exact h
    rw [this]
  · intro k hk
    have hany : W.any (fun w => decide (w.length < x.length)) = false := by
      rw [List.any_eq_false]
      intro w hw
      rw [hx w hw]; simp
    have hu : ∃ m', m.updateWeights realNum x label = some m' ∧
        m'.coef = some ((List.range m.classes.length).map (fun c =>
          if paClfTau realNum m.C (target c k) (score (W.getD c []) (m.intercept.getD c 0) x) x == 0
          then W.getD c []
          else addScaled (W.getD c []) x
            (paClfTau realNum m.C (target c k) (score (W.getD c []) (m.intercept.getD c 0) x) x))) ∧
        m'.intercept = (List.range m.classes.length).map (fun c => m.intercept.getD c 0) := by
      unfold PAClf.updateWeights
      simp only [hk, hc, Option.getD_some, hany, Bool.false_eq_true, if_false, hf]
      refine ⟨_, rfl, rfl, ?_⟩
      simp
    obtain ⟨m', e1, e2, e3⟩ := hu
    refine ⟨m', _, e1, e2, by simp [hW], fun c hcl => ?_⟩
    rw [e3, getD_map_range _ _ _ _ hcl, getD_map_range _ _ _ _ hcl]
    refine ⟨rfl, fun v => ?_⟩
    have hwl : (W.getD c []).length = x.length := by
      rw [List.getD_eq_getElem _ _ (by omega)]
      exact hx _ (List.getElem_mem _)
    set w := W.getD c [] with hw
    set b := m.intercept.getD c 0 with hb
    set σ : ℝ := if c = k then 1 else -1 with hσ
    have htgt : (target c k : ℝ) = σ := rfl
    have hσ2 : σ ^ 2 = 1 := by rw [hσ]; split_ifs <;> norm_num
    rw [htgt, score_eq]
    set p := lin x.length (entry x) (entry w) b with hp
    set s := ∑ i ∈ range x.length, entry x i ^ 2 with hs
    have hs0 : 0 ≤ s := sum_nonneg fun i _ => sq_nonneg _
    set kk := 1 / (2 * m.C) with hkk
    have hk0 : 0 < kk := by positivity
    have hsk : 0 < s + kk := by linarith
    set L := max 0 (1 - σ * p) with hL
    have hL0 : 0 ≤ L := le_max_left _ _
    have ht : paClfTau realNum m.C σ p x = σ * (L / (s + kk)) := by
      unfold paClfTau
      rw [dotSelf_eq]
      split_ifs with h
      · rw [hL, max_eq_right (by linarith)]
        simp only [realNum]
        ring
      · rw [hL, max_eq_left (by linarith)]; simp
    set tau := paClfTau realNum m.C σ p x with htau
    have hif : (if tau == 0 then w else addScaled w x tau) = if tau = 0 then w else addScaled w x tau := by
      by_cases h : tau = 0
      · rw [if_pos h, if_pos (beq_iff_eq.2 h)]
      · rw [if_neg h, if_neg (fun e => h (beq_iff_eq.1 e))]
    rw [hif]
    have hlin : lin x.length (entry x) (entry (if tau = 0 then w else addScaled w x tau)) b
        = p + tau * s := by
      by_cases h : tau = 0
      · rw [if_pos h, h]; simp [hp]
      · rw [if_neg h]
        have := lin_addScaled w x tau b 0 hwl.symm
        rw [add_zero, add_zero] at this
        exact this
    have hdist : ∑ i ∈ range x.length,
        (entry (if tau = 0 then w else addScaled w x tau) i - entry w i) ^ 2 = tau ^ 2 * s := by
      rw [hs, mul_sum]
      refine sum_congr rfl fun i hi => ?_
      by_cases h : tau = 0
      · rw [if_pos h, h]; simp
      · rw [if_neg h, entry_addScaled w x tau hwl.symm i (hwl ▸ mem_range.1 hi)]; ring
    unfold paObjective
    simp only
    rw [hdist]
    unfold hingeLoss
    rw [hlin]
    rcases eq_or_lt_of_le hL0 with h0 | h0
    · have ht0 : tau = 0 := by rw [ht, ← h0]; simp
      rw [ht0, zero_mul, add_zero, ← hL, ← h0]
      have h1 : 0 ≤ ∑ i ∈ range x.length, (v i - entry w i) ^ 2 := sum_nonneg fun i _ => sq_nonneg _
      have h2 := mul_nonneg hC.le (sq_nonneg (max 0 (1 - σ * lin x.length (entry x) v b)))
      norm_num
      nlinarith
    · have hLe : L = 1 - σ * p := by
        rw [hL]; refine max_eq_right ?_
        by_contra hcon
        rw [hL, max_eq_left (le_of_not_ge hcon)] at h0
        exact lt_irrefl _ h0
      have hnew : 1 - σ * (p + tau * s) = L * (kk / (s + kk)) := by
        have : 1 - σ * (p + tau * s) = (1 - σ * p) - σ ^ 2 * (L / (s + kk)) * s := by rw [ht]; ring
        rw [this, hσ2, ← hLe]
        field_simp
        ring
      rw [hnew, max_eq_right (mul_nonneg hL0 (div_nonneg hk0.le hsk.le))]
      have hv : L ≤ max 0 (1 - σ * lin x.length (entry x) v b)
          + σ * ∑ i ∈ range x.length, entry x i * (v i - entry w i) := by
        have hd := lin_diff x.length (entry x) (entry w) v b b
        rw [sub_self, add_zero, ← hp] at hd
        rw [← hd, hLe]
        have h2 := le_max_right 0 (1 - σ * lin x.length (entry x) v b)
        nlinarith
      have := pa_lower_bound x.length (entry x) (fun i => v i - entry w i) m.C L _ σ hC hL0 hσ2 hv
      have e : 1 / 2 * (tau ^ 2 * s) + m.C * (L * (kk / (s + kk))) ^ 2 = 1 / 2 * (L ^ 2 / (s + kk)) := by
        rw [ht, mul_pow, hσ2]
        have hC2 : m.C = 1 / (2 * kk) := by rw [hkk]; field_simp
        rw [hC2]
        field_simp
      rw [e]
      exact this

/-- two classes, two features -/
example : ∃ m : PAClf ℝ, 0 < m.C ∧ m.fitIntercept = false ∧ m.coef = some [[1, 2], [3, 4]] ∧
    m.classes.length = 2 ∧ m.classes.idxOf? 7 = some 1 ∧
    ∀ w ∈ ([[1, 2], [3, 4]] : List (List ℝ)), w.length = ([5, 6] : List ℝ).length :=
  ⟨⟨1, "hinge", false, false, 1000, some [[1, 2], [3, 4]], [0, 0], [3, 7], 2, 0, 0, true⟩, one_pos, rfl, rfl, rfl,
    by decide, by simp⟩

end Scigo.Online
