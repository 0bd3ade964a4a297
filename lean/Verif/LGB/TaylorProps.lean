import Verif.LGB.EnsembleProps
import Mathlib.Analysis.SpecialFunctions.ExpDeriv
import Mathlib.Analysis.Calculus.Deriv.MeanValue
import Mathlib.Analysis.Calculus.Deriv.Pow
import Mathlib.Tactic.NormNum
import Mathlib.Tactic.FieldSimp
import Mathlib.Tactic.Positivity
import Mathlib.Data.Nat.Factorial.Basic

/-!
# C92, C93: the binary probabilities of `Model.Predict`

`Model.Predict` uses its own exponential, the power series up to the 20th power.
-/

set_option linter.unusedSectionVars false

namespace Scigo.LGB

open Real

/-- the power series of the exponential up to the `n`-th power -/
noncomputable def series (n : Nat) (x : ℝ) : ℝ := ∑ k ∈ Finset.range (n + 1), x ^ k / (k.factorial : ℝ)

theorem series_succ (n : Nat) (x : ℝ) : series (n + 1) x = series n x + x ^ (n + 1) / ((n + 1).factorial : ℝ) := by
  unfold series; rw [Finset.sum_range_succ]

/-- the loop computes the series -/
theorem taylor_loop (f : Nat → ℝ) (hf : ∀ n : Nat, f n = n) (x : ℝ) (n : Nat) :
    (List.range n).foldl (fun (s : ℝ × ℝ) i => (s.1 * (x / f (i + 1)), s.2 + s.1 * (x / f (i + 1)))) (1, 1)
      = (x ^ n / (n.factorial : ℝ), series n x) := by
  induction n with
  | zero => simp [series]
  | succ n ih =>
    rw [List.range_succ, List.foldl_append, ih]
    have e : x ^ n / (n.factorial : ℝ) * (x / f (n + 1)) = x ^ (n + 1) / ((n + 1).factorial : ℝ) := by
      rw [hf, Nat.factorial_succ, pow_succ, div_mul_div_comm]
      push_cast
      ring
    simp only [List.foldl_cons, List.foldl_nil, e, series_succ]

/-- exact arithmetic with the literals of the code; `math.Exp` is the real exponential -/
structure RealENum (N : ENum ℝ) : Prop where
  ofNat : ∀ n : Nat, N.ofNat n = n
  c700 : N.c700 = 700
  c500 : N.c500 = 500
  huge : N.huge = 10 ^ 308
  exp : ∀ x, N.exp x = Real.exp x
  isInf : ∀ x, N.isInf x = false

theorem taylorExp_eq (N : ENum ℝ) (hN : RealENum N) (x : ℝ) :
    taylorExp N x = if 700 < x then 10 ^ 308 else if x < -700 then 0 else series 20 x := by
  unfold taylorExp
  rw [hN.c700, hN.huge]
  simp only
  rw [taylor_loop N.ofNat hN.ofNat]

/-- derivative of the series in `-x` -/
theorem series_neg_deriv (n : Nat) (x : ℝ) :
    HasDerivAt (fun y => series (n + 1) (-y)) (-(series n (-x))) x := by
  unfold series
  have h : ∀ k ∈ Finset.range (n + 1 + 1), HasDerivAt (fun y : ℝ => (-y) ^ k / (k.factorial : ℝ))
      (k * (-x) ^ (k - 1) * (-1) / (k.factorial : ℝ)) x := by
    intro k _
    have := ((hasDerivAt_id x).neg.pow k).div_const (k.factorial : ℝ)
    simpa using this
  have hs := HasDerivAt.fun_sum h
  have e : ∑ k ∈ Finset.range (n + 1 + 1), (k * (-x) ^ (k - 1) * (-1) / (k.factorial : ℝ))
      = -∑ k ∈ Finset.range (n + 1), (-x) ^ k / (k.factorial : ℝ) := by
    rw [Finset.sum_range_succ', ← Finset.sum_neg_distrib]
    simp only [Nat.cast_zero, zero_mul, zero_div, add_zero]
    refine Finset.sum_congr rfl (fun k _ => ?_)
    rw [Nat.factorial_succ, Nat.add_sub_cancel]
    push_cast
    have h1 : (k.factorial : ℝ) ≠ 0 := by positivity
    have h2 : (k : ℝ) + 1 ≠ 0 := by positivity
    field_simp
  rw [e] at hs
  exact hs

theorem exp_neg_deriv (x : ℝ) : HasDerivAt (fun y => Real.exp (-y)) (-(Real.exp (-x))) x := by
  have := HasDerivAt.exp (hasDerivAt_neg x)
  rwa [mul_neg_one] at this

theorem nonneg_of_deriv (f f' : ℝ → ℝ) (h0 : f 0 = 0) (hd : ∀ x, HasDerivAt f (f' x) x)
    (hp : ∀ x, 0 ≤ x → 0 ≤ f' x) (x : ℝ) (hx : 0 ≤ x) : 0 ≤ f x := by
  have hm : MonotoneOn f (Set.Ici 0) := by
    refine monotoneOn_of_deriv_nonneg (convex_Ici 0) (fun y _ => (hd y).continuousAt.continuousWithinAt)
      (fun y _ => (hd y).differentiableAt.differentiableWithinAt) (fun y hy => ?_)
    rw [(hd y).deriv]
    exact hp y (by simpa using (interior_subset hy))
  have := hm (Set.mem_Ici.2 le_rfl) (Set.mem_Ici.2 hx) hx
  rwa [h0] at this

theorem series_zero (n : Nat) : series n 0 = 1 := by
  unfold series
  rw [Finset.sum_range_succ']
  simp

/-- the error of the series on the negative axis alternates in sign and is at most the next term -/
theorem series_error (n : Nat) : ∀ x : ℝ, 0 ≤ x →
    0 ≤ (-1) ^ n * (series n (-x) - Real.exp (-x)) ∧
    (-1) ^ n * (series n (-x) - Real.exp (-x)) ≤ x ^ (n + 1) / ((n + 1).factorial : ℝ) := by
  induction n with
  | zero =>
    intro x hx
    have h1 := Real.add_one_le_exp (-x)
    have h2 : Real.exp (-x) ≤ 1 := Real.exp_le_one_iff.2 (by linarith)
    simp only [series, pow_zero, one_mul, zero_add, Finset.range_one, Finset.sum_singleton, Nat.factorial,
      Nat.cast_one, div_one, pow_one, mul_one]
    constructor <;> linarith
  | succ n ih =>
    intro x hx
    have hd : ∀ x, HasDerivAt (fun y => (-1) ^ (n + 1) * (series (n + 1) (-y) - Real.exp (-y)))
        ((-1) ^ n * (series n (-x) - Real.exp (-x))) x := by
      intro x
      have := ((series_neg_deriv n x).sub (exp_neg_deriv x)).const_mul ((-1 : ℝ) ^ (n + 1))
      have e : (-1 : ℝ) ^ (n + 1) * (-series n (-x) - -Real.exp (-x))
          = (-1) ^ n * (series n (-x) - Real.exp (-x)) := by rw [pow_succ]; ring
      rw [e] at this
      exact this
    constructor
    · refine nonneg_of_deriv _ _ ?_ hd (fun x hx => (ih x hx).1) x hx
      simp [series_zero]
    · have hd2 : ∀ x, HasDerivAt (fun y => y ^ (n + 1 + 1) / ((n + 1 + 1).factorial : ℝ)
          - (-1) ^ (n + 1) * (series (n + 1) (-y) - Real.exp (-y)))
          (x ^ (n + 1) / ((n + 1).factorial : ℝ) - (-1) ^ n * (series n (-x) - Real.exp (-x))) x := by
        intro x
        have h1 : HasDerivAt (fun y : ℝ => y ^ (n + 1 + 1) / ((n + 1 + 1).factorial : ℝ))
            (x ^ (n + 1) / ((n + 1).factorial : ℝ)) x := by
          have := (hasDerivAt_pow (n + 1 + 1) x).div_const ((n + 1 + 1).factorial : ℝ)
          have e : ((n + 1 + 1 : Nat) : ℝ) * x ^ (n + 1 + 1 - 1) / ((n + 1 + 1).factorial : ℝ)
              = x ^ (n + 1) / ((n + 1).factorial : ℝ) := by
            rw [Nat.factorial_succ (n + 1), Nat.add_sub_cancel]
            push_cast
            have h1 : ((n + 1).factorial : ℝ) ≠ 0 := by positivity
            have h2 : (n : ℝ) + 1 + 1 ≠ 0 := by positivity
            field_simp
          rw [e] at this
          exact this
        exact h1.sub (hd x)
      have := nonneg_of_deriv _ _ (by simp [series_zero]) hd2 (fun x hx => by linarith [(ih x hx).2]) x hx
      linarith

theorem series_pos_of_nonneg (n : Nat) (x : ℝ) (hx : 0 ≤ x) : 1 ≤ series n x := by
  unfold series
  rw [Finset.sum_range_succ']
  simp only [pow_zero, Nat.factorial_zero, Nat.cast_one, div_one]
  have : 0 ≤ ∑ k ∈ Finset.range n, x ^ (k + 1) / ((k + 1).factorial : ℝ) :=
    Finset.sum_nonneg (fun k _ => by positivity)
  linarith

theorem series20_ge_exp (y : ℝ) (hy : y ≤ 0) : Real.exp y ≤ series 20 y := by
  have := (series_error 20 (-y) (by linarith)).1
  simp only [neg_neg] at this
  norm_num at this
  linarith

theorem taylorExp_nonneg (N : ENum ℝ) (hN : RealENum N) (x : ℝ) : 0 ≤ taylorExp N x := by
  rw [taylorExp_eq N hN]
  split_ifs
  · positivity
  · exact le_rfl
  · rcases le_total 0 x with h | h
    · linarith [series_pos_of_nonneg 20 x h]
    · linarith [series20_ge_exp x h, Real.exp_pos x]

/-- **C92** (exact arithmetic, every raw score): what `Model.Predict` reports for a binary objective is a
probability: greater than 0 and at most 1, and less than 1 unless the raw score exceeds 700. -/
theorem model_probability_range (N : ENum ℝ) (hN : RealENum N) (score : ℝ) :
    0 < taylorSigmoid N score ∧ taylorSigmoid N score ≤ 1 ∧ (score ≤ 700 → taylorSigmoid N score < 1) := by
  have h := taylorExp_nonneg N hN (-score)
  unfold taylorSigmoid
  refine ⟨by positivity, ?_, fun hs => ?_⟩
  · rw [div_le_one (by linarith)]; linarith
  · have : 0 < taylorExp N (-score) := by
      rw [taylorExp_eq N hN]
      split_ifs with h1 h2
      · positivity
      · linarith
      · rcases le_total 0 (-score) with h | h
        · linarith [series_pos_of_nonneg 20 _ h]
        · linarith [series20_ge_exp _ h, Real.exp_pos (-score)]
    rw [div_lt_one (by linarith)]; linarith

/-- **C92** for the entry point: every row of the matrix -/
theorem model_predict_binary_range (N : ENum ℝ) (hN : RealENum N) (toInt : ℝ → Int) (m : Model ℝ)
    (ho : m.objective = "binary" ∨ m.objective = "cross_entropy") (hc : m.numClass ≤ 2) (X : Mat ℝ) (M : Mat ℝ)
    (h : m.predict N toInt X = .ok M) : M.c = 1 ∧ ∀ i < X.r, 0 < M.at' i 0 ∧ M.at' i 0 ≤ 1 := by
  obtain ⟨h1, h2, h3, h4, h5⟩ := batch_ok h
  have hcols : m.outCols = 1 := by unfold Model.outCols; rw [if_neg (by omega)]
  refine ⟨h4.trans hcols, fun i hi => ?_⟩
  obtain ⟨p, hp, hM⟩ := h5 i hi
  rw [hM]
  simp only [Model.predictSingle] at hp
  cases hq : m.raw toInt (if (-1 : Int) < 0 ∨ (-1 : Int) > m.trees.length then m.trees.length else (-1 : Int).toNat)
      (rowOf X i) with
  | err e => rw [hq] at hp; cases hp
  | panic e => rw [hq] at hp; cases hp
  | ok q =>
    rw [hq] at hp
    have hp := Outcome.ok.inj hp
    have hlen : q.length = 1 := ((accumulate_length _ _ _ _ _ _ hq).trans (start_length m)).trans hcols
    obtain ⟨s, rfl⟩ := List.length_eq_one_iff.1 hlen
    rw [← hp]
    unfold Model.link
    rw [if_pos ho]
    have := model_probability_range N hN s
    simpa using ⟨this.1, this.2.1⟩

/-- **C93** is false: a row with raw score 30, for which the model is practically certain of the positive
class, is given a positive-class probability below one in a thousand million -/
theorem model_probability_wrong_for_large_scores (N : ENum ℝ) (hN : RealENum N) :
    taylorSigmoid N 30 < 1 / 10 ^ 9 ∧ 1 / 2 < 1 / (1 + Real.exp (-30)) := by
  constructor
  · have h : (10 : ℝ) ^ 9 < taylorExp N (-30) := by
      rw [taylorExp_eq N hN, if_neg (by norm_num), if_neg (by norm_num)]
      unfold series
      simp only [Finset.sum_range_succ, Finset.sum_range_zero, Nat.factorial]
      norm_num
    unfold taylorSigmoid
    rw [div_lt_div_iff₀ (by linarith [pow_pos (by norm_num : (0 : ℝ) < 10) 9]) (by positivity)]
    linarith
  · have : Real.exp (-30) < 1 := by rw [Real.exp_lt_one_iff]; norm_num
    have := Real.exp_pos (-30)
    rw [div_lt_div_iff₀ (by norm_num) (by linarith)]
    linarith

/-- **C93**, what holds (exact arithmetic): for raw scores up to 8 (and down to −700) the positive class gets
more than one half exactly when the raw score is positive, and for scores from 0 to 8 the probability is
within `score^21 / 21!` of the logistic function. Missing: scores above 8. -/
theorem model_probability_order_partial (N : ENum ℝ) (hN : RealENum N) (score : ℝ) (h8 : score ≤ 8) :
    (1 / 2 < taylorSigmoid N score ↔ 0 < score) ∧
    (0 ≤ score → |taylorSigmoid N score - 1 / (1 + Real.exp (-score))| ≤ score ^ 21 / (21 : Nat).factorial) := by
  have hpos := taylorExp_nonneg N hN (-score)
  have half : 1 / 2 < taylorSigmoid N score ↔ taylorExp N (-score) < 1 := by
    unfold taylorSigmoid
    rw [div_lt_div_iff₀ (by norm_num) (by linarith)]
    constructor <;> intro h <;> linarith
  have hser : 0 ≤ score → taylorExp N (-score) = series 20 (-score) := by
    intro h
    rw [taylorExp_eq N hN, if_neg (by linarith), if_neg (by linarith)]
  constructor
  · rw [half]
    constructor
    · intro h
      by_contra hn
      have hn : 0 ≤ -score := by linarith
      rw [taylorExp_eq N hN] at h
      split_ifs at h with h1 h2
      · have : (1 : ℝ) ≤ 10 ^ 308 := one_le_pow₀ (by norm_num)
        exact absurd h (not_lt.2 this)
      · linarith
      · linarith [series_pos_of_nonneg 20 _ hn]
    · intro h
      rw [hser h.le]
      have e := (series_error 20 score h.le).2
      norm_num at e
      have h3 : Real.exp (-score) ≤ 1 / (1 + score) := by
        rw [Real.exp_neg, ← one_div]
        exact one_div_le_one_div_of_le (by linarith) (by linarith [Real.add_one_le_exp score])
      have h4 : 1 / (1 + score) = 1 - score / (1 + score) := by field_simp; ring
      have h5 : score ^ 21 / (21 : Nat).factorial < score / (1 + score) := by
        rw [div_lt_div_iff₀ (by positivity) (by linarith)]
        have h20 : score ^ 20 ≤ 8 ^ 20 := pow_le_pow_left₀ h.le h8 20
        have : score ^ 20 * (1 + score) ≤ 8 ^ 20 * 9 :=
          mul_le_mul h20 (by linarith) (by linarith) (by positivity)
        have hf : ((21 : Nat).factorial : ℝ) = 51090942171709440000 := by norm_num [Nat.factorial]
        rw [hf]
        calc score ^ 21 * (1 + score) = score * (score ^ 20 * (1 + score)) := by ring
          _ ≤ score * (8 ^ 20 * 9) := mul_le_mul_of_nonneg_left this h.le
          _ < score * 51090942171709440000 := mul_lt_mul_of_pos_left (by norm_num) h
      linarith
  · intro h
    unfold taylorSigmoid
    rw [hser h]
    obtain ⟨e1, e2⟩ := series_error 20 score h
    norm_num at e1 e2
    have he := Real.exp_pos (-score)
    have hs : 0 < series 20 (-score) := by linarith
    rw [div_sub_div _ _ (by linarith) (by linarith), abs_div,
      abs_of_pos (by positivity : 0 < (1 + series 20 (-score)) * (1 + Real.exp (-score)))]
    rw [div_le_iff₀ (by positivity)]
    have habs : |1 * (1 + Real.exp (-score)) - (1 + series 20 (-score)) * 1| ≤ score ^ 21 / (21 : Nat).factorial := by
      rw [abs_le]; constructor <;> linarith
    have hge : 1 ≤ (1 + series 20 (-score)) * (1 + Real.exp (-score)) := by nlinarith
    have hf : 0 ≤ score ^ 21 / ((21 : Nat).factorial : ℝ) := by positivity
    nlinarith

/-- the hypotheses are met -/
noncomputable example : ∃ N : ENum ℝ, RealENum N :=
  ⟨⟨⟨fun _ => false, fun v => ⌊v⌋, 0⟩, Real.exp, fun n => n, 10 ^ 308, 700, 500, 0⟩,
    ⟨fun _ => rfl, rfl, rfl, rfl, fun _ => rfl, fun _ => rfl⟩⟩

end Scigo.LGB
