import Verif.CV.Score
import Verif.CV.ValidateProps
import Verif.Metrics.Model
import Verif.Eval.Model
import Verif.Wrapper.TrainProps
import Verif.Wrapper.Props
import Mathlib.Analysis.SpecialFunctions.Log.Basic
import Mathlib.Algebra.Order.BigOperators.Group.List
import Mathlib.Tactic.FieldSimp
import Mathlib.Tactic.Linarith
import Mathlib.Tactic.Ring

/-!
# Properties of the scores of cross-validation (C209, C210, C211)
-/

set_option linter.unusedSectionVars false

namespace Scigo.CV

open Scigo.Parallel

section
variable {α : Type _} [BEq α] [LT α] [DecidableLT α] [Zero α] [One α] [Add α] [Sub α] [Mul α] [Div α] [NatCast α]

theorem zip_cols (t p : Mat α) (h : p.r = t.r) :
    (t.col 0).zip (p.col 0) = (List.range t.r).map (fun i => (t.at' i 0, p.at' i 0)) := by
  unfold Mat.col
  rw [h, List.zip_map']

theorem meanSquare_mse (t p : Mat α) (h : p.r = t.r) (hn : 0 < t.r) :
    Metrics.mse (some (t.col 0)) (some (p.col 0)) = .ok (meanSquare t p) := by
  unfold Metrics.mse Metrics.regGuard
  simp only [Mat.col_length, h, Nat.pos_iff_ne_zero.1 hn, if_false, ne_eq, not_true_eq_false, zip_cols t p h, List.length_map, List.length_range]
  unfold meanSquare sumTo sumOver
  rw [List.foldl_map]

/-- predictions that fit the true values: as many rows, and at least one column -/
structure Fits (t p : Mat α) : Prop where
  rows : p.r = t.r
  pos : 0 < t.r
  tc : 0 < t.c
  pc : 0 < p.c

theorem Fits.guard {t p : Mat α} (h : Fits t p) : ¬ (0 < t.r ∧ (t.c = 0 ∨ p.c = 0 ∨ p.r < t.r)) := by
  have := h.rows; have := h.tc; have := h.pc
  omega

/-- **C209.** For the names of the squared, root and absolute errors the score of a fold is the metric of that name in the metrics package,
applied to the first columns. -/
theorem cv_regression_scores_partial (E : ScoreEnv α) (t p : Mat α) (h : Fits t p) :
    (∀ n ∈ ["l2", "mse"], evaluateMetric E n t p = Metrics.mse (some (t.col 0)) (some (p.col 0))) ∧
    evaluateMetric E "rmse" t p = Metrics.rmse E.sqrt (some (t.col 0)) (some (p.col 0)) ∧
    ∀ n ∈ ["l1", "mae"], evaluateMetric E n t p = Metrics.mae E.abs (some (t.col 0)) (some (p.col 0)) := by
  have hm := meanSquare_mse t p h.rows h.pos
  refine ⟨?_, ?_, ?_⟩
  · intro n hn
    unfold evaluateMetric
    rw [if_neg h.guard, if_pos (by simpa using hn), hm]
  · unfold evaluateMetric Metrics.rmse
    rw [if_neg h.guard, if_neg (by decide), if_pos rfl, hm]
    rfl
  · intro n hn
    have hmae : Metrics.mae E.abs (some (t.col 0)) (some (p.col 0)) =
        .ok (sumTo t.r (fun i => E.abs (t.at' i 0 - p.at' i 0)) / (t.r : α)) := by
      unfold Metrics.mae Metrics.regGuard
      simp only [Mat.col_length, h.rows, Nat.pos_iff_ne_zero.1 h.pos, if_false, ne_eq, not_true_eq_false, zip_cols t p h.rows,
        List.length_map, List.length_range]
      unfold sumTo sumOver
      rw [List.foldl_map]
    rw [hmae]
    unfold evaluateMetric
    rw [if_neg h.guard]
    simp only [List.mem_cons, List.not_mem_nil, or_false] at hn
    rcases hn with rfl | rfl <;> rfl

/-- **C209 is false for other names.** A name the function does not know — in particular `auc`, `r2`, `multi_logloss` — is scored with the
mean squared error. -/
theorem cv_unknown_is_mse (E : ScoreEnv α) (t p : Mat α) (h : Fits t p) (n : String)
    (hn : n ∉ ["l2", "mse", "rmse", "l1", "mae", "binary_logloss", "logloss", "accuracy"]) :
    evaluateMetric E n t p = Metrics.mse (some (t.col 0)) (some (p.col 0)) := by
  rw [meanSquare_mse t p h.rows h.pos]
  simp only [List.mem_cons, List.not_mem_nil, or_false, not_or] at hn
  obtain ⟨h1, h2, h3, h4, h5, h6, h7, h8⟩ := hn
  unfold evaluateMetric
  rw [if_neg h.guard, if_neg (by simp [h1, h2]), if_neg h3, if_neg (by simp [h4, h5]), if_neg (by simp [h6, h7]), if_neg h8]

/-- **C209.** Missing cells panic, for every metric. -/
theorem cv_score_panics (E : ScoreEnv α) (n : String) (t p : Mat α) (hn : 0 < t.r) (h : t.c = 0 ∨ p.c = 0 ∨ p.r < t.r) :
    evaluateMetric E n t p = .panic "mat: index out of range" := by
  unfold evaluateMetric
  rw [if_pos ⟨hn, h⟩]

end

section
variable {α : Type _} [Field α] [LinearOrder α] [IsStrictOrderedRing α]

/-- **C209.** Under `auc` and `r2` the highest score counts as best although the scores are squared errors: the fold reported as best is the
one with the largest error. -/
theorem cv_r2_prefers_worst {μ : Type} (E : ScoreEnv α) (n : String) (hn : n = "auc" ∨ n = "r2") (nFolds : Nat) (m : Memory (Cell α μ))
    (t p : Nat → Mat α) (hfit : ∀ i < nFolds, Fits (t i) (p i)) (hm : ∀ i < nFolds, evaluateMetric E n (t i) (p i) = .ok (m i).test)
    (res : CVResult α μ) (h : collect (isLossMetric n) nFolds m = .ok res) :
    ∀ i < nFolds, ∃ e, Metrics.mse (some ((t i).col 0)) (some ((p i).col 0)) = .ok e ∧ e ≤ res.best.2 := by
  intro i hi
  have hl : isLossMetric n = false := by rcases hn with rfl | rfl <;> decide
  refine ⟨(m i).test, ?_, ?_⟩
  · rw [← cv_unknown_is_mse E (t i) (p i) (hfit i hi) n (by rcases hn with rfl | rfl <;> decide), hm i hi]
  · have hb := (cv_best (isLossMetric n) nFolds m res h).2.1 i (m i).test
    rw [hl] at hb
    refine hb ?_
    unfold collect at h
    split at h
    · cases h
    · split at h
      · cases h
      · simp only [Outcome.ok.injEq] at h
        subst h
        simp [List.getElem?_map, List.getElem?_range hi]

theorem clipped_clip (eps p : α) (he : eps ≤ 1 - eps) : clipped eps p = Eval.clip eps p := by
  unfold clipped Eval.clip
  by_cases h1 : p < eps
  · rw [if_pos h1]
    simp only [if_pos (lt_of_lt_of_le h1 he), if_neg (not_lt.2 (le_of_lt h1))]
  · rw [if_neg h1]
    have h1' := not_lt.1 h1
    by_cases h2 : 1 - eps < p
    · rw [if_pos h2]
      simp only [if_neg (not_lt.2 (le_of_lt h2))]
      rcases lt_or_eq_of_le he with h | h
      · rw [if_pos h]
      · rw [← h, if_neg (lt_irrefl _)]
    · rw [if_neg h2]
      have h2' := not_lt.1 h2
      have hlo : (if p < 1 - eps then p else 1 - eps) = p := by
        rcases lt_or_eq_of_le h2' with h | h
        · rw [if_pos h]
        · rw [← h, if_neg (lt_irrefl _)]
      simp only [hlo]
      rcases lt_or_eq_of_le h1' with h | h
      · rw [if_pos h]
      · rw [← h, if_neg (lt_irrefl _)]

/-- **C209.** For the log loss the score is the binary log loss of the evaluation metrics, with class 1 as the positive one and every other label as
the negative one. -/
theorem cv_logloss_score_partial (E : ScoreEnv α) (he : E.eps ≤ 1 - E.eps) (t p : Mat α) (h : Fits t p) (lab : Nat → Int)
    (hl : ∀ i < t.r, t.at' i 0 = (lab i : α)) (n : String) (hn : n ∈ ["binary_logloss", "logloss"]) :
    evaluateMetric E n t p = .ok (Eval.binaryLogLoss E.log E.eps 1 (((List.range t.r).map lab).zip (p.col 0))) := by
  have hz : ((List.range t.r).map lab).zip (p.col 0) = (List.range t.r).map (fun i => (lab i, p.at' i 0)) := by
    unfold Mat.col
    rw [h.rows, List.zip_map']
  have key : ∀ k ≤ t.r, ∀ s u : α, s = -u → (List.range k).foldl (fun s i =>
      if t.at' i 0 == 1 then s - E.log (clipped E.eps (p.at' i 0)) else s - E.log (1 - clipped E.eps (p.at' i 0))) s =
      -((List.range k).foldl (fun s i => if lab i = 1 then s + E.log (Eval.clip E.eps (p.at' i 0))
        else s + E.log (1 - Eval.clip E.eps (p.at' i 0))) u) := by
    intro k
    induction k with
    | zero => intro _ s u hs; simpa using hs
    | succ k ih =>
      intro hk s u hs
      rw [List.range_succ, List.foldl_append, List.foldl_append, ih (by omega) s u hs]
      simp only [List.foldl_cons, List.foldl_nil, clipped_clip _ _ he]
      rw [hl k (by omega)]
      by_cases h1 : lab k = 1
      · simp only [h1, Int.cast_one, beq_self_eq_true, if_true]
        ring
      · have : ¬ ((lab k : α) = 1) := by
          intro h2
          apply h1
          exact_mod_cast h2
        simp only [h1, if_false, beq_iff_eq, this]
        ring
  have hs : evaluateMetric E n t p = .ok (logLossSum E t p / (t.r : α)) := by
    unfold evaluateMetric
    rw [if_neg h.guard]
    simp only [List.mem_cons, List.not_mem_nil, or_false] at hn
    rcases hn with rfl | rfl <;> rfl
  rw [hs]
  congr 1
  unfold logLossSum Eval.binaryLogLoss
  rw [hz, List.foldl_map, List.length_map, List.length_range, key t.r (le_refl _) 0 0 (by simp)]

/-- **C209.** The log loss never divides by zero or takes the logarithm of zero: every prediction is moved into [eps, 1 − eps]. -/
theorem cv_logloss_arguments (eps p : α) (he : eps ≤ 1 - eps) : eps ≤ clipped eps p ∧ clipped eps p ≤ 1 - eps ∧
    (eps ≤ p → p ≤ 1 - eps → clipped eps p = p) := by
  unfold clipped
  by_cases h1 : p < eps
  · rw [if_pos h1]; exact ⟨le_refl _, he, fun h => absurd h1 (not_lt.2 h)⟩
  · rw [if_neg h1]
    by_cases h2 : 1 - eps < p
    · rw [if_pos h2]; exact ⟨he, le_refl _, fun _ h => absurd h2 (not_lt.2 h)⟩
    · rw [if_neg h2]; exact ⟨not_lt.1 h1, not_lt.1 h2, fun _ _ => rfl⟩

/-- **C209.** The accuracy is the share of the samples with label 1 and a prediction above one half or label 0 and a prediction not above it. -/
theorem cv_accuracy_score_partial (E : ScoreEnv α) (t p : Mat α) (h : Fits t p) :
    evaluateMetric E "accuracy" t p =
      .ok ((((List.range t.r).filter (fun i => decide ((t.at' i 0 = 1 ∧ E.half < p.at' i 0) ∨ (t.at' i 0 = 0 ∧ ¬ E.half < p.at' i 0)))).length : α) /
        (t.r : α)) := by
  have key : ∀ (l : List Nat) (s : Nat),
      l.foldl (fun s i => if (if E.half < p.at' i 0 then 1 else 0 : α) == t.at' i 0 then s + 1 else s) s =
      s + (l.filter (fun i => decide ((t.at' i 0 = 1 ∧ E.half < p.at' i 0) ∨ (t.at' i 0 = 0 ∧ ¬ E.half < p.at' i 0)))).length := by
    intro l
    induction l with
    | nil => simp
    | cons i l ih =>
      intro s
      rw [List.foldl_cons, ih, List.filter_cons]
      by_cases hp : E.half < p.at' i 0
      · by_cases ht : t.at' i 0 = 1
        · simp [hp, ht]; omega
        · have : ¬ ((1 : α) = t.at' i 0) := fun h => ht h.symm
          simp [hp, ht, this]
      · by_cases ht : t.at' i 0 = 0
        · simp [hp, ht]; omega
        · have : ¬ ((0 : α) = t.at' i 0) := fun h => ht h.symm
          simp [hp, ht, this]
  have hs : evaluateMetric E "accuracy" t p = .ok ((correct E t p : α) / (t.r : α)) := by
    unfold evaluateMetric
    rw [if_neg h.guard]
    rfl
  rw [hs]
  unfold correct
  rw [key, Nat.zero_add]

/-- **C209 is false for more than two classes.** A sample whose label is neither 0 nor 1 is never counted as right, whatever is predicted. -/
theorem cv_accuracy_misses_classes (E : ScoreEnv α) (t p : Mat α) (h : Fits t p) (ht : ∀ i < t.r, t.at' i 0 ≠ 0 ∧ t.at' i 0 ≠ 1) :
    evaluateMetric E "accuracy" t p = .ok 0 := by
  rw [cv_accuracy_score_partial E t p h]
  have : (List.range t.r).filter (fun i => decide ((t.at' i 0 = 1 ∧ E.half < p.at' i 0) ∨ (t.at' i 0 = 0 ∧ ¬ E.half < p.at' i 0))) = [] := by
    rw [List.filter_eq_nil_iff]
    intro i hi
    obtain ⟨h0, h1⟩ := ht i (List.mem_range.1 hi)
    simp [h0, h1]
  rw [this]
  simp

end

/-! ## Mean and standard deviation over the folds -/

theorem meanScore_eq (l : List ℝ) (hl : l ≠ []) : meanScore l = l.sum / (l.length : ℝ) := by
  unfold meanScore
  rw [if_neg (by simpa using hl), sumOver_eq, List.map_id]

/-- **C210.** The mean lies between any bounds of the scores, does not depend on the order of the folds and follows shifts and scalings. -/
theorem cv_mean (l : List ℝ) (hl : l ≠ []) :
    (∀ lo hi, (∀ x ∈ l, lo ≤ x ∧ x ≤ hi) → lo ≤ meanScore l ∧ meanScore l ≤ hi) ∧
    (∀ l', l.Perm l' → meanScore l' = meanScore l) ∧
    ∀ a b, meanScore (l.map (fun x => a * x + b)) = a * meanScore l + b := by
  have hn : 0 < (l.length : ℝ) := by
    have := List.length_pos_iff.2 hl
    exact_mod_cast this
  refine ⟨?_, ?_, ?_⟩
  · intro lo hi h
    rw [meanScore_eq l hl, le_div_iff₀ hn, div_le_iff₀ hn]
    have h1 := List.card_nsmul_le_sum l lo (fun x hx => (h x hx).1)
    have h2 := List.sum_le_card_nsmul l hi (fun x hx => (h x hx).2)
    rw [nsmul_eq_mul] at h1 h2
    constructor <;> nlinarith
  · intro l' hp
    rw [meanScore_eq l hl, meanScore_eq l' (fun h => hl (by subst h; exact hp.eq_nil)), hp.sum_eq, hp.length_eq]
  · intro a b
    rw [meanScore_eq l hl, meanScore_eq _ (by simpa using hl), List.length_map]
    have : (l.map (fun x => a * x + b)).sum = a * l.sum + (l.length : ℝ) * b := by
      clear hl hn
      induction l with
      | nil => simp
      | cons x l ih => simp only [List.map_cons, List.sum_cons, ih, List.length_cons]; push_cast; ring
    rw [this]
    field_simp

/-- the sum of squared distances to `c` -/
theorem stdScore_eq (l : List ℝ) (h : 2 ≤ l.length) :
    stdScore Real.sqrt l = Real.sqrt ((l.map (fun x => (x - meanScore l) * (x - meanScore l))).sum / ((l.length : ℝ) - 1)) := by
  unfold stdScore
  rw [if_neg (by omega), sumOver_eq, Nat.cast_sub (by omega), Nat.cast_one]

theorem sum_sq_zero (l : List ℝ) (c : ℝ) : 0 ≤ (l.map (fun x => (x - c) * (x - c))).sum ∧
    ((l.map (fun x => (x - c) * (x - c))).sum = 0 ↔ ∀ x ∈ l, x = c) := by
  induction l with
  | nil => simp
  | cons x l ih =>
    obtain ⟨h1, h2⟩ := ih
    have hx := mul_self_nonneg (x - c)
    simp only [List.map_cons, List.sum_cons, List.forall_mem_cons]
    refine ⟨by linarith, ?_⟩
    constructor
    · intro h
      have e1 : (x - c) * (x - c) = 0 := by linarith
      have e2 := mul_self_eq_zero.1 e1
      exact ⟨by linarith, h2.1 (by linarith)⟩
    · rintro ⟨rfl, h⟩
      rw [h2.2 h]
      simp

/-- **C210.** The spread is the sample standard deviation: its square times one less than the number of folds is the sum of the squared distances to
the mean. It is never negative and is zero exactly when all folds score the same; it does not depend on the order of the folds, ignores shifts and
follows scalings. Fewer than two folds give zero. -/
theorem cv_std (l : List ℝ) :
    (l.length ≤ 1 → stdScore Real.sqrt l = 0) ∧
    (2 ≤ l.length →
      0 ≤ stdScore Real.sqrt l ∧
      stdScore Real.sqrt l ^ 2 * ((l.length : ℝ) - 1) = (l.map (fun x => (x - meanScore l) ^ 2)).sum ∧
      (stdScore Real.sqrt l = 0 ↔ ∀ x ∈ l, ∀ y ∈ l, x = y) ∧
      (∀ l', l.Perm l' → stdScore Real.sqrt l' = stdScore Real.sqrt l) ∧
      ∀ a b, stdScore Real.sqrt (l.map (fun x => a * x + b)) = |a| * stdScore Real.sqrt l) := by
  refine ⟨fun h => by unfold stdScore; rw [if_pos h], fun h => ?_⟩
  have hne : l ≠ [] := by rintro rfl; simp at h
  have hn : (0 : ℝ) < (l.length : ℝ) - 1 := by
    have : (2 : ℝ) ≤ (l.length : ℝ) := by exact_mod_cast h
    linarith
  obtain ⟨m1, m2, m3⟩ := cv_mean l hne
  obtain ⟨s1, s2⟩ := sum_sq_zero l (meanScore l)
  have hq : 0 ≤ (l.map (fun x => (x - meanScore l) * (x - meanScore l))).sum / ((l.length : ℝ) - 1) := div_nonneg s1 hn.le
  refine ⟨?_, ?_, ?_, ?_, ?_⟩
  · rw [stdScore_eq l h]; exact Real.sqrt_nonneg _
  · rw [stdScore_eq l h, Real.sq_sqrt hq, div_mul_cancel₀ _ hn.ne']
    congr 1
    apply List.map_congr_left
    intro x _
    ring
  · rw [stdScore_eq l h, Real.sqrt_eq_zero hq, div_eq_zero_iff]
    constructor
    · rintro (h0 | h0)
      · have := s2.1 h0
        intro x hx y hy
        rw [this x hx, this y hy]
      · linarith
    · intro hall
      left
      apply s2.2
      intro x hx
      obtain ⟨a, b⟩ := m1 x x (fun y hy => ⟨le_of_eq (hall x hx y hy), le_of_eq (hall y hy x hx)⟩)
      exact le_antisymm a b
  · intro l' hp
    rw [stdScore_eq l h, stdScore_eq l' (by rw [← hp.length_eq]; exact h), m2 l' hp, (hp.map _).sum_eq, hp.length_eq]
  · intro a b
    rw [stdScore_eq l h, stdScore_eq _ (by simpa using h), m3, List.length_map, List.map_map]
    have : (l.map ((fun x => (x - (a * meanScore l + b)) * (x - (a * meanScore l + b))) ∘ fun x => a * x + b)).sum =
        a * a * (l.map (fun x => (x - meanScore l) * (x - meanScore l))).sum := by
      rw [← List.sum_map_mul_left]
      congr 1
      apply List.map_congr_left
      intro x _
      simp only [Function.comp]
      ring
    rw [this, mul_div_assoc, Real.sqrt_mul (mul_self_nonneg a), Real.sqrt_mul_self_eq_abs]

/-- three folds -/
example : meanScore ([1, 2, 6] : List ℝ) = 3 ∧ stdScore Real.sqrt ([1, 2, 6] : List ℝ) = Real.sqrt 7 := by
  have hm : meanScore ([1, 2, 6] : List ℝ) = 3 := by rw [meanScore_eq _ (by simp)]; norm_num
  refine ⟨hm, ?_⟩
  rw [stdScore_eq _ (by simp), hm]
  norm_num

/-! ## Cross-validation of the estimators -/

open Scigo.Wrapper

section
variable {α : Type} [DecidableEq α] [LT α] [DecidableLT α] [LE α] [DecidableLE α] [Zero α] [One α] [Add α] [Sub α] [Neg α] [Mul α] [Div α]

/-- **C211**, what holds for the regressor: a fold is trained as `Fit` would on its rows, with the same options, except that the smallest gain of a
split is 0 instead of 1e-7 and the parameters of the objectives huber, fair, quantile and tweedie are not passed. -/
theorem cv_regressor_fold_partial (E : Env α) (m : Reg α) (X y : Mat α) :
    train E (regRequest m) X y =
      train E { Reg.request 0 m with huberDelta := 0, fairC := 0, quantileAlpha := 0, tweediePower := 0 } X y ∧
    (m.objective ∉ ["huber", "fair", "quantile", "tweedie"] → train E (regRequest m) X y = train E (Reg.request 0 m) X y) := by
  refine ⟨rfl, fun h => ?_⟩
  simp only [List.mem_cons, List.not_mem_nil, or_false, not_or] at h
  obtain ⟨h1, h2, h3, h4⟩ := h
  have hc : ∀ d c q v d' c' q' v' : α, Boost.createObjective E.num E.lits E.floor E.ceil d c q v E.threeHalves m.objective =
      Boost.createObjective E.num E.lits E.floor E.ceil d' c' q' v' E.threeHalves m.objective := by
    intros
    unfold Boost.createObjective
    simp only [if_neg h1, if_neg h2, if_neg h3, if_neg h4]
  show train E (regRequest m) X y = train E (Reg.request 0 m) X y
  unfold train
  have := hc (regRequest m).huberDelta (regRequest m).fairC (regRequest m).quantileAlpha (regRequest m).tweediePower
    (Reg.request 0 m).huberDelta (Reg.request 0 m).fairC (Reg.request 0 m).quantileAlpha (Reg.request 0 m).tweediePower
  show (match Boost.createObjective E.num E.lits E.floor E.ceil (regRequest m).huberDelta (regRequest m).fairC (regRequest m).quantileAlpha
    (regRequest m).tweediePower E.threeHalves m.objective with
    | none => _
    | some obj => _) = _
  rw [this]
  rfl

/-- **C211.** Cross-validation of a regressor cannot depend on its quantile, Huber, fair or Tweedie parameter nor on its boosting type: two regressors
that differ only in those train every fold alike and are scored alike. -/
theorem cv_regressor_drops_params (m m' : Reg α) (h1 : m.opts = m'.opts) (h2 : m.objective = m'.objective) (scoring : String) :
    regRequest m = regRequest m' ∧ regMetric scoring m = regMetric scoring m' := by
  unfold regRequest regMetric
  rw [h1, h2]
  exact ⟨rfl, rfl⟩

/-- **C211**, what holds for a classifier after `Fit`: a fold is trained as by `Fit` with the objective of the last fit, except that the smallest gain
is 0 and the categorical features, which `Fit` ignores, are passed. -/
theorem cv_classifier_fold_partial (E : Env α) (m : Clf α) (X y : Mat α) (hc : m.opts.categorical = []) :
    train E (clfRequest m) X y = train E (Clf.request 0 m) X y := by
  have : clfRequest m = { Clf.request 0 m with maxBin := 0 } := by
    unfold clfRequest Clf.request
    rw [hc]
  rw [this]
  rfl

end

section
variable {α : Type _} [Zero α]

/-- **C211 is false for a classifier that was not fitted on labels of the same kind.** Cross-validation never looks at the labels to choose the
objective: with three or more classes in the data a new classifier, whose objective is `binary`, is cross-validated as a binary one and scored with the
binary log loss, while `Fit` on the same data asks for `multiclass` with as many classes as there are. -/
theorem cv_classifier_ignores_labels (m : Clf α) (hobj : m.objective = "binary") (hnum : m.numClass = 0) (classes : List Int) (hk : 2 < classes.length) :
    (clfRequest m).objective = "binary" ∧ (clfRequest m).numClass = 0 ∧ clfMetric "" m = "binary_logloss" ∧
    ∃ m', ({ m with classes := classes } : Clf α).setObjective = some m' ∧ ∀ c, (Clf.request c m').objective = "multiclass" ∧
      (Clf.request c m').numClass = classes.length := by
  refine ⟨hobj, hnum, ?_, ?_⟩
  · unfold clfMetric
    rw [hnum, hobj]
    decide
  · have h2 : ¬ classes.length = 2 := by omega
    refine ⟨{ m with classes := classes, objective := "multiclass", numClass := classes.length }, ?_, fun c => ⟨rfl, rfl⟩⟩
    unfold Clf.setObjective
    simp only [if_neg h2, if_pos hk]

/-- **C209.** The metric used: the one asked for, by all three functions; otherwise the log loss for the objective `binary` and the
squared error for every other one, `l2` for a regressor, and for a classifier of at most two classes the log loss. -/
theorem cv_metric_used (scoring objective : String) (m : Reg α) (c : Clf α) :
    (scoring ≠ "" → chosenMetric scoring objective = scoring ∧ regMetric scoring m = scoring ∧ clfMetric scoring c = scoring) ∧
    chosenMetric "" "binary" = "binary_logloss" ∧ (objective ≠ "binary" → chosenMetric "" objective = "l2") ∧
    regMetric "" m = "l2" ∧ (c.numClass ≤ 2 → clfMetric "" c = "binary_logloss") := by
  refine ⟨fun h => ?_, rfl, fun h => ?_, rfl, fun h => ?_⟩
  · unfold regMetric clfMetric chosenMetric
    simp [h]
  · unfold chosenMetric
    rw [if_pos rfl, if_neg h]
  · unfold clfMetric chosenMetric
    simp [show ¬ c.numClass > 2 by omega]

/-- **C211.** After a fit on more than two classes the default score is the accuracy, which is right for the labels 0 and 1 only
(`cv_accuracy_misses_classes`). -/
theorem cv_multiclass_default (m : Clf α) (h : 2 < m.numClass) : clfMetric "" m = "accuracy" := by
  unfold clfMetric chosenMetric
  simp [h]

end

/-- numbers for the examples -/
def exScore : ScoreEnv Rat := ⟨id, fun v => if v < 0 then -v else v, fun v => v - 1, 1 / 1000, 1 / 2⟩

/-- `Fits` and the theorems on scores apply; a perfect prediction of the labels 2 and 3 has accuracy 0 and, as `r2`, the score 0 -/
example : Fits (exCol [0, 1, 1]) (exCol [1 / 4, 3 / 4, 1 / 4]) ∧
    evaluateMetric exScore "mse" (exCol [0, 1, 1]) (exCol [1 / 4, 3 / 4, 1 / 4]) = .ok (11 / 48) ∧
    evaluateMetric exScore "mae" (exCol [0, 1, 1]) (exCol [1 / 4, 3 / 4, 1 / 4]) = .ok (5 / 12) ∧
    evaluateMetric exScore "accuracy" (exCol [0, 1, 1]) (exCol [1 / 4, 3 / 4, 1 / 4]) = .ok (2 / 3) ∧
    evaluateMetric exScore "logloss" (exCol [0, 1, 1]) (exCol [1 / 4, 3 / 4, 1 / 4]) = .ok (5 / 12) ∧
    evaluateMetric exScore "accuracy" (exCol [2, 3]) (exCol [2, 3]) = .ok 0 ∧
    evaluateMetric exScore "r2" (exCol [2, 3]) (exCol [2, 3]) = .ok 0 :=
  ⟨⟨by decide, by decide, by decide, by decide⟩, by decide +kernel, by decide +kernel, by decide +kernel, by decide +kernel, by decide +kernel, by decide +kernel⟩

/-- under `r2` a fold with error 9 is reported as best although another one is perfect -/
example : ∃ res, collect (μ := Unit) (isLossMetric "r2") 2 (fun i => ⟨some (), 0, if i = 0 then (0 : Rat) else 9, none⟩) = .ok res ∧ res.best = (1, 9) :=
  ⟨_, rfl, by decide +kernel⟩

/-- **C211 is false**: a regressor for the 0.9-quantile is cross-validated as one for the median — on three targets the first model starts from 41/5, the
second from 5. -/
theorem cv_quantile_is_median :
    ∃ (E : Env Rat) (m : Reg Rat) (X y : Mat Rat), m.ropts.alpha = 9 / 10 ∧
      (train E (Reg.request (1 / 10000000) m) X y).map (·.initScore) = .ok (41 / 5) ∧ (train E (regRequest m) X y).map (·.initScore) = .ok 5 :=
  ⟨exEnv, { exReg "" "quantile" with ropts := ⟨9 / 10, 1, 1, 3 / 2, ""⟩ }, exCol [1, 2, 3], exCol [0, 5, 9], rfl, by decide +kernel⟩

end Scigo.CV
