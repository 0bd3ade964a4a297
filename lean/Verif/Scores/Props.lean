import Verif.Scores.Model
import Verif.Tree.Model
import Verif.NaiveBayes.Model
import Verif.Linear.Props
import Verif.Metrics.RegProps
import Mathlib.Tactic.Positivity

/-!
# Properties of `Score` (C157, C158) and of the options of `LinearRegression` (C159)
-/

set_option linter.unusedSectionVars false

namespace Scigo.Scores

open Finset

variable {K : Type _} [Field K] [LinearOrder K] [IsStrictOrderedRing K]

/-! ## Specification -/

/-- the fraction of the rows `0, …, n-1` that are right -/
def fraction (n : Nat) (right : Nat → Prop) [DecidablePred right] : K :=
  (((Finset.range n).filter right).card : K) / n

/-- what a user expects of an accuracy: between 0 and 1, and 1 exactly when every row is right -/
def IsAccuracy (n : Nat) (right : Nat → Prop) (s : K) : Prop :=
  0 ≤ s ∧ s ≤ 1 ∧ (s = 1 ↔ ∀ i < n, right i) ∧ (s = 0 ↔ ∀ i < n, ¬ right i)

theorem fraction_isAccuracy (n : Nat) (hn : 0 < n) (right : Nat → Prop) [DecidablePred right] :
    IsAccuracy n right (fraction n right : K) := by
  have hn' : (0 : K) < n := by exact_mod_cast hn
  have hle : ((Finset.range n).filter right).card ≤ n := by
    simpa using Finset.card_filter_le (Finset.range n) right
  refine ⟨by unfold fraction; positivity, ?_, ?_, ?_⟩
  · unfold fraction
    rw [div_le_one hn']
    exact_mod_cast hle
  · unfold fraction
    rw [div_eq_one_iff_eq hn'.ne']
    rw [Nat.cast_inj]
    constructor
    · intro h i hi
      have : ((Finset.range n).filter right) = Finset.range n :=
        Finset.eq_of_subset_of_card_le (Finset.filter_subset _ _) (by simp [h])
      have hm : i ∈ (Finset.range n).filter right := by rw [this]; simpa using hi
      exact (Finset.mem_filter.1 hm).2
    · intro h
      rw [Finset.filter_true_of_mem (fun i hi => h i (by simpa using hi))]
      simp
  · unfold fraction
    rw [div_eq_zero_iff]
    simp only [hn'.ne', or_false, Nat.cast_eq_zero, Finset.card_eq_zero, Finset.filter_eq_empty_iff,
      Finset.mem_range]

omit [LinearOrder K] [IsStrictOrderedRing K] in
/-- counting with a list is counting with a set -/
theorem filter_length (n : Nat) (right : Nat → Prop) [DecidablePred right] (f : Nat → Bool)
    (h : ∀ i, f i = true ↔ right i) :
    ((List.range n).filter f).length = ((Finset.range n).filter right).card := by
  rw [← List.toFinset_card_of_nodup (List.nodup_range.filter _)]
  congr 1
  ext i
  simp [h]

theorem countP_card (n : Nat) (right : Nat → Prop) [DecidablePred right] (f : Nat → Bool)
    (h : ∀ i, f i = true ↔ right i) :
    (List.range n).countP f = ((Finset.range n).filter right).card := by
  rw [List.countP_eq_length_filter, filter_length n right f h]

/-! ## C157 -/

/-- **C157** (decision tree): when `Predict` succeeds and there is a label for every row, `Score` is the
fraction of rows whose prediction equals the label, and it is 1 exactly when all are equal. -/
theorem tree_score_partial (t : Tree.Clf K) (X y : Mat K) (p : List Int) (h : t.predict X = .ok p)
    (hy : X.r ≤ y.r) (hc : y.c ≠ 0) :
    t.score X y = .ok (fraction X.r (fun i => ((p.getD i 0 : Int) : K) = y.at' i 0)) ∧
    ∃ s, t.score X y = .ok s ∧ IsAccuracy X.r (fun i => ((p.getD i 0 : Int) : K) = y.at' i 0) s := by
  have hr : X.r ≠ 0 := by
    intro h0
    unfold Tree.Clf.predict at h
    rw [h0] at h
    by_cases hf : t.fitted = false
    · rw [if_pos hf] at h; cases h
    · rw [if_neg hf, if_pos rfl] at h; cases h
  have e : t.score X y = .ok (fraction X.r (fun i => ((p.getD i 0 : Int) : K) = y.at' i 0)) := by
    unfold Tree.Clf.score
    rw [h]
    simp only
    rw [if_neg (by omega)]
    rw [countP_card X.r (fun i => ((p.getD i 0 : Int) : K) = y.at' i 0) _ (fun i => by simp)]
    rfl
  exact ⟨e, _, e, fraction_isAccuracy _ (by omega) _⟩

/-- **C157 is false of the code** (decision tree): a tree that was never fitted has a score, 0, instead of an
error. -/
theorem tree_score_hides_error (t : Tree.Clf K) (hf : t.fitted = false) (X y : Mat K) :
    t.score X y = .ok 0 := by
  unfold Tree.Clf.score Tree.Clf.predict
  rw [if_pos hf]

/-- **C157** (decision tree): fewer labels than rows is a panic, not an error. -/
theorem tree_score_short_labels (t : Tree.Clf K) (X y : Mat K) (p : List Int) (h : t.predict X = .ok p)
    (hy : y.r < X.r) : ∃ v, t.score X y = .panic v := by
  unfold Tree.Clf.score
  rw [h]
  simp only
  rw [if_pos (Or.inl hy)]
  exact ⟨_, rfl⟩

/-- **C157** (multinomial naive Bayes): with one label per row, all of them whole numbers within the range of
`toInt`, `Score` is the fraction of rows whose prediction equals the label. -/
theorem nb_score_partial (toInt : K → Int) (hto : ∀ n : Int, toInt (n : K) = n) (ninf : K) (X y P : Mat K)
    (s : NaiveBayes.NB K) (h : s.predict ninf X = .ok P) (hy : y.r = X.r) (hc : y.c ≠ 0)
    (hwhole : ∀ i < y.r, ∃ n : Int, y.at' i 0 = n) :
    s.score toInt ninf X y = .ok (fraction X.r (fun i => P.at' i 0 = y.at' i 0)) ∧
    ∃ v, s.score toInt ninf X y = .ok v ∧ IsAccuracy X.r (fun i => P.at' i 0 = y.at' i 0) v := by
  have hp : X.r ≠ 0 ∧ P.r = X.r ∧ ∀ i, ∃ n : Int, P.at' i 0 = n := by
    unfold NaiveBayes.NB.predict at h
    by_cases h1 : (!s.fitted) = true
    · rw [if_pos h1] at h; cases h
    rw [if_neg h1] at h
    by_cases h2 : X.c ≠ s.nFeatures
    · rw [if_pos h2] at h; cases h
    rw [if_neg h2] at h
    by_cases h3 : X.r = 0
    · rw [if_pos h3] at h; cases h
    rw [if_neg h3] at h
    split at h
    · cases h
    · by_cases h4 : NaiveBayes.hasNegative X
      · rw [if_pos h4] at h; cases h
      · rw [if_neg h4] at h
        injection h with h
        subst h
        exact ⟨h3, rfl, fun i => ⟨_, rfl⟩⟩
  obtain ⟨hr, hPr, hPw⟩ := hp
  have e : s.score toInt ninf X y = .ok (fraction X.r (fun i => P.at' i 0 = y.at' i 0)) := by
    unfold NaiveBayes.NB.score
    rw [h]
    simp only [Outcome.bind_ok]
    rw [if_neg (by omega), if_neg (by omega), hy]
    congr 1
    unfold fraction
    congr 1
    norm_cast
    rw [countP_card X.r (fun i => toInt (P.at' i 0) = toInt (y.at' i 0)) _ (fun i => by simp)]
    congr 1
    apply Finset.filter_congr
    intro i hi
    obtain ⟨a, ha⟩ := hPw i
    obtain ⟨b, hb⟩ := hwhole i (by rw [hy]; simpa using hi)
    rw [ha, hb, hto, hto, Int.cast_inj]
  exact ⟨e, _, e, fraction_isAccuracy _ (by omega) _⟩

/-- the counting loop of the stochastic gradient classifier, labels and predictions whole numbers -/
theorem truncated_whole (toInt : K → Int) (hto : ∀ n : Int, toInt (n : K) = n) (P y : Mat K)
    (hy : y.r ≤ P.r) (hc : y.c ≠ 0) (hPc : P.c ≠ 0) (hP : ∀ i < y.r, ∃ n : Int, P.at' i 0 = n)
    (hwhole : ∀ i < y.r, ∃ n : Int, y.at' i 0 = n) :
    truncatedAccuracy toInt P y = .ok (fraction y.r (fun i => P.at' i 0 = y.at' i 0)) := by
  unfold truncatedAccuracy
  rw [if_neg (by omega)]
  congr 1
  unfold fraction
  congr 1
  norm_cast
  rw [filter_length y.r (fun i => toInt (P.at' i 0) = toInt (y.at' i 0)) _ (fun i => by simp)]
  congr 1
  apply Finset.filter_congr
  intro i hi
  obtain ⟨a, ha⟩ := hP i (by simpa using hi)
  obtain ⟨b, hb⟩ := hwhole i (by simpa using hi)
  rw [ha, hb, hto, hto, Int.cast_inj]

/-- shape of the predictions of the stochastic gradient classifier -/
theorem sgd_predict_shape (ofInt : Int → K) (ninf : K) (m : Online.Clf K) (X P : Mat K)
    (h : m.predict ofInt ninf X = .ok P) :
    X.r ≠ 0 ∧ P.r = X.r ∧ P.c = 1 ∧ ∀ i, ∃ n : Int, P.at' i 0 = ofInt n := by
  unfold Online.Clf.predict Online.checked at h
  by_cases h1 : (!m.fitted) = true
  · rw [if_pos h1] at h; cases h
  rw [if_neg h1] at h
  by_cases h2 : X.c ≠ m.nFeatures
  · rw [if_pos h2] at h; cases h
  rw [if_neg h2] at h
  by_cases h3 : X.r = 0
  · rw [if_pos h3] at h; cases h
  rw [if_neg h3] at h
  by_cases h4 : m.classes = []
  · rw [if_pos h4] at h; cases h
  rw [if_neg h4] at h
  split at h
  · cases h
  · injection h with h
    subst h
    exact ⟨h3, rfl, rfl, fun i => ⟨_, rfl⟩⟩

/-- **C157** (`SGDClassifier`): with one label per row, all of them whole numbers, `Score` is the fraction of
rows whose prediction equals the label. -/
theorem sgd_score_partial (toInt : K → Int) (hto : ∀ n : Int, toInt (n : K) = n) (ninf : K)
    (m : Online.Clf K) (X y P : Mat K) (h : m.predict (fun n => (n : K)) ninf X = .ok P) (hy : y.r = X.r)
    (hc : y.c ≠ 0) (hwhole : ∀ i < y.r, ∃ n : Int, y.at' i 0 = n) :
    ∃ v, sgdClassifierScore (fun n => (n : K)) toInt ninf m X y = .ok v ∧
      v = fraction X.r (fun i => P.at' i 0 = y.at' i 0) ∧
      IsAccuracy X.r (fun i => P.at' i 0 = y.at' i 0) v := by
  obtain ⟨h1, h2, h3, h4⟩ := sgd_predict_shape _ ninf m X P h
  refine ⟨_, ?_, rfl, fraction_isAccuracy _ (by omega) _⟩
  unfold sgdClassifierScore
  rw [h]
  simp only [Outcome.bind_ok]
  rw [truncated_whole toInt hto P y (by omega) hc (by omega) (fun i _ => h4 i) hwhole, hy]

/-- **C157 is false of the code** (`SGDClassifier`): labels are compared without their fractional part, so
labels that no prediction equals can be scored 1. -/
theorem sgd_score_truncates (toInt : K → Int) (ninf : K) (m : Online.Clf K) (X y P : Mat K)
    (h : m.predict (fun n => (n : K)) ninf X = .ok P) (hy : y.r = X.r) (hc : y.c ≠ 0)
    (hhalf : ∀ i < y.r, y.at' i 0 ≠ P.at' i 0 ∧ toInt (y.at' i 0) = toInt (P.at' i 0)) :
    sgdClassifierScore (fun n => (n : K)) toInt ninf m X y = .ok 1 := by
  obtain ⟨h1, h2, h3, h4⟩ := sgd_predict_shape _ ninf m X P h
  unfold sgdClassifierScore
  rw [h]
  simp only [Outcome.bind_ok]
  unfold truncatedAccuracy
  rw [if_neg (by omega)]
  rw [filter_length y.r (fun i => toInt (P.at' i 0) = toInt (y.at' i 0)) _ (fun i => by simp)]
  congr 1
  exact ((fraction_isAccuracy y.r (by omega)
    (fun i => toInt (P.at' i 0) = toInt (y.at' i 0))).2.2.1).2 (fun i hi => (hhalf i hi).2.symm)

/-- **C157 is false of the code** (`SGDClassifier`): labels for only some of the rows are accepted, and the rest
of the rows do not matter. -/
theorem sgd_score_prefix (toInt : K → Int) (hto : ∀ n : Int, toInt (n : K) = n) (ninf : K)
    (m : Online.Clf K) (X y P : Mat K) (h : m.predict (fun n => (n : K)) ninf X = .ok P) (hy : y.r < X.r)
    (hc : y.c ≠ 0) (hwhole : ∀ i < y.r, ∃ n : Int, y.at' i 0 = n) :
    sgdClassifierScore (fun n => (n : K)) toInt ninf m X y =
      .ok (fraction y.r (fun i => P.at' i 0 = y.at' i 0)) := by
  obtain ⟨h1, h2, h3, h4⟩ := sgd_predict_shape _ ninf m X P h
  unfold sgdClassifierScore
  rw [h]
  simp only [Outcome.bind_ok]
  rw [truncated_whole toInt hto P y (by omega) hc (by omega) (fun i _ => h4 i) hwhole]

/-- **C157** (`LGBMClassifier`): when `Predict` succeeds with at least one row and there is a label for every row,
`Score` is the fraction of rows whose prediction equals the label; an error of `Predict` is passed on. -/
theorem lgbm_score (fitted : Bool) (pred : Outcome (Mat K)) (y : Mat K) :
    (fitted = false → lgbmClassifierScore fitted pred y = .err .notFitted) ∧
    (∀ e, fitted = true → pred = .err e → lgbmClassifierScore fitted pred y = .err e) ∧
    (∀ P, fitted = true → pred = .ok P → P.r ≠ 0 → P.c ≠ 0 → y.c ≠ 0 → P.r ≤ y.r →
      ∃ v, lgbmClassifierScore fitted pred y = .ok v ∧
        v = fraction P.r (fun i => P.at' i 0 = y.at' i 0) ∧
        IsAccuracy P.r (fun i => P.at' i 0 = y.at' i 0) v) := by
  refine ⟨?_, ?_, ?_⟩
  · rintro rfl; rfl
  · rintro e rfl rfl; rfl
  · rintro P rfl rfl hr hPc hc hy
    refine ⟨_, ?_, rfl, fraction_isAccuracy _ (by omega) _⟩
    unfold lgbmClassifierScore
    rw [if_neg (by simp)]
    simp only [Outcome.bind_ok]
    rw [if_neg (by omega)]
    rw [filter_length P.r (fun i => P.at' i 0 = y.at' i 0) _ (fun i => by simp)]
    rfl

/-! ## C158 -/

/-- the part of C158 the three regressors share: what the loops over the labels compute -/
def IsR2 (n : Nat) (y p : Nat → K) (out : Outcome K) : Prop :=
  ((∀ i < n, ∀ j < n, y i = y j) → ∃ e, out = .err e) ∧
  ((∃ i < n, ∃ j < n, y i ≠ y j) →
    ∃ v, out = .ok v ∧
      v = 1 - (∑ i ∈ range n, (y i - p i) ^ 2) /
        (∑ i ∈ range n, (y i - (∑ k ∈ range n, y k) / n) ^ 2) ∧
      v ≤ 1 ∧ (v = 1 ↔ ∀ i < n, p i = y i))

theorem tss_zero_iff (n : Nat) (y : Nat → K) :
    (∑ i ∈ range n, (y i - (∑ k ∈ range n, y k) / n) ^ 2 = 0) ↔ ∀ i < n, ∀ j < n, y i = y j := by
  rw [Finset.sum_eq_zero_iff_of_nonneg (fun i _ => sq_nonneg _)]
  constructor
  · intro h i hi j hj
    have hi' := h i (by simpa using hi)
    have hj' := h j (by simpa using hj)
    rw [sq_eq_zero_iff, sub_eq_zero] at hi' hj'
    rw [hi', hj']
  · intro h i hi
    have hn : (n : K) ≠ 0 := by
      have : i < n := by simpa using hi
      exact_mod_cast (by omega : n ≠ 0)
    have : ∑ k ∈ range n, y k = n * y i := by
      rw [Finset.sum_congr rfl (fun k hk => h k (by simpa using hk) i (by simpa using hi))]
      simp
    rw [this, mul_div_cancel_left₀ _ hn]
    simp

/-- the value `1 - RSS/TSS` and its range -/
theorem isR2_of (n : Nat) (y p : Nat → K) (out : Outcome K)
    (h1 : (∑ i ∈ range n, (y i - (∑ k ∈ range n, y k) / n) ^ 2 = 0) → ∃ e, out = .err e)
    (h2 : (∑ i ∈ range n, (y i - (∑ k ∈ range n, y k) / n) ^ 2 ≠ 0) →
      out = .ok (1 - (∑ i ∈ range n, (y i - p i) ^ 2) /
        (∑ i ∈ range n, (y i - (∑ k ∈ range n, y k) / n) ^ 2))) : IsR2 n y p out := by
  refine ⟨fun h => h1 ((tss_zero_iff n y).2 h), ?_⟩
  rintro ⟨i, hi, j, hj, hne⟩
  have hz : ∑ i ∈ range n, (y i - (∑ k ∈ range n, y k) / n) ^ 2 ≠ 0 :=
    fun h => hne ((tss_zero_iff n y).1 h i hi j hj)
  have hpos : 0 < ∑ i ∈ range n, (y i - (∑ k ∈ range n, y k) / n) ^ 2 :=
    lt_of_le_of_ne (Finset.sum_nonneg (fun i _ => sq_nonneg _)) (Ne.symm hz)
  have hr : 0 ≤ ∑ i ∈ range n, (y i - p i) ^ 2 := Finset.sum_nonneg (fun i _ => sq_nonneg _)
  refine ⟨_, h2 hz, rfl, ?_, ?_⟩
  · have := div_nonneg hr hpos.le
    linarith
  · rw [sub_eq_self, div_eq_zero_iff]
    simp only [hz, or_false]
    rw [Finset.sum_eq_zero_iff_of_nonneg (fun i _ => sq_nonneg _)]
    constructor
    · intro h k hk
      have := h k (by simpa using hk)
      rw [sq_eq_zero_iff, sub_eq_zero] at this
      exact this.symm
    · intro h k hk
      rw [h k (by simpa using hk)]
      simp

/-- the two loops of `Score` of the linear and stochastic gradient regressors -/
theorem r2Body_isR2 (P y : Mat K) (hc : y.c ≠ 0) (hy : y.r ≤ P.r) (er : GoErr) :
    IsR2 y.r (fun i => y.at' i 0) (fun i => P.at' i 0) (Linear.LinReg.r2Body er P y) := by
  have hno : ¬ (y.r ≠ 0 ∧ (y.c = 0 ∨ P.r < y.r)) := by omega
  apply isR2_of
  · intro h
    refine ⟨er, ?_⟩
    unfold Linear.LinReg.r2Body
    simp only [if_neg hno, sumTo_eq, ← sq, Linear.LinReg.colMean, beq_iff_eq]
    rw [if_pos h]
  · intro h
    unfold Linear.LinReg.r2Body
    simp only [if_neg hno, sumTo_eq, ← sq, Linear.LinReg.colMean, beq_iff_eq]
    rw [if_neg h]

/-- **C158** (`SGDRegressor`): `Score` is the coefficient of determination of the predictions on the labelled
rows: an error when all labels are equal, otherwise at most 1, and 1 exactly for perfect predictions. -/
theorem sgd_regressor_score (m : Online.Reg K) (X y P : Mat K) (h : m.predict X = .ok P) (hc : y.c ≠ 0)
    (hy : y.r ≤ P.r) :
    IsR2 y.r (fun i => y.at' i 0) (fun i => P.at' i 0) (sgdRegressorScore m X y) := by
  unfold sgdRegressorScore
  rw [h]
  exact r2Body_isR2 P y hc hy .value

/-- **C158** (`LinearRegression` of the scikit-learn style package): the same. -/
theorem linear_regression_score (m : Linear.LM K) (X y P : Mat K) (h : m.predict X = .ok P) (hc : y.c ≠ 0)
    (hy : y.r ≤ P.r) :
    IsR2 y.r (fun i => y.at' i 0) (fun i => P.at' i 0) (m.score X y) := by
  unfold Linear.LM.score
  rw [h]
  exact r2Body_isR2 P y hc hy .value

omit [LinearOrder K] [IsStrictOrderedRing K] in
/-- a list given by a function, summed -/
theorem sum_map_range (n : Nat) (f : Nat → K) : ((List.range n).map f).sum = ∑ i ∈ range n, f i := by
  induction n with
  | zero => simp
  | succ n ih => rw [List.range_succ, List.map_append, List.sum_append, ih, Finset.sum_range_succ]; simp

/-- **C158** (`LGBMRegressor`): the same, and an error of `Predict` is passed on. -/
theorem lgbm_regressor_score (fitted : Bool) (pred : Outcome (Mat K)) (y : Mat K) :
    (fitted = false → lgbmRegressorScore fitted pred y = .err .notFitted) ∧
    (∀ e, fitted = true → pred = .err e → lgbmRegressorScore fitted pred y = .err e) ∧
    (∀ P, fitted = true → pred = .ok P → P.c ≠ 0 → y.c ≠ 0 → y.r ≠ 0 → y.r ≤ P.r →
      IsR2 y.r (fun i => y.at' i 0) (fun i => P.at' i 0) (lgbmRegressorScore fitted pred y)) := by
  refine ⟨by rintro rfl; rfl, by rintro e rfl rfl; rfl, ?_⟩
  rintro P rfl rfl hPc hc hr hy
  have e : lgbmRegressorScore true (.ok P) y =
      Metrics.r2Score (some ((List.range y.r).map (fun i => y.at' i 0)))
        (some ((List.range y.r).map (fun i => P.at' i 0))) := by
    unfold lgbmRegressorScore
    rw [if_neg (by simp)]
    simp only [Outcome.bind_ok]
    rw [if_neg hr, if_neg (by omega)]
  rw [e]
  have hne : (List.range y.r).map (fun i => y.at' i 0) ≠ [] := by simpa using hr
  have hl : ((List.range y.r).map (fun i => y.at' i 0)).length =
    ((List.range y.r).map (fun i => P.at' i 0)).length := by simp
  have hmean : Metrics.mean ((List.range y.r).map (fun i => y.at' i 0)) =
      (∑ k ∈ range y.r, y.at' k 0) / y.r := by
    unfold Metrics.mean
    rw [sum_map_range]; simp
  have ht : Metrics.totalSS ((List.range y.r).map (fun i => y.at' i 0)) =
      ∑ i ∈ range y.r, (y.at' i 0 - (∑ k ∈ range y.r, y.at' k 0) / y.r) ^ 2 := by
    unfold Metrics.totalSS
    rw [hmean, List.map_map, ← sum_map_range]
    rfl
  have hs : Metrics.residualSS ((List.range y.r).map (fun i => y.at' i 0))
      ((List.range y.r).map (fun i => P.at' i 0)) = ∑ i ∈ range y.r, (y.at' i 0 - P.at' i 0) ^ 2 := by
    unfold Metrics.residualSS
    rw [List.zip_map', List.map_map, ← sum_map_range]
    rfl
  obtain ⟨s1, s2⟩ := Metrics.r2_spec _ _ hne hl
  apply isR2_of
  · intro h
    apply s2
    intro a ha b hb
    rw [List.mem_map] at ha hb
    obtain ⟨i, hi, rfl⟩ := ha
    obtain ⟨j, hj, rfl⟩ := hb
    exact (tss_zero_iff y.r (fun i => y.at' i 0)).1 h i (by simpa using hi) j (by simpa using hj)
  · intro h
    have : ∃ x ∈ (List.range y.r).map (fun i => y.at' i 0),
        ∃ z ∈ (List.range y.r).map (fun i => y.at' i 0), x ≠ z := by
      by_contra hn
      push Not at hn
      apply h
      rw [tss_zero_iff y.r (fun i => y.at' i 0)]
      intro i hi j hj
      exact hn _ (List.mem_map.2 ⟨i, by simpa using hi, rfl⟩) _ (List.mem_map.2 ⟨j, by simpa using hj, rfl⟩)
    rw [(s1 this).2, ht, hs]

/-! ## C159 -/

section
variable {α : Type _}

/-- the value a boolean option has after `SetParams`: the given one if it is a boolean, else the old one -/
def boolOr (given : Option (Linear.Dyn α)) (old : Option (Linear.Dyn α)) : Option (Linear.Dyn α) :=
  match given with
  | some (.bool b) => some (.bool b)
  | _ => old

/-- the same for an integer option -/
def intOr (given : Option (Linear.Dyn α)) (old : Option (Linear.Dyn α)) : Option (Linear.Dyn α) :=
  match given with
  | some (.int b) => some (.int b)
  | _ => old

/-- **C159**: `GetParams` after `SetParams` shows exactly the given values of the right type, and everything else
unchanged; the weights and the fitted state are unchanged too, so predictions are. -/
theorem set_get_options (m : Linear.LM α) (p : Linear.DMap α) :
    (m.setParams p).getParams "fit_intercept" = boolOr (p "fit_intercept") (m.getParams "fit_intercept") ∧
    (m.setParams p).getParams "normalize" = boolOr (p "normalize") (m.getParams "normalize") ∧
    (m.setParams p).getParams "copy_X" = boolOr (p "copy_X") (m.getParams "copy_X") ∧
    (m.setParams p).getParams "positive" = boolOr (p "positive") (m.getParams "positive") ∧
    (m.setParams p).getParams "n_jobs" = intOr (p "n_jobs") (m.getParams "n_jobs") ∧
    (∀ k, k ≠ "fit_intercept" → k ≠ "normalize" → k ≠ "copy_X" → k ≠ "positive" → k ≠ "n_jobs" →
      (m.setParams p).getParams k = m.getParams k) ∧
    (m.setParams p).coef = m.coef ∧ (m.setParams p).intercept = m.intercept ∧
    (m.setParams p).fitted = m.fitted ∧ (m.setParams p).nFeatures = m.nFeatures := by
  refine ⟨?_, ?_, ?_, ?_, ?_, ?_, rfl, rfl, rfl, rfl⟩
  · simp only [Linear.LM.getParams, Linear.LM.setParams, boolOr]
    cases p "fit_intercept" with
    | none => simp [Linear.LM.asBool]
    | some v => cases v <;> simp [Linear.LM.asBool]
  · simp only [Linear.LM.getParams, Linear.LM.setParams, boolOr]
    cases p "normalize" with
    | none => simp [Linear.LM.asBool]
    | some v => cases v <;> simp [Linear.LM.asBool]
  · simp only [Linear.LM.getParams, Linear.LM.setParams, boolOr]
    cases p "copy_X" with
    | none => simp [Linear.LM.asBool]
    | some v => cases v <;> simp [Linear.LM.asBool]
  · simp only [Linear.LM.getParams, Linear.LM.setParams, boolOr]
    cases p "positive" with
    | none => simp [Linear.LM.asBool]
    | some v => cases v <;> simp [Linear.LM.asBool]
  · simp only [Linear.LM.getParams, Linear.LM.setParams, intOr]
    cases p "n_jobs" with
    | none => simp [Linear.LM.asInt]
    | some v => cases v <;> simp [Linear.LM.asInt]
  · intro k h1 h2 h3 h4 h5
    simp [Linear.LM.getParams, Linear.LM.setParams, h1, h2, h3, h4, h5]

/-- **C159**: giving a model its own parameters changes nothing. -/
theorem set_own_options (m : Linear.LM α) : m.setParams m.getParams = m := by
  simp [Linear.LM.setParams, Linear.LM.getParams, Linear.LM.asBool, Linear.LM.asInt]

/-- **C159**: when the same parameters are set twice, the second time changes nothing. -/
theorem set_options_twice (m : Linear.LM α) (p : Linear.DMap α) :
    (m.setParams p).setParams p = m.setParams p := by
  have hb : ∀ (d : Bool) (v : Option (Linear.Dyn α)), Linear.LM.asBool (Linear.LM.asBool d v) v =
      Linear.LM.asBool d v := by
    intro d v
    cases v with
    | none => rfl
    | some v => cases v <;> rfl
  have hi : ∀ (d : Int) (v : Option (Linear.Dyn α)), Linear.LM.asInt (Linear.LM.asInt d v) v =
      Linear.LM.asInt d v := by
    intro d v
    cases v with
    | none => rfl
    | some v => cases v <;> rfl
  simp [Linear.LM.setParams, hb, hi]

end

/-! ## Concrete cases -/

section Examples

/-- a fitted tree: class 5 for a first feature of at most 1, else class 7 -/
def exTree : Tree.Clf ℚ :=
  ⟨true, some (.split ⟨[1, 2], 1, 1 / 2, 3, 0⟩ 0 1 (.leaf ⟨[1, 0], 0, 0, 1, 1⟩) (.leaf ⟨[0, 2], 1, 0, 2, 1⟩)),
    1, [5, 7], none⟩

/-- three rows -/
def exX : Mat ℚ := Mat.ofRows [[1], [2], [3]] 1 0

/-- their labels, the last of which is wrong -/
def exY : Mat ℚ := Mat.ofRows [[5], [7], [5]] 1 0

example : (exTree.predict exX).map id = .ok [5, 7, 7] := by decide +kernel
example : exTree.score exX exY = .ok (2 / 3) := by decide +kernel
example : exTree.score exX (Mat.ofRows [[5], [7]] 1 0) =
    .panic "mat: row or column index out of range" := by decide +kernel

/-- a fitted naive Bayes model with classes 5 and 7 -/
def exNB : NaiveBayes.NB ℚ :=
  ⟨1, true, none, some [5, 7], [0, -3], [[0], [2]], [[1], [1]], [1, 2], 1, 3, true⟩

example : (exNB.predict (-1000) exX).map (fun P => P.col 0) = .ok [5, 7, 7] := by decide +kernel
example : exNB.score (fun x => x.floor) (-1000) exX exY = .ok (2 / 3) := by decide +kernel
example : exY.r = exX.r ∧ exY.c ≠ 0 ∧ ∀ n : Int, (fun x : ℚ => x.floor) (n : ℚ) = n :=
  ⟨rfl, by decide, fun n => Rat.floor_intCast n⟩

/-- a fitted stochastic gradient classifier with classes 5 and 7 -/
def exClf : Online.Clf ℚ :=
  ⟨⟨"hinge", "l2", "constant", 1, 0, 0, 0, 0, true, true, false, 5⟩, 1, some [[0], [2]], [0, -3], [5, 7], 1,
    1, 1, [], false, true⟩

example : (exClf.predict (fun n => (n : ℚ)) (-1000) exX).map (fun P => P.col 0) = .ok [5, 7, 7] := by
  decide +kernel
example : sgdClassifierScore (fun n => (n : ℚ)) (fun x => x.floor) (-1000) exClf exX exY = .ok (2 / 3) := by
  decide +kernel
/-- no label is predicted, and the score is 1 -/
example : sgdClassifierScore (fun n => (n : ℚ)) (fun x => x.floor) (-1000) exClf exX
    (Mat.ofRows [[11 / 2], [15 / 2], [29 / 4]] 1 0) = .ok 1 := by decide +kernel
/-- two labels for three rows -/
example : sgdClassifierScore (fun n => (n : ℚ)) (fun x => x.floor) (-1000) exClf exX
    (Mat.ofRows [[5], [7]] 1 0) = .ok 1 := by decide +kernel

example : lgbmClassifierScore true (.ok (Mat.ofRows [[0], [1], [1]] 1 0)) (Mat.ofRows [[0], [1], [0]] 1 (0 : ℚ)) =
    .ok (2 / 3) := by decide +kernel

/-- a fitted stochastic gradient regressor, `2x - 1` -/
def exReg : Online.Reg ℚ :=
  ⟨exClf.opts, 1, some [2], -1, 1, 1, 1, [], false, true⟩

example : (exReg.predict exX).map (fun P => P.col 0) = .ok [1, 3, 5] := by decide +kernel
example : sgdRegressorScore exReg exX (Mat.ofRows [[1], [3], [8]] 1 0) = .ok (17 / 26) := by decide +kernel
example : sgdRegressorScore exReg exX (Mat.ofRows [[2], [2], [2]] 1 0) = .err .value := by decide +kernel

/-- a fitted linear regression, `2x - 1` -/
def exLM : Linear.LM ℚ :=
  { (Linear.LM.new true false true 1 false : Linear.LM ℚ) with coef := [2], intercept := -1, nFeatures := 1, fitted := true }

example : exLM.score exX (Mat.ofRows [[1], [3], [8]] 1 0) = .ok (17 / 26) := by decide +kernel
example : lgbmRegressorScore true (.ok (Mat.ofRows [[1], [3], [5]] 1 0)) (Mat.ofRows [[1], [3], [8]] 1 (0 : ℚ)) =
    .ok (17 / 26) := by decide +kernel

/-- a boolean and an integer of the right type, and a string where a boolean belongs -/
example : ((exLM.setParams (fun k => if k = "n_jobs" then some (.int 4) else if k = "positive" then some (.bool true)
      else if k = "normalize" then some (.str "yes") else none)).getParams "n_jobs" = some (.int 4)) ∧
    ((exLM.setParams (fun k => if k = "n_jobs" then some (.int 4) else if k = "positive" then some (.bool true)
      else if k = "normalize" then some (.str "yes") else none)).getParams "normalize" = some (.bool false)) := by
  decide +kernel

end Examples

end Scigo.Scores
