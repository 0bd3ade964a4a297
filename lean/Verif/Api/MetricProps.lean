import Verif.Api.Model
import Verif.Boost.EarlyStop
import Verif.Dataset.Props
import Mathlib.Data.Real.Basic
import Mathlib.Analysis.SpecialFunctions.Log.Basic
import Mathlib.Tactic.Linarith
import Mathlib.Tactic.NormNum
import Mathlib.Tactic.FieldSimp

/-!
# Validation scores, the direction of early stopping and the quick interface: specification and theorems
-/

set_option linter.unusedSectionVars false

namespace Scigo.Api

variable {α : Type}

/-! ## C181 -/

theorem sumOver_zip_map [AddCommMonoid α] {β γ : Type} (n : Nat) (f : Nat → β) (g : Nat → γ) (h : β × γ → α) :
    sumOver (((List.range n).map f).zip ((List.range n).map g)) h = ∑ i ∈ Finset.range n, h (f i, g i) := by
  rw [sumOver_eq, List.zip_map', List.map_map, ← sumTo_eq, sumTo, foldl_add_eq, zero_add]
  rfl

/-- **C181 (partial)** With a squared error objective the score of a validation set is called `l2` and is the mean squared
error of the predictions (exact arithmetic). Missing: the scores of classification (`metric_mislabelled`,
`other_classes_never_right`) and of the objectives without a metric (`score_always_zero`). -/
theorem l2_score_partial [Field α] [LinearOrder α] {τ : Type} (abs : α → α) (half : α) (predict : τ → Outcome (Mat α))
    (objective : String) (ho : objective = "regression" ∨ objective = "regression_l2" ∨ objective = "l2")
    (m : τ) (y p : Mat α) (hp : predict m = .ok p) (hr : p.r = y.r) (h0 : 0 < y.r) :
    getMetricName objective = "l2" ∧
    evaluateDataset abs half predict objective (some m) (some y) =
      .ok ((∑ i ∈ Finset.range y.r, (y.at' i 0 - p.at' i 0) * (y.at' i 0 - p.at' i 0)) / (y.r : α)) := by
  have h1 : objective ∈ ["regression", "regression_l2", "l2", "mean_squared_error", "mse"] := by
    rcases ho with rfl | rfl | rfl <;> simp
  constructor
  · rcases ho with rfl | rfl | rfl <;> decide
  · simp only [evaluateDataset, hp, metricFor]
    rw [if_pos h1]
    have hl : ¬ (y.col 0).length = 0 := by simp; omega
    have hl' : ¬ (p.col 0).length ≠ (y.col 0).length := by simp [hr]
    simp only [getVecDense, Option.map_some, Metrics.mse, Metrics.regGuard]
    rw [if_neg hl, if_neg hl']
    simp only [orZero, Mat.col, hr]
    rw [sumOver_zip_map]
    simp

/-- **C181 (partial)** With an absolute error objective the score is called `l1` and is the mean absolute error. -/
theorem l1_score_partial [Field α] [LinearOrder α] {τ : Type} (half : α) (abs : α → α) (predict : τ → Outcome (Mat α))
    (objective : String) (ho : objective = "regression_l1" ∨ objective = "l1")
    (m : τ) (y p : Mat α) (hp : predict m = .ok p) (hr : p.r = y.r) (h0 : 0 < y.r) :
    getMetricName objective = "l1" ∧
    evaluateDataset abs half predict objective (some m) (some y) =
      .ok ((∑ i ∈ Finset.range y.r, abs (y.at' i 0 - p.at' i 0)) / (y.r : α)) := by
  have h1 : objective ∉ ["regression", "regression_l2", "l2", "mean_squared_error", "mse"] := by
    rcases ho with rfl | rfl <;> decide
  have h2 : objective ∈ ["regression_l1", "l1", "mean_absolute_error", "mae"] := by
    rcases ho with rfl | rfl <;> simp
  constructor
  · rcases ho with rfl | rfl <;> decide
  · simp only [evaluateDataset, hp, metricFor]
    rw [if_neg h1, if_pos h2]
    have hl : ¬ (y.col 0).length = 0 := by simp; omega
    have hl' : ¬ (p.col 0).length ≠ (y.col 0).length := by simp [hr]
    simp only [getVecDense, Option.map_some, Metrics.mae, Metrics.regGuard]
    rw [if_neg hl, if_neg hl']
    simp only [orZero, Mat.col, hr]
    rw [sumOver_zip_map]
    simp

/-- the classification objectives of `evaluateDataset` -/
def Classifies (objective : String) : Prop :=
  objective = "binary" ∨ objective = "binary_logloss" ∨ objective = "multiclass" ∨ objective = "softmax" ∨
    objective = "multiclass_logloss"

theorem classifies_metric [Add α] [Sub α] [Mul α] [Div α] [Zero α] [One α] [NatCast α] [BEq α] [LT α] [DecidableLT α]
    (abs : α → α) (half : α) (objective : String) (ho : Classifies objective) (y : Option (Mat α)) (p : Mat α) :
    metricFor abs half objective y p = calculateAccuracy half y (some p) := by
  rcases ho with rfl | rfl | rfl | rfl | rfl <;> simp [metricFor]

/-- the mean logarithmic loss -/
noncomputable def logLoss (y p : Mat ℝ) : ℝ :=
  -(∑ i ∈ Finset.range y.r, (y.at' i 0 * Real.log (p.at' i 0) + (1 - y.at' i 0) * Real.log (1 - p.at' i 0))) / y.r

/-- the score of a classification objective, in exact arithmetic: the fraction of samples whose label is 1 or 0 as the
first column of the predictions is above one half or not -/
theorem classification_score [Field α] [LinearOrder α] {τ : Type} (abs : α → α) (half : α) (predict : τ → Outcome (Mat α))
    (objective : String) (ho : Classifies objective) (m : τ) (y p : Mat α) (hp : predict m = .ok p) (hr : p.r = y.r) :
    evaluateDataset abs half predict objective (some m) (some y) =
      .ok ((((Finset.range y.r).filter (fun i => y.at' i 0 = if half < p.at' i 0 then 1 else 0)).card : α) / (y.r : α)) := by
  simp only [evaluateDataset, hp, classifies_metric abs half objective ho, calculateAccuracy]
  rw [if_neg (by omega)]
  have h : ((List.range y.r).filter (fun i => y.at' i 0 == round01 half (p.at' i 0))).length =
      ((Finset.range y.r).filter (fun i => y.at' i 0 = if half < p.at' i 0 then 1 else 0)).card := by
    rw [← List.toFinset_card_of_nodup (List.Nodup.filter _ List.nodup_range)]
    congr 1
    ext i
    simp [round01]
  rw [h]

/-- **C181 is false as stated**: with the objective "binary" the score called `binary_logloss` is the accuracy. On one
sample of class 1 with probability 3/4 it is 1; the logarithmic loss is below 1/2. -/
theorem metric_mislabelled : ∃ (y p : Mat ℝ), y.r = 1 ∧ p.r = 1 ∧ getMetricName "binary" = "binary_logloss" ∧
    evaluateDataset (τ := Unit) abs (1 / 2) (fun _ => .ok p) "binary" (some ()) (some y) = .ok 1 ∧ logLoss y p < 1 / 2 := by
  refine ⟨Mat.ofRows [[1]] 1 0, Mat.ofRows [[3 / 4]] 1 0, rfl, rfl, by decide, ?_, ?_⟩
  · rw [classification_score abs (1 / 2) _ "binary" (.inl rfl) () (Mat.ofRows [[1]] 1 0) (Mat.ofRows [[3 / 4]] 1 0) rfl rfl]
    have : (Finset.range (Mat.ofRows [[(1 : ℝ)]] 1 0).r).filter (fun i => (Mat.ofRows [[(1 : ℝ)]] 1 0).at' i 0 =
        if 1 / 2 < (Mat.ofRows [[(3 / 4 : ℝ)]] 1 0).at' i 0 then 1 else 0) = {0} := by
      refine Finset.eq_singleton_iff_unique_mem.2 ⟨?_, ?_⟩
      · simp [Mat.ofRows]; norm_num
      · intro i hi
        have := (Finset.mem_filter.1 hi).1
        simpa [Mat.ofRows] using this
    rw [this]
    simp [Mat.ofRows]
  · have h := Real.log_le_sub_one_of_pos (show (0 : ℝ) < 4 / 3 by norm_num)
    have e : Real.log (4 / 3) = - Real.log (3 / 4) := by
      rw [← Real.log_inv]; norm_num
    simp [logLoss, Mat.ofRows]
    linarith

/-- **C181 is false as stated**: with every classification objective a sample whose label is neither 0 nor 1 counts as
wrong, whatever is predicted: if all labels are such, the score is 0. -/
theorem other_classes_never_right [Field α] [LinearOrder α] {τ : Type} (abs : α → α) (half : α) (predict : τ → Outcome (Mat α))
    (objective : String) (ho : Classifies objective) (m : τ) (y p : Mat α) (hp : predict m = .ok p) (hr : p.r = y.r)
    (hy : ∀ i < y.r, y.at' i 0 ≠ 0 ∧ y.at' i 0 ≠ 1) :
    evaluateDataset abs half predict objective (some m) (some y) = .ok 0 := by
  rw [classification_score abs half predict objective ho m y p hp hr]
  have : (Finset.range y.r).filter (fun i => y.at' i 0 = if half < p.at' i 0 then 1 else 0) = ∅ := by
    refine Finset.filter_eq_empty_iff.2 fun i hi h => ?_
    obtain ⟨h0, h1⟩ := hy i (Finset.mem_range.1 hi)
    split at h
    · exact h1 h
    · exact h0 h
  rw [this]
  simp

/-- **C181 is false as stated**: objectives the trainer accepts but the evaluation does not know always score 0. -/
theorem score_always_zero [Field α] [LinearOrder α] {τ : Type} (abs : α → α) (half : α) (predict : τ → Outcome (Mat α))
    (objective : String) (ho : objective ∈ ["huber", "fair", "poisson", "quantile", "gamma", "tweedie", "lambdarank",
      "rank_xendcg", "logistic", "multiclassova"]) (m : τ) (y : Option (Mat α)) (p : Mat α) (hp : predict m = .ok p) :
    evaluateDataset abs half predict objective (some m) y = .ok 0 := by
  simp only [evaluateDataset, hp]
  simp only [List.mem_cons, List.not_mem_nil, or_false] at ho
  rcases ho with rfl | rfl | rfl | rfl | rfl | rfl | rfl | rfl | rfl | rfl <;> simp [metricFor]

/-- a case of `l2_score_partial`: two samples, errors 1 and 3 -/
example : evaluateDataset (α := ℚ) (τ := Unit) id (1 / 2) (fun _ => .ok (Mat.ofRows [[1], [5]] 1 0)) "l2" (some ())
    (some (Mat.ofRows [[2], [2]] 1 0)) = .ok 5 := by
  decide +kernel

/-- three samples of classes 0, 1 and 2, all predicted right with certainty: the score reported is 0 -/
example : evaluateDataset (α := ℚ) (τ := Unit) id (1 / 2) (fun _ => .ok (Mat.ofRows [[1, 0, 0], [0, 1, 0], [0, 0, 1]] 3 0))
    "multiclass" (some ()) (some (Mat.ofRows [[0], [1], [2]] 1 0)) = .ok 0 := by
  decide +kernel

/-! ## C182 -/

/-- the score `v` is better than `w`: more accurate for a classification objective, otherwise a smaller error -/
def BetterScore [LT α] (objective : String) (v w : α) : Prop :=
  (Classifies objective → w < v) ∧ (¬ Classifies objective → v < w)

/-- the callback has seen the best score `best` and `w` iterations without improvement since -/
def seen (inf ninf : α) (objective : Option String) (best : α) (bestIter w : Int) : Boost.ApiES α :=
  { Boost.ApiES.init inf ninf objective with best := some best, bestIter := bestIter, wait := w }

/-- the next score counts as an improvement -/
def Improves [LT α] [DecidableLT α] (c : Boost.ApiES α) (rounds iter : Int) (v : α) : Prop :=
  ∃ c', c.after rounds iter (some v) = some c' ∧ c'.wait = 0

theorem improves_lower [LinearOrder α] (inf ninf : α) (objective : Option String)
    (h : ¬ (objective = some "binary" ∨ objective = some "multiclass")) (rounds iter bi w : Int) (hw : 0 ≤ w) (v best : α) :
    Improves (seen inf ninf objective best bi w) rounds iter v ↔ v < best := by
  unfold Improves seen Boost.ApiES.init
  rw [if_neg h]
  simp only [Boost.ApiES.after, Boost.improves, Boost.below]
  by_cases hv : v < best
  · simp [hv]
  · simp only [hv, Bool.not_false, if_true, decide_false, Bool.false_eq_true, if_false, iff_false]
    rintro ⟨c', h1, h2⟩
    split at h1
    · cases h1
    · cases h1; simp at h2; omega

theorem improves_higher [LinearOrder α] (inf ninf : α) (objective : Option String)
    (h : objective = some "binary" ∨ objective = some "multiclass") (rounds iter bi w : Int) (hw : 0 ≤ w) (v best : α) :
    Improves (seen inf ninf objective best bi w) rounds iter v ↔ best < v := by
  unfold Improves seen Boost.ApiES.init
  rw [if_pos h]
  simp only [Boost.ApiES.after, Boost.improves, Boost.below]
  by_cases hv : best < v
  · simp [hv]
  · simp only [hv, Bool.not_true, Bool.false_eq_true, decide_false, if_false, iff_false]
    rintro ⟨c', h1, h2⟩
    split at h1
    · cases h1
    · cases h1; simp at h2; omega

/-- **C182 (partial)** With "binary", "multiclass" or an objective that is not scored by accuracy, early stopping counts an
iteration as an improvement exactly if its score is better than the best so far. Missing: the other names of classification
objectives (`direction_wrong`). -/
theorem direction_partial [LinearOrder α] (inf ninf : α) (objective : String)
    (ho : objective = "binary" ∨ objective = "multiclass" ∨ ¬ Classifies objective) (rounds iter bi w : Int) (hw : 0 ≤ w)
    (v best : α) :
    Improves (seen inf ninf (some objective) best bi w) rounds iter v ↔ BetterScore objective v best := by
  by_cases h : objective = "binary" ∨ objective = "multiclass"
  · rw [improves_higher _ _ _ (by simpa using h) _ _ _ _ hw]
    have hc : Classifies objective := by
      rcases h with rfl | rfl
      · exact .inl rfl
      · exact .inr (.inr (.inl rfl))
    simp [BetterScore, hc]
  · rw [improves_lower _ _ _ (by simpa using h) _ _ _ _ hw]
    have hc : ¬ Classifies objective := by
      rcases ho with h' | h' | h'
      · exact absurd (.inl h') h
      · exact absurd (.inr h') h
      · exact h'
    simp [BetterScore, hc]

/-- **C182 is false as stated**: with the other names of classification objectives the score is the accuracy as well, and
an iteration counts as an improvement exactly if it is less accurate. -/
theorem direction_wrong [LinearOrder α] (inf ninf : α) (objective : String)
    (ho : objective = "binary_logloss" ∨ objective = "softmax" ∨ objective = "multiclass_logloss") (rounds iter bi w : Int)
    (hw : 0 ≤ w) (v best : α) :
    Classifies objective ∧ (Improves (seen inf ninf (some objective) best bi w) rounds iter v ↔ v < best) := by
  refine ⟨?_, improves_lower _ _ _ ?_ _ _ _ _ hw _ _⟩
  · rcases ho with rfl | rfl | rfl <;> simp [Classifies]
  · rcases ho with rfl | rfl | rfl <;> simp

/-- the objectives of the first part exist -/
example : ¬ Classifies "l2" ∧ Classifies "softmax" := by
  constructor <;> simp [Classifies]

/-! ## C183, C184 -/

/-- **C183 (partial)** If the caller names an objective, `QuickTrain` keeps everything the caller gave and adds nothing but
the default number of rounds. Missing: without an objective a given `num_class` may be replaced, and the caller's own map
is changed (`quick_overwrites`). -/
theorem quick_keeps_partial (isBinary : Bool) (nClasses : Int) (m : PMap α) (ho : (m "objective").isSome) :
    (∀ name v, m name = some v → quickParams isBinary nClasses (some m) name = some v) ∧
    (∀ name v, m name = none → quickParams isBinary nClasses (some m) name = some v → name = "num_iterations" ∧ v = .int 100) := by
  simp only [quickParams, quickObjective, Option.getD_some, ho, if_true]
  constructor
  · intro name v hv
    split
    · exact hv
    · rename_i h
      unfold PMap.put
      split
      · subst name; rw [hv] at h; simp at h
      · exact hv
  · intro name v hv
    split
    · intro h; rw [hv] at h; cases h
    · unfold PMap.put
      split
      · rename_i h
        intro h'; cases h'; exact ⟨h, rfl⟩
      · intro h; rw [hv] at h; cases h

/-- **C183 (partial)** Without an objective too, every name but `num_class` keeps the value the caller gave. -/
theorem quick_keeps_others_partial (isBinary : Bool) (nClasses : Int) (m : PMap α) (name : String) (v : PVal α)
    (hn : name ≠ "num_class") (hv : m name = some v) : quickParams isBinary nClasses (some m) name = some v := by
  have h1 : quickObjective isBinary nClasses m name = some v := by
    unfold quickObjective
    by_cases ho : (m "objective").isSome
    · rw [if_pos ho]; exact hv
    · have hno : name ≠ "objective" := by rintro rfl; rw [hv] at ho; simp at ho
      rw [if_neg ho]
      split
      · simp [PMap.put, hno, hv]
      · split <;> simp [PMap.put, hno, hn, hv]
  simp only [quickParams, Option.getD_some]
  split
  · exact h1
  · rename_i h
    have : name ≠ "num_iterations" := by rintro rfl; rw [h1] at h; simp at h
    simp [PMap.put, this, h1]

/-- **C183 is false as stated**: with labels in three columns a `num_class` of 5 is replaced by 3, and the caller's own map
holds the objective and the number of rounds afterwards. -/
theorem quick_overwrites : ∃ m : PMap α, m "num_class" = some (.int 5) ∧
    quickParams false 3 (some m) "num_class" = some (.int 3) ∧ quickParams false 3 (some m) ≠ m := by
  refine ⟨fun k => if k = "num_class" then some (.int 5) else none, by simp, ?_, ?_⟩
  · simp [quickParams, quickObjective, PMap.put]
  · intro h
    have := congrFun h "objective"
    simp [quickParams, quickObjective, PMap.put] at this

/-- the objective `QuickTrain` trains with -/
def quickObjectiveOf [BEq α] [Zero α] [One α] (X y : Option (Mat α)) (m : Option (PMap α)) : Option (PVal α) :=
  match quickTrain X y m with
  | .ok (_, p, _) => p "objective"
  | _ => none

theorem quickTrain_column [BEq α] [Zero α] [One α] (X y : Mat α) (hX : 0 < X.r) (hXc : 0 < X.c) (hy : y.r = X.r)
    (hyc : y.c = 1) :
    quickObjectiveOf (some X) (some y) none =
      some (.str (if Dataset.detectBinary (Dataset.firstCol y) then "binary" else "regression")) := by
  unfold quickObjectiveOf quickTrain Dataset.newDataset
  simp only []
  rw [if_neg (by omega)]
  simp only [Dataset.validateLabel]
  rw [if_neg (by simp [hy]), if_pos hyc]
  simp only [List.foldl_nil, List.isEmpty_nil, if_true, Outcome.bind]
  by_cases hb : Dataset.detectBinary (Dataset.firstCol y) = true
  · simp [hb, quickParams, quickObjective, PMap.put]
  · simp [hb, quickParams, quickObjective, PMap.put]

/-- **C184 (partial)** Without parameters and with at least eight samples labelled in one column, `QuickTrain` trains a
binary classifier exactly if all labels are 0 or 1, otherwise a regression. Missing: more than two classes
(`quick_classes_missed`), and fewer samples. -/
theorem quick_binary_partial [DecidableEq α] [Zero α] [One α] (X y : Mat α) (hX : 8 ≤ X.r) (hXc : 0 < X.c) (hy : y.r = X.r)
    (hyc : y.c = 1) :
    ((∀ i < y.r, y.at' i 0 = 0 ∨ y.at' i 0 = 1) → quickObjectiveOf (some X) (some y) none = some (.str "binary")) ∧
    (¬ (∀ i < y.r, y.at' i 0 = 0 ∨ y.at' i 0 = 1) → quickObjectiveOf (some X) (some y) none = some (.str "regression")) := by
  have h := Dataset.binary_partial (Dataset.firstCol y) (by simp [Dataset.firstCol]; omega)
  have e : (∀ v ∈ Dataset.firstCol y, v = 0 ∨ v = 1) ↔ ∀ i < y.r, y.at' i 0 = 0 ∨ y.at' i 0 = 1 := by
    simp [Dataset.firstCol]
  rw [e] at h
  rw [quickTrain_column X y (by omega) hXc hy hyc]
  constructor
  · intro h'; rw [if_pos (h.2 h')]
  · intro h'; rw [if_neg (fun x => h' (h.1 x))]

/-- **C184 is false as stated**: labels of classes in one column, one of them neither 0 nor 1, are always fitted by a
regression. -/
theorem quick_classes_missed [BEq α] [PartialEquivBEq α] [Zero α] [One α] (X y : Mat α) (hX : 0 < X.r) (hXc : 0 < X.c) (hy : y.r = X.r)
    (hyc : y.c = 1) (i : Nat) (hi : i < y.r) (h0 : (y.at' i 0 == 0) = false) (h1 : (y.at' i 0 == 1) = false) :
    quickObjectiveOf (some X) (some y) none = some (.str "regression") := by
  rw [quickTrain_column X y hX hXc hy hyc]
  have : Dataset.detectBinary (Dataset.firstCol y) ≠ true := by
    rw [ne_eq, Dataset.binary_iff]
    rintro ⟨h, -⟩
    have := h (y.at' i 0) (by simp only [Dataset.firstCol, List.mem_map, List.mem_range]; exact ⟨i, hi, rfl⟩)
    simp [h0, h1] at this
  rw [if_neg this]

/-- nine samples of three classes are fitted by a regression, eight of two classes by a classifier -/
example : quickObjectiveOf (α := Int) (some (Mat.ofRows (List.replicate 9 [1]) 1 0)) (some (Mat.ofRows [[0], [1], [2], [0], [1], [2], [0], [1], [2]] 1 0)) none
      = some (.str "regression") ∧
    quickObjectiveOf (α := Int) (some (Mat.ofRows (List.replicate 8 [1]) 1 0)) (some (Mat.ofRows [[0], [1], [1], [0], [1], [1], [0], [1]] 1 0)) none
      = some (.str "binary") := by
  decide +kernel

/-- a number of rounds that is not an integer panics -/
theorem quick_rounds_panic [BEq α] [Zero α] [One α] (X y : Option (Mat α)) (m : PMap α) (v : PVal α) (ds : Dataset.Dataset α)
    (hds : Dataset.newDataset X y [] = .ok ds) (hv : m "num_iterations" = some v) (hi : ∀ n, v ≠ .int n) :
    ∃ msg, quickTrain X y (some m) = .panic msg := by
  refine ⟨"interface conversion: interface {} is not int", ?_⟩
  unfold quickTrain
  rw [hds]
  simp only [Outcome.bind]
  rw [quick_keeps_others_partial _ _ m "num_iterations" v (by decide) hv]
  cases v <;> simp_all

/-- **C181** (law-free) A regression metric that fails, because the dataset has no rows or the number of predictions
differs from that of the labels, is reported as the score 0. -/
theorem failed_metric_zero {α : Type _} [Zero α] [One α] [Add α] [Sub α] [Mul α] [Div α] [NatCast α] [LT α] [DecidableLT α] [BEq α] {τ : Type} (abs : α → α)
    (half : α) (predict : τ → Outcome (Mat α)) (objective : String)
    (ho : objective ∈ ["regression", "regression_l2", "l2", "mean_squared_error", "mse", "regression_l1", "l1", "mean_absolute_error", "mae"])
    (m : τ) (Y p : Mat α) (hp : predict m = .ok p) (hy : Y.r = 0 ∨ p.r ≠ Y.r) :
    evaluateDataset abs half predict objective (some m) (some Y) = .ok 0 := by
  have hg : ∀ k : List (α × α) → Outcome α, ∃ e, Metrics.regGuard (getVecDense (some Y)) (getVecDense (some p)) k = .err e := by
    intro k
    unfold Metrics.regGuard getVecDense
    simp only [Option.map_some]
    rcases hy with h | h
    · simp [Mat.col, h]
    · by_cases h0 : Y.r = 0
      · simp [Mat.col, h0]
      · simp [Mat.col, h0, h]
  unfold evaluateDataset
  simp only [hp]
  unfold metricFor
  split
  · obtain ⟨e, he⟩ := hg _
    unfold Metrics.mse
    rw [he]; rfl
  · rename_i h1
    have h2 : objective ∈ ["regression_l1", "l1", "mean_absolute_error", "mae"] := by
      simp only [List.mem_cons, List.not_mem_nil, or_false] at ho h1 ⊢
      tauto
    rw [if_pos h2]
    obtain ⟨e, he⟩ := hg _
    unfold Metrics.mae
    rw [he]; rfl

/-- three predictions for two labels -/
example : evaluateDataset (τ := Unit) (α := Int) (fun x => x) 1 (fun _ => .ok (Mat.ofRows [[1], [2], [3]] 1 0)) "mse" (some ()) (some (Mat.ofRows [[1], [2]] 1 0)) = .ok 0 := by
  decide +kernel

end Scigo.Api
