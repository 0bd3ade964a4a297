import Verif.CV.Validate
import Verif.Wrapper.Train

/-!
# Scores of cross-validation and cross-validation of the estimators

Model of `evaluateMetric`, `GetMeanScore`, `GetStdScore`, the default metric, `CrossValidateRegressor` and `CrossValidateClassifier`
(`sklearn/lightgbm/cross_validation.go:213-239, 256-266, 400-549`).
-/

namespace Scigo.CV

variable {α : Type _}

/-- the metric when none is given (`sklearn/lightgbm/cross_validation.go:256-266`) -/
def chosenMetric (metric objective : String) : String :=
  if metric = "" then (if objective = "binary" then "binary_logloss" else "l2") else metric

section
variable [BEq α] [LT α] [DecidableLT α] [Zero α] [One α] [Add α] [Sub α] [Mul α] [Div α] [NatCast α]

/-- the `math` functions and literals of `evaluateMetric`: `1e-15` and `0.5` (`sklearn/lightgbm/cross_validation.go:414, 422, 427, 453`) -/
structure ScoreEnv (α : Type _) where
  sqrt : α → α
  abs : α → α
  log : α → α
  eps : α
  half : α

/-- the mean squared error of the first columns (`sklearn/lightgbm/cross_validation.go:406-411, 461-466`) -/
def meanSquare (t p : Mat α) : α :=
  sumTo t.r (fun i => (t.at' i 0 - p.at' i 0) * (t.at' i 0 - p.at' i 0)) / (t.r : α)

/-- the clipped prediction (`sklearn/lightgbm/cross_validation.go:431-435`) -/
def clipped (eps p : α) : α := if p < eps then eps else if 1 - eps < p then 1 - eps else p

/-- the loop of the log loss (`sklearn/lightgbm/cross_validation.go:427-444`) -/
def logLossSum (E : ScoreEnv α) (t p : Mat α) : α :=
  (List.range t.r).foldl (fun s i =>
    if t.at' i 0 == 1 then s - E.log (clipped E.eps (p.at' i 0)) else s - E.log (1 - clipped E.eps (p.at' i 0))) 0

/-- the number of right answers (`sklearn/lightgbm/cross_validation.go:448-457`) -/
def correct (E : ScoreEnv α) (t p : Mat α) : Nat :=
  (List.range t.r).foldl (fun s i => if (if E.half < p.at' i 0 then 1 else 0 : α) == t.at' i 0 then s + 1 else s) 0

/-- `evaluateMetric` (`sklearn/lightgbm/cross_validation.go:401-468`); a missing cell panics, and no rows divide by zero -/
def evaluateMetric (E : ScoreEnv α) (metric : String) (t p : Mat α) : Outcome α :=
  if 0 < t.r ∧ (t.c = 0 ∨ p.c = 0 ∨ p.r < t.r) then .panic "mat: index out of range"
  else if metric = "l2" ∨ metric = "mse" then .ok (meanSquare t p)
  else if metric = "rmse" then .ok (E.sqrt (meanSquare t p))
  else if metric = "l1" ∨ metric = "mae" then .ok (sumTo t.r (fun i => E.abs (t.at' i 0 - p.at' i 0)) / (t.r : α))
  else if metric = "binary_logloss" ∨ metric = "logloss" then .ok (logLossSum E t p / (t.r : α))
  else if metric = "accuracy" then .ok ((correct E t p : α) / (t.r : α))
  else .ok (meanSquare t p)

/-- `GetMeanScore` (`sklearn/lightgbm/cross_validation.go:214-224`) -/
def meanScore (test : List α) : α := if test.length = 0 then 0 else sumOver test id / (test.length : α)

/-- `GetStdScore` (`sklearn/lightgbm/cross_validation.go:227-239`) -/
def stdScore (sqrt : α → α) (test : List α) : α :=
  if test.length ≤ 1 then 0
  else sqrt (sumOver test (fun s => (s - meanScore test) * (s - meanScore test)) / ((test.length - 1 : Nat) : α))

end

/-! ## Cross-validation of the estimators -/

open Scigo.Wrapper (Request Reg Clf)

section
variable [Zero α]

/-- the parameters `CrossValidateRegressor` trains each fold with (`sklearn/lightgbm/cross_validation.go:485-504`) -/
def regRequest (m : Reg α) : Request α :=
  { iterations := m.opts.iterations, learningRate := m.opts.learningRate, numLeaves := m.opts.numLeaves, maxDepth := m.opts.maxDepth,
    minData := m.opts.minChildSamples, lambda := m.opts.regLambda, alpha := m.opts.regAlpha, minGain := 0,
    baggingFraction := m.opts.subsample, baggingFreq := m.opts.subsampleFreq, featureFraction := m.opts.colsample, maxBin := 0,
    objective := m.objective, numClass := 1, boosting := "", huberDelta := 0, quantileAlpha := 0, fairC := 0, tweediePower := 0,
    categorical := m.opts.categorical, maxCatToOnehot := 0, seed := m.opts.randomState, deterministic := m.opts.deterministic,
    earlyStopping := m.opts.earlyStopping, weights := none, initScore := none }

/-- the parameters `CrossValidateClassifier` trains each fold with (`sklearn/lightgbm/cross_validation.go:518-537`) -/
def clfRequest (m : Clf α) : Request α :=
  { iterations := m.opts.iterations, learningRate := m.opts.learningRate, numLeaves := m.opts.numLeaves, maxDepth := m.opts.maxDepth,
    minData := m.opts.minChildSamples, lambda := m.opts.regLambda, alpha := m.opts.regAlpha, minGain := 0,
    baggingFraction := m.opts.subsample, baggingFreq := m.opts.subsampleFreq, featureFraction := m.opts.colsample, maxBin := 0,
    objective := m.objective, numClass := m.numClass, boosting := "", huberDelta := 0, quantileAlpha := 0, fairC := 0, tweediePower := 0,
    categorical := m.opts.categorical, maxCatToOnehot := 0, seed := m.opts.randomState, deterministic := m.opts.deterministic,
    earlyStopping := m.opts.earlyStopping, weights := none, initScore := none }

end

/-- the metric of `CrossValidateRegressor` (`sklearn/lightgbm/cross_validation.go:506-511`) -/
def regMetric (scoring : String) (m : Reg α) : String := chosenMetric (if scoring = "" then "l2" else scoring) m.objective

/-- the metric of `CrossValidateClassifier` (`sklearn/lightgbm/cross_validation.go:539-548`) -/
def clfMetric (scoring : String) (m : Clf α) : String :=
  chosenMetric (if scoring = "" then (if m.numClass > 2 then "accuracy" else "binary_logloss") else scoring) m.objective

end Scigo.CV
