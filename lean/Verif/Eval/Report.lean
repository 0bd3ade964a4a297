import Verif.Eval.Model
import Verif.Metrics.Model

/-!
# The evaluation reports (`sklearn/lightgbm/evaluation_metrics.go`)

The regression metrics of this file (`MSE`, `MAE`, `R2Score`, `MAPE`, `ExplainedVarianceScore`,
`sklearn/lightgbm/evaluation_metrics.go:402-540`) repeat those of package `metrics` line by line and are the definitions of
`Verif.Metrics.Model`.
-/

namespace Scigo.Eval

section
variable {α : Type} [Add α] [Sub α] [Mul α] [Div α] [Neg α] [Zero α] [One α] [NatCast α] [LT α] [DecidableLT α] [BEq α]

/-- the entries of the map `EvaluateRegression` returns (`sklearn/lightgbm/evaluation_metrics.go:350-385`) -/
structure RegReport (α : Type) where
  mse : α
  rmse : α
  mae : α
  r2 : α
  mape : α
  evs : α
  deriving DecidableEq

/-- value of a successful call, `NaN` after an error; a panic stays a panic (`sklearn/lightgbm/evaluation_metrics.go:372-377`) -/
def orNaN (nan : α) : Outcome α → Outcome α
  | .ok v => .ok v
  | .err _ => .ok nan
  | .panic s => .panic s

/-- `EvaluateRegression` (`sklearn/lightgbm/evaluation_metrics.go:349-386`); the wrapped errors keep their class -/
def evaluateRegression (abs sqrt : α → α) (hundred nan : α) (t p : Metrics.Vec α) : Outcome (RegReport α) :=
  (Metrics.mse t p).bind fun mse =>
  (Metrics.mae abs t p).bind fun mae =>
  (Metrics.r2Score t p).bind fun r2 =>
  (orNaN nan (Metrics.mape abs hundred t p)).bind fun mape =>
  (Metrics.explainedVariance t p).bind fun evs => .ok ⟨mse, sqrt mse, mae, r2, mape, evs⟩

/-- the values of one class in the report (`sklearn/lightgbm/evaluation_metrics.go:221-228`) -/
structure ClassScores (α : Type) where
  precision : α
  recall : α
  f1 : α
  support : α
  deriving DecidableEq

/-- the map `ClassificationReport` returns; `perClass` is keyed by the label itself, the code by `"class_%d"`
(`sklearn/lightgbm/evaluation_metrics.go:201-233`) -/
structure ClsReport (α : Type) where
  accuracy : α
  precision : α
  recall : α
  f1 : α
  auc : Option α
  logLoss : Option α
  perClass : Int → Option (ClassScores α)

/-- value of a call that succeeds, else no entry (`sklearn/lightgbm/evaluation_metrics.go:210-217`); the calls do not panic -/
def entry : Outcome α → Option α
  | .ok v => some v
  | _ => none

/-- the entries of one class (`sklearn/lightgbm/evaluation_metrics.go:222-227`) -/
def ClsMetrics.scores (two : α) (m : ClsMetrics α) (k : Nat) : ClassScores α :=
  ⟨m.classPrecision k, m.classRecall k, m.classF1 two k, (m.classSupport k : α)⟩

/-- `ClassificationReport` (`sklearn/lightgbm/evaluation_metrics.go:201-233`) -/
def ClsMetrics.report (two half eps : α) (log : α → α) (m : ClsMetrics α) : ClsReport α :=
  ⟨m.accuracy, m.precision, m.recall, m.f1 two,
    if m.classes.length = 2 then entry (m.auc half) else none,
    if m.classes.length = 2 then entry (m.logLoss log eps) else none,
    m.classes.zipIdx.foldl (fun f x => Function.update f x.1 (some (m.scores two x.2))) (fun _ => none)⟩

/-- `EvaluateClassification` (`sklearn/lightgbm/evaluation_metrics.go:389-396`) -/
def evaluateClassification (srt iter : List Int → List Int) (two half eps : α) (log : α → α) (yTrue yPred : List Int)
    (yProba : Option (List α)) : Outcome (ClsReport α) :=
  (ClsMetrics.new srt iter yTrue yPred yProba).bind fun m => .ok (m.report two half eps log)

end

end Scigo.Eval
