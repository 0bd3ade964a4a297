import Verif.Base.Mat
import Verif.Linear.Model
import Verif.Online.Model
import Verif.Metrics.Model

/-!
# `Score` of the estimators that only combine `Predict` with a loop over the labels

`Clf.score` (tree), `NB.score`, `LR.scoreAcc` and `LM.score` live with their models; here are the
stochastic gradient and gradient boosting estimators. Integers are unbounded. `0/0` for `y` without rows
is left to the division of the carrier.
-/

namespace Scigo.Scores

variable {α : Type _}

/-- the counting loop of `Score` (`sklearn/linear_model/sgd_classifier.go:752-762`): as many rows as `y`
has, labels compared after conversion to `int`; reading outside a matrix panics -/
def truncatedAccuracy [Div α] [NatCast α] (toInt : α → Int) (P y : Mat α) : Outcome α :=
  if y.r ≠ 0 ∧ (y.c = 0 ∨ P.c = 0 ∨ P.r < y.r) then .panic "mat: row or column index out of range"
  else .ok ((((List.range y.r).filter
    (fun i => decide (toInt (P.at' i 0) = toInt (y.at' i 0)))).length : α) / (y.r : α))

section
variable [Add α] [Sub α] [Mul α] [Div α] [Neg α] [Zero α] [One α] [LT α] [DecidableLT α]
  [LE α] [DecidableLE α] [NatCast α]

/-- `SGDClassifier.Score` (`sklearn/linear_model/sgd_classifier.go:746-763`) -/
def sgdClassifierScore (ofInt : Int → α) (toInt : α → Int) (ninf : α) (m : Online.Clf α) (X y : Mat α) :
    Outcome α :=
  (m.predict ofInt ninf X).bind (fun P => truncatedAccuracy toInt P y)

/-- `SGDRegressor.Score` (`sklearn/linear_model/sgd_regressor.go:657-687`) -/
def sgdRegressorScore [BEq α] (m : Online.Reg α) (X y : Mat α) : Outcome α :=
  (m.predict X).bind (fun P => Linear.LinReg.r2Body .value P y)

end

/-- `LGBMClassifier.Score` (`sklearn/lightgbm/lgbm_classifier.go:539-560`): as many rows as were predicted,
labels compared as they are; `pred` is the outcome of `Predict(X)` -/
def lgbmClassifierScore [Div α] [NatCast α] [BEq α] (fitted : Bool) (pred : Outcome (Mat α)) (y : Mat α) :
    Outcome α :=
  if fitted = false then .err .notFitted
  else pred.bind (fun P =>
    if P.r ≠ 0 ∧ (y.c = 0 ∨ P.c = 0 ∨ y.r < P.r) then .panic "mat: row or column index out of range"
    else .ok ((((List.range P.r).filter (fun i => P.at' i 0 == y.at' i 0)).length : α) / (P.r : α)))

/-- `LGBMRegressor.Score` (`sklearn/lightgbm/lgbm_regressor.go:438-456`): the first columns are copied into
vectors as long as `y`, then `metrics.R2Score`; `pred` is the outcome of `Predict(X)` -/
def lgbmRegressorScore [Add α] [Sub α] [Mul α] [Div α] [Zero α] [One α] [NatCast α] [BEq α]
    (fitted : Bool) (pred : Outcome (Mat α)) (y : Mat α) : Outcome α :=
  if fitted = false then .err .notFitted
  else pred.bind (fun P =>
    if y.r = 0 then .panic "mat: zero length in matrix dimension"
    else if y.c = 0 ∨ P.c = 0 ∨ P.r < y.r then .panic "mat: row or column index out of range"
    else Metrics.r2Score (some ((List.range y.r).map (fun i => y.at' i 0)))
      (some ((List.range y.r).map (fun i => P.at' i 0))))

end Scigo.Scores
