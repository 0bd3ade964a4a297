import Verif.Shap.Model

/-!
# SHAP values of a matrix

Model of `CalculateInteractions` and of `PredictSHAP` of the estimators (`sklearn/lightgbm/shap.go`); `CalculateSHAP` is `Scigo.Shap.calculate`.
-/

set_option linter.unusedSectionVars false

namespace Scigo.Shap

variable {α : Type} [LE α] [DecidableLE α] [LT α] [DecidableLT α] [Zero α] [Add α] [Sub α] [Neg α] [Mul α] [Div α]

/-- `CalculateInteractions`: one matrix of features by features for every row; `mat.NewDense` panics on a dimension 0:
sklearn/lightgbm/shap.go:249-266 -/
def calculateInteractions (ofNat : Nat → α) (tenth : α) (toInt : α → Int) (m : LGB.Model α) (X : Mat α) : Nat → Outcome (List (Nat → Nat → α))
  | 0 => .ok []
  | n + 1 => (calculateInteractions ofNat tenth toInt m X n).bind fun l =>
    if X.c = 0 then .panic "mat: zero length in matrix dimension"
    else (interactions ofNat tenth toInt m (LGB.rowOf X n)).map fun M => l ++ [M]

/-- `PredictSHAP` of `LGBMRegressor` and `LGBMClassifier`; `model` is the model of a fitted estimator: sklearn/lightgbm/shap.go:421-439 -/
def predictSHAP (ofNat : Nat → α) (toInt : α → Int) (model : Option (LGB.Model α)) (X : Mat α) : Outcome (List (List α) × α) :=
  match model with
  | none => .err (.other "model is not fitted")
  | some m => calculate ofNat toInt m X

end Scigo.Shap
