import Verif.ParamMap.Model

/-!
# The `With…` methods of the LightGBM estimators

The methods set one field and return the receiver, so a chain of calls is a fold over the estimator.
-/

namespace Scigo.ParamMap

/-- an LGBM estimator as far as the `With…` methods see it: the hyperparameters, and the two settings `GetParams` does not
show: sklearn/lightgbm/lgbm_regressor.go:17-50, sklearn/lightgbm/lgbm_classifier.go:16-50 -/
structure Estimator (α : Type) where
  params : Params α
  showProgress : Bool
  tweedieVariancePower : α

/-- a call of a `With…` method -/
inductive With (α : Type) where
  | numLeaves (n : Int)
  | maxDepth (d : Int)
  | learningRate (lr : α)
  | numIterations (n : Int)
  | randomState (seed : Int)
  | deterministic (det : Bool)
  | progressBar
  | objective (obj : String)
  | tweedieVariancePower (power : α)
  | earlyStopping (rounds : Int)

/-- the call on an `LGBMRegressor`: sklearn/lightgbm/lgbm_regressor.go:98-157 -/
def Estimator.call {α : Type} (e : Estimator α) : With α → Estimator α
  | .numLeaves n => { e with params := { e.params with numLeaves := n } }
  | .maxDepth d => { e with params := { e.params with maxDepth := d } }
  | .learningRate lr => { e with params := { e.params with learningRate := lr } }
  | .numIterations n => { e with params := { e.params with numIterations := n } }
  | .randomState seed => { e with params := { e.params with randomState := seed } }
  | .deterministic det => { e with params := { e.params with deterministic := det } }
  | .progressBar => { e with showProgress := true }
  | .objective obj => { e with params := { e.params with objective := obj } }
  | .tweedieVariancePower power => { e with tweedieVariancePower := power }
  | .earlyStopping rounds => { e with params := { e.params with earlyStopping := rounds } }

/-- the call on an `LGBMClassifier`, which has no `WithObjective` and no `WithTweedieVariancePower` (`none`):
sklearn/lightgbm/lgbm_classifier.go:89-135 -/
def Estimator.callClassifier {α : Type} (e : Estimator α) : With α → Option (Estimator α)
  | .numLeaves n => some { e with params := { e.params with numLeaves := n } }
  | .maxDepth d => some { e with params := { e.params with maxDepth := d } }
  | .learningRate lr => some { e with params := { e.params with learningRate := lr } }
  | .numIterations n => some { e with params := { e.params with numIterations := n } }
  | .randomState seed => some { e with params := { e.params with randomState := seed } }
  | .deterministic det => some { e with params := { e.params with deterministic := det } }
  | .progressBar => some { e with showProgress := true }
  | .objective _ => none
  | .tweedieVariancePower _ => none
  | .earlyStopping rounds => some { e with params := { e.params with earlyStopping := rounds } }

/-- a chain of calls on a regressor: sklearn/lightgbm/lgbm_regressor.go:98-157 -/
def Estimator.chain {α : Type} (e : Estimator α) (calls : List (With α)) : Estimator α := calls.foldl Estimator.call e

/-- a chain of calls on a classifier: sklearn/lightgbm/lgbm_classifier.go:89-135 -/
def Estimator.chainClassifier {α : Type} (e : Estimator α) : List (With α) → Option (Estimator α)
  | [] => some e
  | w :: ws => (e.callClassifier w).bind (fun e => e.chainClassifier ws)

end Scigo.ParamMap
