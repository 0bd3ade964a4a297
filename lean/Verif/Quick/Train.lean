import Verif.Quick.Model
import Verif.Wrapper.Model
import Verif.Scores.Model
import Verif.LGB.Importance

/-!
# `QuickTrain`, `QuickLoadAndPredict` and `QuickBenchmark`

Model of `sklearn/lightgbm/quick.go:12-170,260-274,375-413` on top of the estimators of `Verif.Wrapper`. Training is the parameter `train`
of that model. Not modelled: times and printed text.
-/

set_option linter.unusedSectionVars false

namespace Scigo.Quick

open Scigo.Wrapper (Clf Reg Opts RegOpts Request)
open Scigo.LGB (ENum)

variable {α : Type}

/-- constants and functions the helpers need: the literals `1e-7`, `0.5`, `0.1`, `1.5`, the conversions between numbers, the test
`val == float64(int(val))`, listing the keys of a map, and the trainer (sklearn/lightgbm/quick.go:106-170) -/
structure QEnv (α : Type) where
  num : ENum α
  tiny : α
  half : α
  tenth : α
  threeHalves : α
  toInt : α → Int
  ofInt : Int → α
  isInt : α → Bool
  iter : List Int → List Int
  train : Request α → Mat α → Mat α → Outcome (LGB.Model α)

/-- `Model` and `isClassifier` of a `QuickResult` (sklearn/lightgbm/quick.go:12-19) -/
inductive QModel (α : Type)
  | clf (m : Clf α)
  | reg (m : Reg α)

/-- `QuickResult` (sklearn/lightgbm/quick.go:12-19); `TrainTime` and `FeatureNames` are left out -/
structure Result (α : Type) where
  model : QModel α
  score : α

section
variable [Add α] [Sub α] [Neg α] [Mul α] [Div α] [Zero α] [One α] [LT α] [DecidableLT α] [LE α] [DecidableLE α] [BEq α] [NatCast α]

/-- the options of a new estimator (sklearn/lightgbm/lgbm_classifier.go:58-79, sklearn/lightgbm/lgbm_regressor.go:63-90) -/
def QEnv.opts (E : QEnv α) : Opts α := ⟨31, -1, E.tenth, 100, 20, 1, 0, 1, 0, 0, 42, false, 0, []⟩

/-- `NewLGBMClassifier` (sklearn/lightgbm/lgbm_classifier.go:58-86) -/
def QEnv.newClf (E : QEnv α) : Clf α := ⟨E.opts, "binary", 0, [], 0, none, false⟩

/-- `NewLGBMRegressor` (sklearn/lightgbm/lgbm_regressor.go:63-97) -/
def QEnv.newReg (E : QEnv α) : Reg α := ⟨E.opts, ⟨E.half, 1, 1, E.threeHalves, "gbdt"⟩, "regression", 0, 0, none, false⟩

/-- `LGBMClassifier.Predict` as the matrix returned (sklearn/lightgbm/lgbm_classifier.go:449-496) -/
def QEnv.clfPredict (E : QEnv α) (m : Clf α) (X : Mat α) : Outcome (Mat α) :=
  (m.predict E.num E.half X).map fun ls => ⟨ls.length, 1, fun i _ => E.ofInt (ls.getD i 0)⟩

/-- `QuickResult.Predict` (sklearn/lightgbm/quick.go:22-27) -/
def Result.predict (E : QEnv α) (r : Result α) (X : Mat α) : Outcome (Mat α) :=
  match r.model with
  | .clf m => E.clfPredict m X
  | .reg m => m.predict E.num X

/-- `QuickResult.PredictProba` (sklearn/lightgbm/quick.go:30-35) -/
def Result.predictProba (E : QEnv α) (r : Result α) (X : Mat α) : Outcome (Mat α) :=
  match r.model with
  | .clf m => m.predictProba E.num X
  | .reg _ => .err (.other "PredictProba is only available for classifiers")

/-- `QuickResult.Score` (sklearn/lightgbm/quick.go:38-43) -/
def Result.scoreOn (E : QEnv α) (r : Result α) (X y : Mat α) : Outcome α :=
  match r.model with
  | .clf m => Scores.lgbmClassifierScore m.fitted (E.clfPredict m X) y
  | .reg m => Scores.lgbmRegressorScore m.fitted (m.predict E.num X) y

/-- `QuickResult.GetFeatureImportance` (sklearn/lightgbm/quick.go:46-51) -/
def Result.importance (r : Result α) : Outcome (Option (List α)) :=
  match r.model with
  | .clf m => LGB.estimatorImportance m.fitted m.model "gain"
  | .reg m => LGB.estimatorImportance m.fitted m.model "gain"

/-- the score kept: an error of `Score` leaves what was returned with it, which is 0 (sklearn/lightgbm/quick.go:125-127,138-140) -/
def keptScore : Outcome α → Outcome α
  | .err _ => .ok 0
  | o => o

/-- fit one estimator and score it on the same data (sklearn/lightgbm/quick.go:116-143); an error of `Fit` is only printed -/
def QEnv.fitModel (E : QEnv α) (classification : Bool) (X y : Mat α) : QModel α × Outcome Unit :=
  if classification then
    let p := E.newClf.fit E.tiny E.toInt E.iter E.train X y
    (.clf p.1, p.2)
  else
    let p := E.newReg.fit E.tiny E.train X y
    (.reg p.1, p.2)

/-- the score on the training data (sklearn/lightgbm/quick.go:113,124-127,137-140) -/
def QEnv.trainScore (E : QEnv α) (p : QModel α × Outcome Unit) (X y : Mat α) : Outcome α :=
  match p.2 with
  | .ok _ => keptScore ((⟨p.1, 0⟩ : Result α).scoreOn E X y)
  | .err _ => .ok 0
  | .panic s => .panic s

/-- `QuickTrain` (sklearn/lightgbm/quick.go:106-170); `PrintSummary` asks for the importances before the result is returned -/
def QEnv.quickTrain (E : QEnv α) (X y : Mat α) : Outcome (Result α) :=
  if y.r ≠ 0 ∧ y.c = 0 then .panic "mat: column index out of range"
  else
    let p := E.fitModel (detectTaskType E.isInt (y.col 0)) X y
    (E.trainScore p X y).bind fun s =>
      (⟨p.1, s⟩ : Result α).importance.bind fun _ => .ok ⟨p.1, s⟩

/-- `QuickLoadAndPredict`; `file` is the outcome of reading the file (sklearn/lightgbm/quick.go:260-274) -/
def QEnv.loadAndPredict (E : QEnv α) (file : Outcome (LGB.Model α)) (X : Mat α) (isClassifier : Bool) : Outcome (Mat α) :=
  if isClassifier then
    let p := E.newClf.loadModel file
    match p.2 with
    | .ok _ => E.clfPredict p.1 X
    | .err _ => .err (.other "failed to load classifier")
    | .panic s => .panic s
  else
    let p := E.newReg.loadModel file
    match p.2 with
    | .ok _ => p.1.predict E.num X
    | .err _ => .err (.other "failed to load regressor")
    | .panic s => .panic s

/-- the classifier of `QuickBenchmark` (sklearn/lightgbm/quick.go:384-391): a model without trees; `NumFeatures` is set in the model, the
field `nFeatures` of the classifier is not; the learning rate of a new model is 0.1, its objective is empty -/
def QEnv.benchClf (E : QEnv α) (X : Mat α) : Clf α :=
  { E.newClf with model := some ⟨"", 0, 0, E.tenth, [], X.c, 0, 0, false⟩, fitted := true }

/-- the outcomes of the calls of `Predict` in `QuickBenchmark`, ten to warm up and then as many as are timed
(sklearn/lightgbm/quick.go:375-402) -/
def QEnv.benchCalls (E : QEnv α) (X : Mat α) (iterations : Int) : List (Outcome (Mat α)) :=
  List.replicate (10 + (if iterations ≤ 0 then 100 else iterations.toNat)) (E.clfPredict (E.benchClf X) X)

end

end Scigo.Quick
