import Verif.LGB.Ensemble
import Verif.Base.Sort
import Verif.Metrics.Model

/-!
# `LGBMClassifier` and `LGBMRegressor`

Model of `sklearn/lightgbm/lgbm_classifier.go`, `sklearn/lightgbm/lgbm_regressor.go` and `Predictor.PredictProba`
(`sklearn/lightgbm/predictor.go`). What the trainer makes of its parameters is the argument `train`: `NewTrainer`, `SetInitScore`,
`SetSampleWeight`, `Fit` and `GetModel` in a row (modelled in `Verif/Trainer`). A method that changes its receiver returns the new
receiver beside the outcome, so that what a failed call leaves behind is visible. Not modelled: logging, `ShowProgress`, `Verbosity`,
`NumThreads` (the parallel predictor is `Verif/LGB/PredictParallel.lean`), the options as `GetParams`/`SetParams` see them
(`Verif/ParamMap`). Integers are unbounded.
-/

set_option linter.unusedSectionVars false

namespace Scigo.Wrapper

open Scigo.LGB (ENum)

variable {α : Type _}

/-- `TrainingParams` and the calls `SetInitScore`, `SetSampleWeight`: what a wrapper asks the trainer for
(`sklearn/lightgbm/trainer.go:79-143, 1492-1501`). A field a wrapper does not fill is Go's zero value. Left out: `MinDataInBin`,
`Verbosity`, and the fields no wrapper fills. -/
structure Request (α : Type _) where
  iterations : Int
  learningRate : α
  numLeaves : Int
  maxDepth : Int
  minData : Int
  lambda : α
  alpha : α
  minGain : α
  baggingFraction : α
  baggingFreq : Int
  featureFraction : α
  maxBin : Int
  objective : String
  numClass : Int
  boosting : String
  huberDelta : α
  quantileAlpha : α
  fairC : α
  tweediePower : α
  categorical : List Int
  maxCatToOnehot : Int
  seed : Int
  deterministic : Bool
  earlyStopping : Int
  weights : Option (List α)
  initScore : Option α

/-- options of the wrappers (`sklearn/lightgbm/lgbm_classifier.go:24-44`, `sklearn/lightgbm/lgbm_regressor.go:25-50`): those common to both,
`Objective` excepted -/
structure Opts (α : Type _) where
  numLeaves : Int
  maxDepth : Int
  learningRate : α
  iterations : Int
  minChildSamples : Int
  subsample : α
  subsampleFreq : Int
  colsample : α
  regAlpha : α
  regLambda : α
  randomState : Int
  deterministic : Bool
  earlyStopping : Int
  categorical : List Int

/-- the further options of the regressor (`sklearn/lightgbm/lgbm_regressor.go:44-49`) -/
structure RegOpts (α : Type _) where
  alpha : α
  huberAlpha : α
  fairC : α
  tweediePower : α
  boosting : String

/-! ## Classifier -/

/-- `LGBMClassifier` (`sklearn/lightgbm/lgbm_classifier.go:15-55`); `nClasses` is always the length of `classes` -/
structure Clf (α : Type _) where
  opts : Opts α
  objective : String
  numClass : Int
  classes : List Int
  nFeatures : Int
  model : Option (LGB.Model α)
  fitted : Bool

/-- `extractClasses` (`sklearn/lightgbm/lgbm_classifier.go:421-446`); `iter` lists the keys of the map -/
def extractClasses (toInt : α → Int) (iter : List Int → List Int) (y : Mat α) : List Int :=
  exchangeSort (iter ((List.range y.r).map (fun i => toInt (y.at' i 0))))

section
variable [Zero α]

/-- the parameters `Fit` passes on (`sklearn/lightgbm/lgbm_classifier.go:178-201`); `c` is `1e-7` -/
def Clf.request (c : α) (m : Clf α) : Request α :=
  { iterations := m.opts.iterations, learningRate := m.opts.learningRate, numLeaves := m.opts.numLeaves, maxDepth := m.opts.maxDepth,
    minData := m.opts.minChildSamples, lambda := m.opts.regLambda, alpha := m.opts.regAlpha, minGain := c,
    baggingFraction := m.opts.subsample, baggingFreq := m.opts.subsampleFreq, featureFraction := m.opts.colsample, maxBin := 255,
    objective := m.objective, numClass := m.numClass, boosting := "", huberDelta := 0, quantileAlpha := 0, fairC := 0, tweediePower := 0,
    categorical := [], maxCatToOnehot := 0, seed := m.opts.randomState, deterministic := m.opts.deterministic,
    earlyStopping := m.opts.earlyStopping, weights := none, initScore := none }

/-- the parameters `FitWeighted` passes on (`sklearn/lightgbm/lgbm_classifier.go:271-297`) -/
def Clf.requestWeighted (c : α) (m : Clf α) (w : Option (List α)) : Request α :=
  { iterations := m.opts.iterations, learningRate := m.opts.learningRate, numLeaves := m.opts.numLeaves, maxDepth := m.opts.maxDepth,
    minData := m.opts.minChildSamples, lambda := m.opts.regLambda, alpha := m.opts.regAlpha, minGain := c,
    baggingFraction := m.opts.subsample, baggingFreq := m.opts.subsampleFreq, featureFraction := m.opts.colsample, maxBin := 255,
    objective := m.objective, numClass := m.numClass, boosting := "", huberDelta := 0, quantileAlpha := 0, fairC := 0, tweediePower := 0,
    categorical := [], maxCatToOnehot := 0, seed := m.opts.randomState, deterministic := m.opts.deterministic,
    earlyStopping := m.opts.earlyStopping, weights := w, initScore := none }

/-- the parameters `FitWithInit` passes on (`sklearn/lightgbm/lgbm_classifier.go:368-395`) -/
def Clf.requestInit (c : α) (m : Clf α) (s : α) (w : Option (List α)) : Request α :=
  { iterations := m.opts.iterations, learningRate := m.opts.learningRate, numLeaves := m.opts.numLeaves, maxDepth := m.opts.maxDepth,
    minData := m.opts.minChildSamples, lambda := m.opts.regLambda, alpha := m.opts.regAlpha, minGain := c,
    baggingFraction := m.opts.subsample, baggingFreq := m.opts.subsampleFreq, featureFraction := m.opts.colsample, maxBin := 255,
    objective := m.objective, numClass := m.numClass, boosting := "", huberDelta := 0, quantileAlpha := 0, fairC := 0, tweediePower := 0,
    categorical := [], maxCatToOnehot := 0, seed := m.opts.randomState, deterministic := m.opts.deterministic,
    earlyStopping := m.opts.earlyStopping, weights := w, initScore := some s }

end

/-- the objective for the classes found (`sklearn/lightgbm/lgbm_classifier.go:154-163`); `none` for fewer than two -/
def Clf.setObjective (m : Clf α) : Option (Clf α) :=
  if m.classes.length = 2 then some { m with objective := "binary", numClass := 1 }
  else if m.classes.length > 2 then some { m with objective := "multiclass", numClass := m.classes.length }
  else none

/-- the body common to the three `Fit` methods of the classifier after the checks of the arguments; `req` builds the parameters
(`sklearn/lightgbm/lgbm_classifier.go:151-223`). -/
def Clf.fitBody (toInt : α → Int) (iter : List Int → List Int) (train : Request α → Mat α → Mat α → Outcome (LGB.Model α))
    (req : Clf α → Request α) (m : Clf α) (X y : Mat α) : Clf α × Outcome Unit :=
  let m := { m with classes := extractClasses toInt iter y }
  match m.setObjective with
  | none => (m, .err (.other "invalid number of classes"))
  | some m =>
    let m := { m with nFeatures := X.c }
    match train (req m) X y with
    | .ok model => ({ m with model := some model, fitted := true }, .ok ())
    | .err _ => (m, .err (.other "training failed"))
    | .panic s => (m, .panic s)

/-- `LGBMClassifier.Fit` (`sklearn/lightgbm/lgbm_classifier.go:137-224`) -/
def Clf.fit [Zero α] (c : α) (toInt : α → Int) (iter : List Int → List Int)
    (train : Request α → Mat α → Mat α → Outcome (LGB.Model α)) (m : Clf α) (X y : Mat α) : Clf α × Outcome Unit :=
  if X.r ≠ y.r then (m, .err (.dimension X.r y.r 0))
  else if y.c ≠ 1 then (m, .err (.dimension 1 y.c 1))
  else
    let p := m.fitBody toInt iter train (Clf.request c) X y
    (p.1, p.2.recovered "LGBMClassifier.Fit")

/-- `LGBMClassifier.FitWeighted` (`sklearn/lightgbm/lgbm_classifier.go:227-320`); `none` is a nil slice -/
def Clf.fitWeighted [Zero α] (c : α) (toInt : α → Int) (iter : List Int → List Int)
    (train : Request α → Mat α → Mat α → Outcome (LGB.Model α)) (m : Clf α) (X y : Mat α) (w : Option (List α)) : Clf α × Outcome Unit :=
  if X.r ≠ y.r then (m, .err (.dimension X.r y.r 0))
  else if y.c ≠ 1 then (m, .err (.dimension 1 y.c 1))
  else if w.isSome ∧ (w.getD []).length ≠ X.r then (m, .err (.dimension X.r (w.getD []).length 0))
  else
    let p := m.fitBody toInt iter train (fun m => m.requestWeighted c w) X y
    (p.1, p.2.recovered "LGBMClassifier.FitWeighted")

/-- `LGBMClassifier.FitWithInit` (`sklearn/lightgbm/lgbm_classifier.go:323-418`) -/
def Clf.fitWithInit [Zero α] (c : α) (toInt : α → Int) (iter : List Int → List Int)
    (train : Request α → Mat α → Mat α → Outcome (LGB.Model α)) (m : Clf α) (X y : Mat α) (s : α) (w : Option (List α)) :
    Clf α × Outcome Unit :=
  if X.r ≠ y.r then (m, .err (.dimension X.r y.r 0))
  else if y.c ≠ 1 then (m, .err (.dimension 1 y.c 1))
  else if w.isSome ∧ (w.getD []).length ≠ X.r then (m, .err (.dimension X.r (w.getD []).length 0))
  else
    let p := m.fitBody toInt iter train (fun m => m.requestInit c s w) X y
    (p.1, p.2.recovered "LGBMClassifier.FitWithInit")

section predict
variable [BEq α] [LE α] [DecidableLE α] [LT α] [DecidableLT α] [Zero α] [One α] [Add α] [Sub α] [Neg α] [Mul α] [Div α]

/-- one row of `applySoftmax` (`sklearn/lightgbm/predictor.go:501-528`) -/
def softmaxRow (N : ENum α) (l : List α) : List α :=
  let e := l.map (fun v => N.exp (v - LGB.maxOf l))
  e.map (fun v => N.toPNum.ensure (v / sumOver e id))

/-- `Predictor.PredictProba` (`sklearn/lightgbm/predictor.go:442-475`) -/
def predictorProba (N : ENum α) (m : LGB.Model α) (X : Mat α) : Outcome (Mat α) :=
  (m.pPredict N X).bind fun P =>
    if m.objective = "binary" ∨ m.objective = "cross_entropy" then
      .ok ⟨P.r, 2, fun i j => if j = 0 then N.toPNum.ensure (1 - P.at' i 0) else P.at' i 0⟩
    else if m.objective = "multiclass" then .ok P
    else if m.objective = "multiclass_logloss" then .ok ⟨P.r, P.c, fun i j => (softmaxRow N (P.row i)).getD j 0⟩
    else .ok P

/-- `LGBMClassifier.PredictProba` (`sklearn/lightgbm/lgbm_classifier.go:499-511`) -/
def Clf.predictProba (N : ENum α) (m : Clf α) (X : Mat α) : Outcome (Mat α) :=
  if m.fitted = false then .err .notFitted
  else if (X.c : Int) ≠ m.nFeatures then .err (.dimension m.nFeatures X.c 1)
  else match m.model with
    | none => .panic "invalid memory address or nil pointer dereference"
    | some model => predictorProba N model X

/-- the loop over the classes for other than two classes: the first class with the largest probability above `best`
(`sklearn/lightgbm/lgbm_classifier.go:482-489`); `proba.At(i, j)` beyond the columns panics -/
def pickClass : List Int → List α → α → Int → Outcome Int
  | [], _, _, c => .ok c
  | _ :: _, [], _, _ => .panic "mat: column index out of range"
  | k :: ks, p :: ps, best, c => if best < p then pickClass ks ps p k else pickClass ks ps best c

/-- the label of a row of probabilities (`sklearn/lightgbm/lgbm_classifier.go:470-492`); `half` is `0.5` -/
def labelOf (half : α) (classes : List Int) (row : List α) : Outcome Int :=
  match classes with
  | [c0, c1] => match row[1]? with
    | none => .panic "mat: column index out of range"
    | some p => .ok (if half ≤ p then c1 else c0)
  | cs => pickClass cs row 0 0

/-- the loop over the rows (`sklearn/lightgbm/lgbm_classifier.go:469-493`) -/
def labelsOf (half : α) (classes : List Int) : List (List α) → Outcome (List Int)
  | [] => .ok []
  | r :: rs => (labelOf half classes r).bind fun c => (labelsOf half classes rs).bind fun cs => .ok (c :: cs)

/-- the rows of a matrix (`sklearn/lightgbm/lgbm_classifier.go:466-469`) -/
def rowsOf (P : Mat α) : List (List α) := (List.range P.r).map P.row

/-- `LGBMClassifier.Predict` (`sklearn/lightgbm/lgbm_classifier.go:449-496`); the labels before the conversion to `float64` -/
def Clf.predict (N : ENum α) (half : α) (m : Clf α) (X : Mat α) : Outcome (List Int) :=
  if m.fitted = false then .err .notFitted
  else if (X.c : Int) ≠ m.nFeatures then .err (.dimension m.nFeatures X.c 1)
  else (m.predictProba N X).bind fun P => labelsOf half m.classes (rowsOf P)

/-- `LGBMClassifier.PredictLogProba` (`sklearn/lightgbm/lgbm_classifier.go:514-536`) -/
def Clf.predictLogProba (N : ENum α) (log : α → α) (ninf : α) (m : Clf α) (X : Mat α) : Outcome (Mat α) :=
  (m.predictProba N X).bind fun P => .ok ⟨P.r, P.c, fun i j => if P.at' i j ≤ 0 then ninf else log (P.at' i j)⟩

/-- the rows of `DecisionFunction` (`sklearn/lightgbm/lgbm_classifier.go:764-781`): the first value for two classes, otherwise one column per class,
zero beyond the values -/
def Clf.decisionRow (N : ENum α) (toInt : α → Int) (m : Clf α) (model : LGB.Model α) (x : List α) : Outcome (List α) :=
  (model.predictSingle N toInt x (-1)).bind fun raw =>
    if m.classes.length = 2 then
      match raw with
      | [] => .panic "index out of range"
      | v :: _ => .ok [v]
    else .ok ((List.range m.classes.length).map fun j => raw.getD j 0)

/-- `LGBMClassifier.DecisionFunction` (`sklearn/lightgbm/lgbm_classifier.go:740-784`) -/
def Clf.decisionFunction (N : ENum α) (toInt : α → Int) (m : Clf α) (X : Mat α) : Outcome (Mat α) :=
  if m.fitted = false then .err .notFitted
  else if (X.c : Int) ≠ m.nFeatures then .err (.dimension m.nFeatures X.c 1)
  else if X.r = 0 ∨ m.classes.length = 0 then .panic "mat: zero length in matrix dimension"
  else match m.model with
    | none => .panic "invalid memory address or nil pointer dereference"
    | some model => match LGB.forRows X (m.decisionRow N toInt model) X.r with
      | .ok rows => .ok ⟨X.r, if m.classes.length = 2 then 1 else m.classes.length, fun i j => (rows.getD i []).getD j 0⟩
      | .err e => .err e
      | .panic s => .panic s

end predict

/-- the classes `0, …, n-1`; `make` with a negative length panics, which the loaders exclude (`sklearn/lightgbm/lgbm_classifier.go:580-585`) -/
def firstClasses (n : Nat) : List Int := (List.range n).map (fun i : Nat => (i : Int))

/-- `LGBMClassifier.LoadModel` (`sklearn/lightgbm/lgbm_classifier.go:562-590`); `r` is the outcome of reading the file -/
def Clf.loadModel (m : Clf α) (r : Outcome (LGB.Model α)) : Clf α × Outcome Unit :=
  match r with
  | .err _ => (m, .err (.other "failed to load model"))
  | .panic s => (m, .panic s)
  | .ok model =>
    let m := { m with model := some model, nFeatures := model.numFeatures, numClass := model.numClass, fitted := true }
    if model.objective = "binary" ∨ model.objective = "cross_entropy" then ({ m with classes := [0, 1] }, .ok ())
    else if model.objective = "multiclass" then ({ m with classes := firstClasses model.numClass.toNat }, .ok ())
    else (m, .ok ())

/-- `LGBMClassifier.LoadModelFromString` and `LoadModelFromJSON` (`sklearn/lightgbm/lgbm_classifier.go:593-644`) -/
def Clf.loadModelFrom (m : Clf α) (r : Outcome (LGB.Model α)) : Clf α × Outcome Unit :=
  match r with
  | .err _ => (m, .err (.other "failed to load model from string"))
  | .panic s => (m, .panic s)
  | .ok model =>
    ({ m with model := some model, nFeatures := model.numFeatures, fitted := true,
              classes := if model.numClass > 2 then firstClasses model.numClass.toNat else [0, 1] }, .ok ())

/-! ## Regressor -/

/-- `LGBMRegressor` (`sklearn/lightgbm/lgbm_regressor.go:16-60`) -/
structure Reg (α : Type _) where
  opts : Opts α
  ropts : RegOpts α
  objective : String
  nFeatures : Int
  nSamples : Int
  model : Option (LGB.Model α)
  fitted : Bool

/-- the parameters `Fit` passes on (`sklearn/lightgbm/lgbm_regressor.go:189-218`) -/
def Reg.request (c : α) (m : Reg α) : Request α :=
  { iterations := m.opts.iterations, learningRate := m.opts.learningRate, numLeaves := m.opts.numLeaves, maxDepth := m.opts.maxDepth,
    minData := m.opts.minChildSamples, lambda := m.opts.regLambda, alpha := m.opts.regAlpha, minGain := c,
    baggingFraction := m.opts.subsample, baggingFreq := m.opts.subsampleFreq, featureFraction := m.opts.colsample, maxBin := 255,
    objective := m.objective, numClass := 1, boosting := "", huberDelta := m.ropts.huberAlpha, quantileAlpha := m.ropts.alpha,
    fairC := m.ropts.fairC, tweediePower := m.ropts.tweediePower, categorical := m.opts.categorical, maxCatToOnehot := 4,
    seed := m.opts.randomState, deterministic := m.opts.deterministic, earlyStopping := m.opts.earlyStopping,
    weights := none, initScore := none }

/-- the parameters `FitWeighted` passes on (`sklearn/lightgbm/lgbm_regressor.go:276-307`) -/
def Reg.requestWeighted (c : α) (m : Reg α) (w : Option (List α)) : Request α :=
  { iterations := m.opts.iterations, learningRate := m.opts.learningRate, numLeaves := m.opts.numLeaves, maxDepth := m.opts.maxDepth,
    minData := m.opts.minChildSamples, lambda := m.opts.regLambda, alpha := m.opts.regAlpha, minGain := c,
    baggingFraction := m.opts.subsample, baggingFreq := m.opts.subsampleFreq, featureFraction := m.opts.colsample, maxBin := 255,
    objective := m.objective, numClass := 0, boosting := m.ropts.boosting, huberDelta := m.ropts.huberAlpha, quantileAlpha := m.ropts.alpha,
    fairC := m.ropts.fairC, tweediePower := m.ropts.tweediePower, categorical := m.opts.categorical, maxCatToOnehot := 0,
    seed := m.opts.randomState, deterministic := m.opts.deterministic, earlyStopping := m.opts.earlyStopping,
    weights := w, initScore := none }

/-- the parameters `FitWithInit` passes on (`sklearn/lightgbm/lgbm_regressor.go:364-396`) -/
def Reg.requestInit (c : α) (m : Reg α) (s : α) (w : Option (List α)) : Request α :=
  { iterations := m.opts.iterations, learningRate := m.opts.learningRate, numLeaves := m.opts.numLeaves, maxDepth := m.opts.maxDepth,
    minData := m.opts.minChildSamples, lambda := m.opts.regLambda, alpha := m.opts.regAlpha, minGain := c,
    baggingFraction := m.opts.subsample, baggingFreq := m.opts.subsampleFreq, featureFraction := m.opts.colsample, maxBin := 255,
    objective := m.objective, numClass := 0, boosting := m.ropts.boosting, huberDelta := m.ropts.huberAlpha, quantileAlpha := m.ropts.alpha,
    fairC := m.ropts.fairC, tweediePower := m.ropts.tweediePower, categorical := m.opts.categorical, maxCatToOnehot := 0,
    seed := m.opts.randomState, deterministic := m.opts.deterministic, earlyStopping := m.opts.earlyStopping,
    weights := w, initScore := some s }

/-- the body common to the three `Fit` methods of the regressor after the checks (`sklearn/lightgbm/lgbm_regressor.go:174-240`) -/
def Reg.fitBody (train : Request α → Mat α → Mat α → Outcome (LGB.Model α)) (req : Reg α → Request α) (m : Reg α) (X y : Mat α) :
    Reg α × Outcome Unit :=
  let m := { m with nFeatures := X.c, nSamples := X.r }
  match train (req m) X y with
  | .ok model => ({ m with model := some model, fitted := true }, .ok ())
  | .err _ => (m, .err (.other "training failed"))
  | .panic s => (m, .panic s)

/-- `LGBMRegressor.Fit` (`sklearn/lightgbm/lgbm_regressor.go:160-241`) -/
def Reg.fit (c : α) (train : Request α → Mat α → Mat α → Outcome (LGB.Model α)) (m : Reg α) (X y : Mat α) : Reg α × Outcome Unit :=
  if X.r ≠ y.r then (m, .err (.dimension X.r y.r 0))
  else if y.c ≠ 1 then (m, .err (.dimension 1 y.c 1))
  else
    let p := m.fitBody train (Reg.request c) X y
    (p.1, p.2.recovered "LGBMRegressor.Fit")

/-- `LGBMRegressor.FitWeighted` (`sklearn/lightgbm/lgbm_regressor.go:246-330`) -/
def Reg.fitWeighted (c : α) (train : Request α → Mat α → Mat α → Outcome (LGB.Model α)) (m : Reg α) (X y : Mat α) (w : Option (List α)) :
    Reg α × Outcome Unit :=
  if X.r ≠ y.r then (m, .err (.dimension X.r y.r 0))
  else if y.c ≠ 1 then (m, .err (.dimension 1 y.c 1))
  else if w.isSome ∧ (w.getD []).length ≠ X.r then (m, .err (.dimension X.r (w.getD []).length 0))
  else
    let p := m.fitBody train (fun m => m.requestWeighted c w) X y
    (p.1, p.2.recovered "LGBMRegressor.FitWeighted")

/-- `LGBMRegressor.FitWithInit` (`sklearn/lightgbm/lgbm_regressor.go:333-419`) -/
def Reg.fitWithInit (c : α) (train : Request α → Mat α → Mat α → Outcome (LGB.Model α)) (m : Reg α) (X y : Mat α) (s : α)
    (w : Option (List α)) : Reg α × Outcome Unit :=
  if X.r ≠ y.r then (m, .err (.dimension X.r y.r 0))
  else if y.c ≠ 1 then (m, .err (.dimension 1 y.c 1))
  else if w.isSome ∧ (w.getD []).length ≠ X.r then (m, .err (.dimension X.r (w.getD []).length 0))
  else
    let p := m.fitBody train (fun m => m.requestInit c s w) X y
    (p.1, p.2.recovered "LGBMRegressor.FitWithInit")

section predict
variable [BEq α] [LE α] [DecidableLE α] [LT α] [DecidableLT α] [Zero α] [One α] [Add α] [Sub α] [Neg α] [Mul α] [Div α]

/-- `LGBMRegressor.Predict` (`sklearn/lightgbm/lgbm_regressor.go:422-434`) -/
def Reg.predict (N : ENum α) (m : Reg α) (X : Mat α) : Outcome (Mat α) :=
  if m.fitted = false then .err .notFitted
  else if (X.c : Int) ≠ m.nFeatures then .err (.dimension m.nFeatures X.c 1)
  else match m.model with
    | none => .panic "invalid memory address or nil pointer dereference"
    | some model => model.pPredict N X

/-- the adjustment of one prediction (`sklearn/lightgbm/lgbm_regressor.go:702-705`); `tenth` is `0.1` -/
def adjust (half tenth q v : α) : α := v + v * (q - half) * tenth

/-- the loop over the quantiles (`sklearn/lightgbm/lgbm_regressor.go:683-710`) -/
def Reg.quantileLoop (N : ENum α) (half tenth : α) (m : Reg α) (X : Mat α) : List α → Outcome (List (Mat α))
  | [] => .ok []
  | q :: qs =>
    if q ≤ 0 ∨ 1 ≤ q then .err (.other "quantile must be in (0, 1)")
    else (m.predict N X).bind fun P => (m.quantileLoop N half tenth X qs).bind fun rest =>
      .ok (⟨P.r, P.c, fun i j => adjust half tenth q (P.at' i j)⟩ :: rest)

/-- `LGBMRegressor.PredictQuantile` (`sklearn/lightgbm/lgbm_regressor.go:670-713`) -/
def Reg.predictQuantile (N : ENum α) (half tenth : α) (m : Reg α) (X : Mat α) (qs : List α) : Outcome (List (Mat α)) :=
  if m.fitted = false then .err .notFitted
  else match m.model with
    | none => .panic "invalid memory address or nil pointer dereference"
    | some model =>
      if model.objective ≠ "quantile" then .err (.other "PredictQuantile requires objective='quantile'")
      else m.quantileLoop N half tenth X qs

/-- `y` and the predictions as vectors with as many entries as `y` has rows; reading outside a matrix panics
(`sklearn/lightgbm/lgbm_regressor.go:748-755, 726-731`) -/
def pairUp {β : Type _} (P y : Mat α) (f : List α → List α → Outcome β) : Outcome β :=
  if y.r = 0 then .panic "mat: zero length in matrix dimension"
  else if y.c = 0 ∨ P.c = 0 ∨ P.r < y.r then .panic "mat: row or column index out of range"
  else f ((List.range y.r).map (fun i => y.at' i 0)) ((List.range y.r).map (fun i => P.at' i 0))

/-- `LGBMRegressor.GetResiduals` (`sklearn/lightgbm/lgbm_regressor.go:716-735`) as the list of residuals -/
def Reg.residuals (N : ENum α) (m : Reg α) (X y : Mat α) : Outcome (List α) :=
  if m.fitted = false then .err .notFitted
  else (m.predict N X).bind fun P => pairUp P y fun t p => .ok (List.zipWith (fun a b => a - b) t p)

/-- `LGBMRegressor.GetMSE` (`sklearn/lightgbm/lgbm_regressor.go:738-757`) -/
def Reg.mse [NatCast α] (N : ENum α) (m : Reg α) (X y : Mat α) : Outcome α :=
  if m.fitted = false then .err .notFitted
  else (m.predict N X).bind fun P => pairUp P y fun t p => Metrics.mse (some t) (some p)

/-- `LGBMRegressor.GetMAE` (`sklearn/lightgbm/lgbm_regressor.go:760-779`) -/
def Reg.mae [NatCast α] (N : ENum α) (abs : α → α) (m : Reg α) (X y : Mat α) : Outcome α :=
  if m.fitted = false then .err .notFitted
  else (m.predict N X).bind fun P => pairUp P y fun t p => Metrics.mae abs (some t) (some p)

/-- `LGBMRegressor.GetRMSE` (`sklearn/lightgbm/lgbm_regressor.go:782-789`) -/
def Reg.rmse [NatCast α] (N : ENum α) (sqrt : α → α) (m : Reg α) (X y : Mat α) : Outcome α :=
  (m.mse N X y).bind fun v => .ok (sqrt v)

end predict

/-- `LGBMRegressor.LoadModel` (`sklearn/lightgbm/lgbm_regressor.go:459-495`) -/
def Reg.loadModel (m : Reg α) (r : Outcome (LGB.Model α)) : Reg α × Outcome Unit :=
  match r with
  | .err _ => (m, .err (.other "failed to load model"))
  | .panic s => (m, .panic s)
  | .ok model =>
    ({ m with model := some model, nFeatures := model.numFeatures, fitted := true,
              objective := if model.objective ∈ ["regression_l1", "huber", "fair", "poisson", "quantile", "gamma", "tweedie"]
                then model.objective else "regression" }, .ok ())

/-- `LGBMRegressor.LoadModelFromString` and `LoadModelFromJSON` (`sklearn/lightgbm/lgbm_regressor.go:498-525`) -/
def Reg.loadModelFrom (m : Reg α) (r : Outcome (LGB.Model α)) : Reg α × Outcome Unit :=
  match r with
  | .err _ => (m, .err (.other "failed to load model from string"))
  | .panic s => (m, .panic s)
  | .ok model => ({ m with model := some model, nFeatures := model.numFeatures, fitted := true }, .ok ())

end Scigo.Wrapper
