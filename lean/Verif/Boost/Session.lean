import Verif.LGB.Leaves

/-!
# A booster over its lifetime

Model of `sklearn/lightgbm/api/booster.go`: the models a booster is given one after the other, its four kinds of
prediction, its iteration counters and its evaluation results. The models and the predictors are parameters; what a
loaded model predicts is modelled in `Verif.LGB.Leaves`.
-/

set_option linter.unusedSectionVars false

namespace Scigo.Boost

variable {M L ι X R : Type _}

/-- `Booster` (`sklearn/lightgbm/api/booster.go:14-34`): model, the model its predictor was made for, model of the
leaves predictor, counters, evaluation results. Simplified: without parameters, feature names and cached importances
(`Verif.Boost.Booster`). -/
structure Session (M L ι : Type _) where
  model : Option M
  predictor : Option M
  leaves : Option L
  numIterations : Int
  current : Int
  best : Int
  evals : List Char → List ι

/-- `NewBooster` (`sklearn/lightgbm/api/booster.go:37-44`) -/
def Session.new : Session M L ι := ⟨none, none, none, 0, 0, 0, fun _ => []⟩

/-- what the booster reads of a model: `len(model.Trees)`, `model.BestIteration`, and the model without trees made from a
leaves model (`sklearn/lightgbm/api/booster.go:47-67`) -/
structure Kit (M L : Type _) where
  trees : M → Nat
  best : M → Int
  leafTrees : L → Nat
  stub : L → M

/-- the calls that change a booster -/
inductive Op (M L ι : Type _)
  | initFromModel (m : M)
  | setModel (m : M)
  | initFromLeaves (l : L)
  | update
  | setBest (n : Int)
  | addEval (dataset metric : List Char) (v : ι)

/-- the key of an evaluation result, `fmt.Sprintf("%s-%s", …)` (`sklearn/lightgbm/api/booster.go:495`) -/
def evalKey (dataset metric : List Char) : List Char := dataset ++ '-' :: metric

/-- `InitFromModel`, `SetModel`, `InitFromLeavesModel`, `Update`, `SetBestIteration`, `AddEvalResult`
(`sklearn/lightgbm/api/booster.go:47-76,452-454,494-508`) -/
def Session.apply (K : Kit M L) (b : Session M L ι) : Op M L ι → Session M L ι
  | .initFromModel m =>
    { b with model := some m, predictor := some m, numIterations := K.trees m, current := K.trees m, best := K.best m }
  | .setModel m => { b with model := some m, predictor := some m }
  | .initFromLeaves l =>
    { b with model := some (K.stub l), leaves := some l, numIterations := K.leafTrees l, current := K.leafTrees l }
  | .update => { b with current := b.current + 1 }
  | .setBest n => { b with best := n }
  | .addEval d m v =>
    { b with evals := fun k => if k = evalKey d m then b.evals k ++ [v] else b.evals k }

/-- a history of calls on a new booster (`sklearn/lightgbm/api/booster.go:37-76`) -/
def Session.after (K : Kit M L) (ops : List (Op M L ι)) : Session M L ι := ops.foldl (Session.apply K) Session.new

/-- `Predict`, without the options, which nothing reads (`iteration_limit_ignored`)
(`sklearn/lightgbm/api/booster.go:80-109`) -/
def Session.predict (own : M → X → Outcome R) (loaded : L → X → Outcome R) (b : Session M L ι) (x : X) : Outcome R :=
  match b.leaves with
  | some l => loaded l x
  | none =>
    match b.predictor with
    | some m => own m x
    | none => .err (.other "model not initialized")

/-- `PredictProba` (`sklearn/lightgbm/api/booster.go:115-145`) -/
def Session.predictProba (ownProba : M → X → Outcome R) (loaded : L → X → Outcome R) (b : Session M L ι) (x : X) : Outcome R :=
  match b.leaves with
  | some l => loaded l x
  | none =>
    match b.predictor with
    | some m => ownProba m x
    | none => .err (.other "model not initialized")

/-- `PredictRawScore` (`sklearn/lightgbm/api/booster.go:149-180`) -/
def Session.predictRawScore (ownRaw : M → X → Outcome R) (loaded : L → X → Outcome R) (b : Session M L ι) (x : X) : Outcome R :=
  match b.leaves with
  | some l => loaded l x
  | none =>
    match b.predictor with
    | some m => ownRaw m x
    | none => .err (.other "model not initialized")

/-- `PredictLeaf` (`sklearn/lightgbm/api/booster.go:184-215`) -/
def Session.predictLeaf (ownLeaf : M → X → Outcome R) (b : Session M L ι) (x : X) : Outcome R :=
  match b.leaves with
  | some _ => .err (.other "leaf prediction not supported for loaded models")
  | none =>
    match b.predictor with
    | some m => ownLeaf m x
    | none => .err (.other "model not initialized")

/-- `NumTrees` (`sklearn/lightgbm/api/booster.go:426-431`) -/
def Session.numTrees (K : Kit M L) (b : Session M L ι) : Nat :=
  match b.model with
  | none => 0
  | some m => K.trees m

section

variable {α : Type _} [BEq α] [LE α] [DecidableLE α] [LT α] [DecidableLT α] [Zero α] [Neg α] [Add α] [Sub α] [One α] [Div α]

/-- apply `f` to every row in order; the first panic ends it (`sklearn/lightgbm/leaves_predictor.go:40-55`) -/
def everyRow (f : List α → Outcome (List α)) : List (List α) → Outcome (List (List α))
  | [] => .ok []
  | x :: xs => (f x).bind fun p => (everyRow f xs).bind fun ps => .ok (p :: ps)

/-- `LeavesPredictor.Predict` on a matrix given by its width and rows (`sklearn/lightgbm/leaves_predictor.go:23-57`); a
matrix without rows makes `mat.NewDense` panic -/
def leavesPredict (N : LGB.LNum α) (m : LGB.LModel α) (X : Nat × List (List α)) : Outcome (List (List α)) :=
  if (X.1 : Int) ≠ m.numFeatures then .err (.other "feature dimension mismatch")
  else if X.2 = [] then .panic "mat: zero length in matrix dimension"
  else everyRow (m.predictSingle N) X.2

end

end Scigo.Boost
