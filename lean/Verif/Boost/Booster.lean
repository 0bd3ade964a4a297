import Verif.Base.Outcome

/-!
# The booster handle

Model of `sklearn/lightgbm/api/booster.go`. A booster refers to its model by address, so that two boosters can
share one; the models live in a store. What a tree predicts and the importance of a feature are parameters.
-/

namespace Scigo.Boost

/-- the part of `lgb.Model` a booster touches (`sklearn/lightgbm/tree.go`, `Model.Trees`, `Model.FeatureNames`) -/
structure MRec (τ : Type _) where
  trees : List τ
  names : List String
  deriving DecidableEq

/-- `Booster` (`sklearn/lightgbm/api/booster.go:14-34`). `predictor` is the address of the model the predictor was made
for. The parameters and the iteration counters are left out. -/
structure Handle (τ ι : Type _) where
  model : Option Nat
  predictor : Option Nat
  leaves : Option (List τ)
  names : List String
  cache : String → Option (List ι)
  evals : String → List ι

section

variable {τ ι X R : Type _}

/-- `NewBooster` (`sklearn/lightgbm/api/booster.go:37-44`) -/
def Handle.new : Handle τ ι := ⟨none, none, none, [], fun _ => none, fun _ => []⟩

/-- `InitFromModel` and `SetModel` (`sklearn/lightgbm/api/booster.go:47-53,505-508`) -/
def Handle.setModel (b : Handle τ ι) (a : Nat) : Handle τ ι := { b with model := some a, predictor := some a }

/-- `LoadModel` and `InitFromLeavesModel` (`sklearn/lightgbm/api/booster.go:56-67,306-322`): the stub model is stored at
the fresh address `a` -/
def load (store : Nat → MRec τ) (a : Nat) (trees : List τ) : (Nat → MRec τ) × Handle τ ι :=
  (fun n => if n = a then ⟨[], []⟩ else store n,
    { (Handle.new : Handle τ ι) with model := some a, leaves := some trees })

/-- the options of a prediction (`sklearn/lightgbm/api/booster.go:221-239`) -/
structure PredictOpts where
  numIteration : Int
  predictType : String

/-- `Predict` (`sklearn/lightgbm/api/booster.go:80-109`); `pred` and `predLeaves` are the two predictors -/
def Handle.predict (pred predLeaves : List τ → X → Outcome R) (store : Nat → MRec τ) (b : Handle τ ι)
    (options : List (PredictOpts → PredictOpts)) (x : X) : Outcome R :=
  match b.predictor, b.leaves with
  | none, none => .err (.other "model not initialized")
  | _, some ts =>
    let _opts := options.foldl (fun o f => f o) ⟨-1, "response"⟩
    predLeaves ts x
  | some a, none =>
    let _opts := options.foldl (fun o f => f o) ⟨-1, "response"⟩
    pred (store a).trees x

/-- `WithNumIteration` (`sklearn/lightgbm/api/booster.go:227-231`) -/
def withNumIteration (n : Int) (o : PredictOpts) : PredictOpts := { o with numIteration := n }

/-- `NumTrees` (`sklearn/lightgbm/api/booster.go:426-431`) -/
def Handle.numTrees (store : Nat → MRec τ) (b : Handle τ ι) : Nat :=
  match b.model with
  | none => 0
  | some a => (store a).trees.length

/-- `SaveModel`: the trees written to the file (`sklearn/lightgbm/api/booster.go:243-267,295-303`) -/
def Handle.save (store : Nat → MRec τ) (b : Handle τ ι) : Outcome (List τ) :=
  match b.model with
  | none => .err (.other "no model to save")
  | some a => .ok (store a).trees

/-- `FeatureImportance` (`sklearn/lightgbm/api/booster.go:458-473`) -/
def Handle.featureImportance (imp : List τ → String → List ι) (store : Nat → MRec τ) (b : Handle τ ι) (t : String) :
    Handle τ ι × Option (List ι) :=
  match b.model with
  | none => (b, none)
  | some a =>
    match b.cache t with
    | some v => (b, some v)
    | none => ({ b with cache := fun k => if k = t then some (imp (store a).trees t) else b.cache k },
        some (imp (store a).trees t))

/-- `SetFeatureNames` (`sklearn/lightgbm/api/booster.go:481-486`) -/
def Handle.setFeatureNames (store : Nat → MRec τ) (b : Handle τ ι) (names : List String) : (Nat → MRec τ) × Handle τ ι :=
  match b.model with
  | none => (store, { b with names := names })
  | some a => (fun n => if n = a then { store a with names := names } else store n, { b with names := names })

/-- `AddEvalResult` (`sklearn/lightgbm/api/booster.go:494-497`); the key is `name-metric` -/
def Handle.addEval (b : Handle τ ι) (key : String) (v : ι) : Handle τ ι :=
  { b with evals := fun k => if k = key then b.evals k ++ [v] else b.evals k }

/-- `Clone` (`sklearn/lightgbm/api/booster.go:511-547`) -/
def Handle.clone (b : Handle τ ι) : Handle τ ι :=
  { model := b.model, predictor := b.predictor, leaves := none, names := b.names, cache := b.cache, evals := b.evals }

end

end Scigo.Boost
