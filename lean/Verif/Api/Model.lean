import Verif.Base.Outcome
import Verif.Base.Mat
import Verif.Metrics.Model
import Verif.Dataset.Model

/-!
# The Python-style training function

Model of `sklearn/lightgbm/api/train.go` and `sklearn/lightgbm/api/callbacks.go`: the parameter map, the training loop
with arbitrary callbacks, the evaluation on validation sets, the callbacks that come with the package and `QuickTrain`.
Carrier `α` stands for `float64`.
-/

set_option linter.unusedSectionVars false

namespace Scigo.Api

variable {α : Type}

/-! ## Parameters -/

/-- the values of a parameter map with a type some parameter has (`sklearn/lightgbm/api/train.go:197-291`); `other` stands
for every other dynamic type -/
inductive PVal (α : Type)
  | int (v : Int)
  | float (v : α)
  | str (v : String)
  | bool (v : Bool)
  | ints (v : List Int)
  | other (code : Nat)
  deriving DecidableEq

/-- `map[string]interface{}` (`sklearn/lightgbm/api/train.go:24`) -/
abbrev PMap (α : Type) := String → Option (PVal α)

/-- the fields of `lgb.TrainingParams` that `parseParams` writes (`sklearn/lightgbm/api/train.go:199-288`) -/
structure TP (α : Type) where
  numIterations : Int
  learningRate : α
  numLeaves : Int
  maxDepth : Int
  minDataInLeaf : Int
  lambda : α
  alpha : α
  minGainToSplit : α
  baggingFraction : α
  featureFraction : α
  maxBin : Int
  minDataInBin : Int
  objective : String
  seed : Int
  deterministic : Bool
  verbosity : Int
  boostingType : String
  numClass : Int
  topRate : α
  otherRate : α
  categorical : List Int

/-- the type assertion `.(int)` with a fallback (`sklearn/lightgbm/api/train.go:220`) -/
def asInt (v : Option (PVal α)) (d : Int) : Int := match v with | some (.int x) => x | _ => d

/-- the type assertion `.(float64)` with a fallback (`sklearn/lightgbm/api/train.go:223`) -/
def asFloat (v : Option (PVal α)) (d : α) : α := match v with | some (.float x) => x | _ => d

/-- the type assertion `.(string)` with a fallback (`sklearn/lightgbm/api/train.go:256`) -/
def asStr (v : Option (PVal α)) (d : String) : String := match v with | some (.str x) => x | _ => d

/-- the type assertion `.(bool)` with a fallback (`sklearn/lightgbm/api/train.go:265`) -/
def asBool (v : Option (PVal α)) (d : Bool) : Bool := match v with | some (.bool x) => x | _ => d

/-- the type assertion `.([]int)` with a fallback (`sklearn/lightgbm/api/train.go:286`) -/
def asInts (v : Option (PVal α)) (d : List Int) : List Int := match v with | some (.ints x) => x | _ => d

/-- the literals 0.1, 0.0, 1e-7 and 1.0 (`sklearn/lightgbm/api/train.go:201-209`) -/
structure PLit (α : Type) where
  c01 : α
  c0 : α
  c1em7 : α
  c1 : α

/-- `parseParams` (`sklearn/lightgbm/api/train.go:198-291`) -/
def parseParams (L : PLit α) (m : PMap α) : TP α where
  numIterations := asInt (m "num_iterations") 100
  learningRate := asFloat (m "learning_rate") L.c01
  numLeaves := asInt (m "num_leaves") 31
  maxDepth := asInt (m "max_depth") (-1)
  minDataInLeaf := asInt (m "min_data_in_leaf") 20
  lambda := asFloat (m "lambda_l2") L.c0
  alpha := asFloat (m "lambda_l1") L.c0
  minGainToSplit := asFloat (m "min_gain_to_split") L.c1em7
  baggingFraction := asFloat (m "bagging_fraction") L.c1
  featureFraction := asFloat (m "feature_fraction") L.c1
  maxBin := asInt (m "max_bin") 255
  minDataInBin := asInt (m "min_data_in_bin") 3
  objective := asStr (m "objective") "regression"
  seed := asInt (m "seed") (asInt (m "random_state") 0)
  deterministic := asBool (m "deterministic") false
  verbosity := asInt (m "verbosity") 1
  boostingType := asStr (m "boosting_type") ""
  numClass := asInt (m "num_class") 0
  topRate := asFloat (m "top_rate") L.c0
  otherRate := asFloat (m "other_rate") L.c0
  categorical := asInts (m "categorical_feature") []

/-! ## Evaluation -/

section

variable [Add α] [Sub α] [Mul α] [Div α] [Zero α] [One α] [NatCast α] [BEq α] [LT α] [DecidableLT α]

/-- the rounding of `calculateAccuracy` (`sklearn/lightgbm/api/train.go:411-416`); `half` is 0.5 -/
def round01 (half v : α) : α := if half < v then 1 else 0

/-- `calculateAccuracy` (`sklearn/lightgbm/api/train.go:399-424`): reading a row that does not exist panics -/
def calculateAccuracy (half : α) (yTrue yPred : Option (Mat α)) : Outcome α :=
  match yTrue, yPred with
  | some t, some p =>
    if p.r < t.r then .panic "index out of range"
    else .ok ((((List.range t.r).filter (fun i => t.at' i 0 == round01 half (p.at' i 0))).length : α) / (t.r : α))
  | _, _ => .ok 0

/-- `getVecDense` (`sklearn/lightgbm/api/train.go:386-396`) -/
def getVecDense (m : Option (Mat α)) : Option (List α) := m.map (fun m => m.col 0)

/-- an error of a metric leaves the score at zero (`sklearn/lightgbm/api/train.go:340-349`) -/
def orZero : Outcome α → Outcome α
  | .err _ => .ok 0
  | r => r

/-- the metric of `evaluateDataset` (`sklearn/lightgbm/api/train.go:339-362`) -/
def metricFor (abs : α → α) (half : α) (objective : String) (label : Option (Mat α)) (pred : Mat α) : Outcome α :=
  if objective ∈ ["regression", "regression_l2", "l2", "mean_squared_error", "mse"] then
    orZero (Metrics.mse (getVecDense label) (getVecDense (some pred)))
  else if objective ∈ ["regression_l1", "l1", "mean_absolute_error", "mae"] then
    orZero (Metrics.mae abs (getVecDense label) (getVecDense (some pred)))
  else if objective ∈ ["binary", "binary_logloss"] then calculateAccuracy half label (some pred)
  else if objective ∈ ["multiclass", "softmax"] then calculateAccuracy half label (some pred)
  else if objective = "multiclass_logloss" then calculateAccuracy half label (some pred)
  else .ok 0

/-- `evaluateDataset` (`sklearn/lightgbm/api/train.go:329-365`): `model` is `none` before the first iteration, `label` the
labels of the dataset, `predict` the predictions of the booster for its data -/
def evaluateDataset {τ : Type} (abs : α → α) (half : α) (predict : τ → Outcome (Mat α)) (objective : String)
    (model : Option τ) (label : Option (Mat α)) : Outcome α :=
  match model with
  | none => .ok 0
  | some m =>
    match predict m with
    | .err _ => .ok 0
    | .panic s => .panic s
    | .ok p => metricFor abs half objective label p

end

/-- `getMetricName` (`sklearn/lightgbm/api/train.go:368-383`) -/
def getMetricName (objective : String) : String :=
  if objective ∈ ["regression", "regression_l2", "l2"] then "l2"
  else if objective ∈ ["regression_l1", "l1"] then "l1"
  else if objective = "binary" then "binary_logloss"
  else if objective ∈ ["multiclass", "softmax"] then "multi_logloss"
  else if objective = "multiclass_logloss" then "multi_logloss"
  else objective

/-! ## Callbacks and the training loop -/

/-- a map from keys to histories (`sklearn/lightgbm/api/callbacks.go:26`), with the keys in order of their first use; Go
iterates over it in any order -/
abbrev Evals (α : Type) := List (String × List α)

/-- `m[key]` (`sklearn/lightgbm/api/train.go:115`) -/
def Evals.get (m : Evals α) (key : String) : List α := (List.lookup key m).getD []

/-- `m[key] = append(m[key], score)` (`sklearn/lightgbm/api/train.go:115`) -/
def Evals.add (m : Evals α) (key : String) (v : α) : Evals α :=
  if m.any (fun e => e.1 == key) then m.map (fun e => if e.1 == key then (e.1, e.2 ++ [v]) else e)
  else m ++ [(key, [v])]

/-- what a callback may report: `ErrEarlyStop` or another error (`sklearn/lightgbm/api/callbacks.go:9-18`) -/
inductive CbErr
  | earlyStop
  | other (s : String)
  deriving DecidableEq

/-- the part of `Booster` the training loop touches (`sklearn/lightgbm/api/booster.go:14-34`) -/
structure Bst (α τ : Type) where
  model : Option τ
  current : Int
  best : Int
  evals : Evals α

/-- `CallbackEnv` (`sklearn/lightgbm/api/callbacks.go:21-30`). Simplified: the pointer to the booster is not replaced by a
callback. -/
structure Env (α τ : Type) where
  iteration : Nat
  rounds : Nat
  booster : Bst α τ
  params : PMap α
  evals : Evals α
  bestIteration : Int
  bestScore : α
  shouldStop : Bool

/-- what the training function can reach: the environment and the memory `κ` of the callbacks
(`sklearn/lightgbm/api/train.go:60-67`) -/
structure St (α τ κ : Type) where
  env : Env α τ
  own : κ

variable {τ κ S : Type}

/-- a call of one method of a callback: it may change everything it can reach (`sklearn/lightgbm/api/callbacks.go:13-18`) -/
abbrev Call (S : Type) := S → S × Option CbErr

/-- `Callback` (`sklearn/lightgbm/api/callbacks.go:13-18`) -/
structure Cb (S : Type) where
  init : Call S
  before : Call S
  after : Call S
  finish : Call S

/-- `for _, cb := range callbacks { if err := cb.F(env); err != nil { return err } }`
(`sklearn/lightgbm/api/train.go:69-73`, `sklearn/lightgbm/api/callbacks.go:350-387`) -/
def each (f : Cb S → Call S) : List (Cb S) → Call S
  | [], s => (s, none)
  | c :: cs, s =>
    match (f c s).2 with
    | some e => ((f c s).1, some e)
    | none => each f cs (f c s).1

/-- `CallbackList` (`sklearn/lightgbm/api/callbacks.go:331-387`) -/
def callbackList (cbs : List (Cb S)) : Cb S :=
  ⟨each Cb.init cbs, each Cb.before cbs, each Cb.after cbs, each Cb.finish cbs⟩

/-- `booster.SetBestIteration` (`sklearn/lightgbm/api/booster.go:452-454`) -/
def St.setBest (s : St α τ κ) (k : Int) : St α τ κ :=
  { s with env := { s.env with booster := { s.env.booster with best := k } } }

/-- the calls before an iteration (`sklearn/lightgbm/api/train.go:83-92`): `ErrEarlyStop` ends this loop only -/
def runBefore (cbs : List (Cb (St α τ κ))) (s : St α τ κ) : St α τ κ × Option CbErr :=
  match (each Cb.before cbs s).2 with
  | some .earlyStop => ((each Cb.before cbs s).1.setBest (each Cb.before cbs s).1.env.bestIteration, none)
  | e => ((each Cb.before cbs s).1, e)

/-- what training needs from the rest of the package: training itself, the number of iterations of a model, the score on
the validation set `i`, the metric's name and the names of the validation sets
(`sklearn/lightgbm/api/train.go:24,102-118`) -/
structure Task (α τ : Type) where
  fit : Outcome τ
  numIteration : τ → Int
  score : Option τ → Nat → Outcome α
  metric : String
  sets : Nat
  names : List String

/-- `trainOneIteration` (`sklearn/lightgbm/api/train.go:294-326`) -/
def trainOne (T : Task α τ) (s : St α τ κ) : St α τ κ × Outcome Unit :=
  match s.env.booster.model with
  | some _ => (s, .ok ())
  | none =>
    match T.fit with
    | .ok m => ({ s with env := { s.env with booster :=
        { s.env.booster with model := some m, current := T.numIteration m } } }, .ok ())
    | .err e => (s, .err e)
    | .panic p => (s, .panic p)

/-- the key of a history, `dataset-metric` (`sklearn/lightgbm/api/train.go:114`) -/
def evalKey (dataset metric : String) : String := dataset ++ "-" ++ metric

/-- storing a score in the environment and in the booster (`sklearn/lightgbm/api/train.go:114-116`) -/
def St.addScore (s : St α τ κ) (key : String) (v : α) : St α τ κ :=
  { s with env := { s.env with evals := s.env.evals.add key v, booster :=
    { s.env.booster with evals := s.env.booster.evals.add key v } } }

/-- the evaluation on the validation sets `i, i+1, …` (`sklearn/lightgbm/api/train.go:108-118`): a missing name panics -/
def evaluate (T : Task α τ) : List Nat → St α τ κ → St α τ κ × Outcome Unit
  | [], s => (s, .ok ())
  | i :: is, s =>
    match T.score s.env.booster.model i with
    | .ok v =>
      match T.names[i]? with
      | none => (s, .panic "index out of range")
      | some name => evaluate T is (s.addScore (evalKey name T.metric) v)
    | .err e => (s, .err e)
    | .panic p => (s, .panic p)

/-- the error of a callback as the error of `Train` (`sklearn/lightgbm/api/train.go:71,90,124,137`) -/
def CbErr.toGo : CbErr → GoErr
  | .earlyStop => .other "early stopping"
  | .other s => .other s

/-- the rest of an iteration after the calls before it (`sklearn/lightgbm/api/train.go:99-127`) -/
def iterate (T : Task α τ) (cbs : List (Cb (St α τ κ))) (iter : Nat) (s : St α τ κ) : St α τ κ × Outcome Unit :=
  match trainOne T s with
  | (s, .ok ()) =>
    match evaluate T (List.range T.sets) s with
    | (s, .ok ()) =>
      match (each Cb.after cbs s).2 with
      | some e => ((each Cb.after cbs s).1, .err e.toGo)
      | none => ({ (each Cb.after cbs s).1 with env := { (each Cb.after cbs s).1.env with booster :=
          { (each Cb.after cbs s).1.env.booster with current := iter + 1 } } }, .ok ())
    | r => r
  | r => r

/-- `env.Iteration = iter` (`sklearn/lightgbm/api/train.go:81`) -/
def St.atIter (s : St α τ κ) (iter : Nat) : St α τ κ := { s with env := { s.env with iteration := iter } }

/-- the training loop, `n` iterations from `iter` on (`sklearn/lightgbm/api/train.go:80-128`) -/
def loop (T : Task α τ) (cbs : List (Cb (St α τ κ))) : Nat → Nat → St α τ κ → St α τ κ × Outcome Unit
  | 0, _, s => (s, .ok ())
  | n + 1, iter, s =>
    match (runBefore cbs (s.atIter iter)).2 with
    | some e => ((runBefore cbs (s.atIter iter)).1, .err e.toGo)
    | none =>
      if (runBefore cbs (s.atIter iter)).1.env.shouldStop then ((runBefore cbs (s.atIter iter)).1, .ok ())
      else
        match iterate T cbs iter (runBefore cbs (s.atIter iter)).1 with
        | (s, .ok ()) => loop T cbs n (iter + 1) s
        | r => r

/-- the best iteration if none was set (`sklearn/lightgbm/api/train.go:141-143`) -/
def Bst.finish (b : Bst α τ) : Bst α τ := if b.best = 0 then { b with best := b.current } else b

/-- the environment at the start (`sklearn/lightgbm/api/train.go:32,61-67`) -/
def St.start [Zero α] (params : PMap α) (rounds : Nat) (own : κ) : St α τ κ :=
  ⟨⟨0, rounds, ⟨none, 0, 0, []⟩, params, [], 0, 0, false⟩, own⟩

/-- the loop and what follows it (`sklearn/lightgbm/api/train.go:80-145`) -/
def runTrain (T : Task α τ) (cbs : List (Cb (St α τ κ))) (rounds : Nat) (s : St α τ κ) : St α τ κ × Outcome (Bst α τ) :=
  match (each Cb.init cbs s).2 with
  | some e => ((each Cb.init cbs s).1, .err e.toGo)
  | none =>
    match loop T cbs rounds 0 (each Cb.init cbs s).1 with
    | (s, .ok ()) =>
      match (each Cb.finish cbs s).2 with
      | some e => ((each Cb.finish cbs s).1, .err e.toGo)
      | none => ((each Cb.finish cbs s).1, .ok (each Cb.finish cbs s).1.env.booster.finish)
    | (s, .err e) => (s, .err e)
    | (s, .panic p) => (s, .panic p)

/-- the names of the validation sets if none are given (`sklearn/lightgbm/api/train.go:54-58`) -/
def defaultNames (names : List String) (sets : Nat) : List String :=
  if names.isEmpty then (List.range sets).map (fun i => s!"valid_{i}") else names

/-- `Train` with its callbacks listed (`sklearn/lightgbm/api/train.go:24-146`): the trainer is made from the parameters
before the first callback is called. `fit` is the training with given parameters, `score` the evaluation on validation
set `i` for the given objective. Left out: the printed lines and the option `WithInitModel`, which nothing reads. -/
def train [Zero α] (L : PLit α) (fit : TP α → Outcome τ) (numIteration : τ → Int)
    (score : String → Option τ → Nat → Outcome α) (sets : Nat) (names : List String) (cbs : List (Cb (St α τ κ)))
    (params : PMap α) (rounds : Nat) (own : κ) : St α τ κ × Outcome (Bst α τ) :=
  runTrain ⟨fit (parseParams L params), numIteration, score (parseParams L params).objective,
    getMetricName (parseParams L params).objective, sets, defaultNames names sets⟩ cbs rounds
    (St.start params rounds own)

/-! ## The callbacks of the package -/

/-- does nothing (`sklearn/lightgbm/api/callbacks.go:241-248`) -/
def skip : Call S := fun s => (s, none)

/-- the split of a key at its last `-` (`sklearn/lightgbm/api/callbacks.go:255-263`), on the reversed characters read so
far: the metric, then the dataset. Without a `-` both stay empty. -/
def splitRev : List Char → List Char → List Char × List Char
  | [], _ => ([], [])
  | c :: cs, metric => if c = '-' then (cs.reverse, metric) else splitRev cs (c :: metric)

/-- dataset and metric of a key (`sklearn/lightgbm/api/callbacks.go:255-263`) -/
def splitKey (key : String) : String × String :=
  (String.ofList (splitRev key.toList.reverse []).1, String.ofList (splitRev key.toList.reverse []).2)

/-- what `RecordEvaluationCallback` has recorded (`sklearn/lightgbm/api/callbacks.go:228-231`) -/
abbrev Rec (α : Type) := String → String → Option (List α)

/-- recording one history (`sklearn/lightgbm/api/callbacks.go:265-273`) -/
def Rec.put (r : Rec α) (e : String × List α) : Rec α :=
  let k := splitKey e.1
  if k.1 = "" ∨ k.2 = "" then r else fun d m => if d = k.1 ∧ m = k.2 then some e.2 else r d m

/-- `RecordEvaluationCallback` (`sklearn/lightgbm/api/callbacks.go:228-287`) -/
def recordCb : Cb (St α τ (Rec α × κ)) :=
  ⟨skip, skip, fun s => ({ s with own := (s.env.evals.foldl Rec.put s.own.1, s.own.2) }, none), skip⟩

/-- `ResetParameterCallback` (`sklearn/lightgbm/api/callbacks.go:289-329`). Simplified: the caller's map is not nil; Go
panics when it writes to a nil map. -/
def resetCb (start : Int) (new : List (String × PVal α)) : Cb (St α τ κ) :=
  ⟨skip, fun s => if (s.env.iteration : Int) = start then
      ({ s with env := { s.env with params := new.foldl (fun m kv k => if k = kv.1 then some kv.2 else m k) s.env.params } },
        none)
    else (s, none), skip, skip⟩

/-- the state of `PrintEvaluationCallback` and the lines it printed: the label and the values shown
(`sklearn/lightgbm/api/callbacks.go:34-38`) -/
structure Printer (α : Type) where
  period : Int
  lastTime : Int
  lines : List (Int × List (String × α))

/-- the last value of every history that has one (`sklearn/lightgbm/api/callbacks.go:72-77`) -/
def shown (m : Evals α) : List (String × α) := m.filterMap (fun e => e.2.getLast?.map (fun v => (e.1, v)))

/-- `NewPrintEvaluationCallback` (`sklearn/lightgbm/api/callbacks.go:41-47`) -/
def Printer.new (period : Int) : Printer α := ⟨period, -1, []⟩

/-- `Init` (`sklearn/lightgbm/api/callbacks.go:50-55`) -/
def Printer.init (p : Printer α) : Printer α := if p.period ≤ 0 then { p with period := 1 } else p

/-- `AfterIteration` (`sklearn/lightgbm/api/callbacks.go:63-86`); the period is not zero after `Init` -/
def Printer.after (p : Printer α) (iteration : Nat) (m : Evals α) : Printer α :=
  if Int.tmod (iteration : Int) p.period ≠ 0 then p
  else ⟨p.period, iteration, if (shown m).isEmpty then p.lines else p.lines ++ [((iteration : Int) + 1, shown m)]⟩

/-- `Finalize` (`sklearn/lightgbm/api/callbacks.go:89-102`) -/
def Printer.finish (p : Printer α) (iteration : Nat) (m : Evals α) : Printer α :=
  if p.lastTime < (iteration : Int) - 1 ∧ 0 < iteration then { p with lines := p.lines ++ [((iteration : Int), shown m)] }
  else p

/-- `PrintEvaluationCallback` (`sklearn/lightgbm/api/callbacks.go:34-102`) -/
def printCb : Cb (St α τ (Printer α × κ)) :=
  ⟨fun s => ({ s with own := (s.own.1.init, s.own.2) }, none), skip,
    fun s => ({ s with own := (s.own.1.after s.env.iteration s.env.evals, s.own.2) }, none),
    fun s => ({ s with own := (s.own.1.finish s.env.iteration s.env.evals, s.own.2) }, none)⟩

/-! ## QuickTrain -/

/-- writing an entry of the map (`sklearn/lightgbm/api/train.go:443`) -/
def PMap.put (m : PMap α) (key : String) (v : PVal α) : PMap α := fun k => if k = key then some v else m k

/-- the objective found from the labels (`sklearn/lightgbm/api/train.go:440-450`) -/
def quickObjective (isBinary : Bool) (nClasses : Int) (m : PMap α) : PMap α :=
  if (m "objective").isSome then m
  else if isBinary then m.put "objective" (.str "binary")
  else if 2 < nClasses then (m.put "objective" (.str "multiclass")).put "num_class" (.int nClasses)
  else m.put "objective" (.str "regression")

/-- the map after the defaults are filled in (`sklearn/lightgbm/api/train.go:436-453`); a nil map becomes an empty one. It
is the caller's own map if that is not nil. -/
def quickParams (isBinary : Bool) (nClasses : Int) (m : Option (PMap α)) : PMap α :=
  let m := quickObjective isBinary nClasses (m.getD (fun _ => none))
  if (m "num_iterations").isSome then m else m.put "num_iterations" (.int 100)

/-- `QuickTrain` (`sklearn/lightgbm/api/train.go:428-457`): the map and the number of rounds handed to `Train` with the
dataset -/
def quickTrain [BEq α] [Zero α] [One α] (X y : Option (Mat α)) (m : Option (PMap α)) :
    Outcome (Dataset.Dataset α × PMap α × Int) :=
  (Dataset.newDataset X y []).bind fun ds =>
    match quickParams ds.isBinary ds.nClasses m "num_iterations" with
    | some (.int n) => .ok (ds, quickParams ds.isBinary ds.nClasses m, n)
    | _ => .panic "interface conversion: interface {} is not int"

end Scigo.Api
