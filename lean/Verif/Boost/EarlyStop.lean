import Verif.Base.Outcome

/-!
# Early stopping

Model of `sklearn/lightgbm/early_stopping.go`, of the early stopping callback of
`sklearn/lightgbm/callbacks.go` with the training loop that calls it (`sklearn/lightgbm/trainer.go:454-550`),
and of `Train` in `sklearn/lightgbm/api/train.go`. A score is `none` when it is NaN. Building a tree and
computing a score are parameters.
-/

namespace Scigo.Boost

/-- floating-point `<`: false when an operand is NaN (sklearn/lightgbm/early_stopping.go:11-19) -/
def below {β : Type _} [LT β] [DecidableRel (α := β) (· < ·)] : Option β → Option β → Bool
  | some x, some y => decide (x < y)
  | _, _ => false

/-- `EarlyStopping` (`sklearn/lightgbm/early_stopping.go:11-19`) -/
structure ES (β : Type _) where
  rounds : Int
  best : Option β
  bestIter : Int
  noImprove : Int
  minimize : Bool
  enabled : Bool

section

variable {β : Type _} [LT β] [DecidableRel (α := β) (· < ·)]

/-- the direction of a metric (`sklearn/lightgbm/early_stopping.go:27-31`) -/
def minimizes (metric : String) : Bool := !(["auc", "accuracy", "precision", "recall", "f1", "r2"].contains metric)

/-- `NewEarlyStopping` (`sklearn/lightgbm/early_stopping.go:22-46`); `inf` and `ninf` are the infinities, `zero`
the zero score of a disabled handler -/
def ES.new (inf ninf zero : β) (rounds : Int) (metric : String) : ES β :=
  if rounds ≤ 0 then ⟨0, some zero, 0, 0, false, false⟩
  else ⟨rounds, some (if minimizes metric then inf else ninf), 0, 0, minimizes metric, true⟩

/-- `score` is better than `best` (`sklearn/lightgbm/early_stopping.go:54-59`) -/
def improves (minimize : Bool) (score best : Option β) : Bool :=
  if minimize then below score best else below best score

/-- `Update` (`sklearn/lightgbm/early_stopping.go:49-71`): the new state and whether to stop -/
def ES.update (e : ES β) (iteration : Int) (score : Option β) : ES β × Bool :=
  if e.enabled then
    if improves e.minimize score e.best then
      ({ e with best := score, bestIter := iteration, noImprove := 0 }, decide (e.rounds ≤ 0))
    else ({ e with noImprove := e.noImprove + 1 }, decide (e.rounds ≤ e.noImprove + 1))
  else (e, false)

/-- `ShouldStop` (`sklearn/lightgbm/early_stopping.go:74-79`) -/
def ES.shouldStop (e : ES β) : Bool := if e.enabled then decide (e.rounds ≤ e.noImprove) else false

/-- `GetBestIteration` (`sklearn/lightgbm/early_stopping.go:82-87`) -/
def ES.getBestIteration (e : ES β) : Int := if e.enabled then e.bestIter else -1

/-- feeding scores for the iterations 0, 1, … (`sklearn/lightgbm/early_stopping.go:165,189-191`) -/
def ES.feed (e : ES β) (scores : Nat → Option β) (n : Nat) : ES β :=
  (List.range n).foldl (fun (e : ES β) (i : Nat) => (e.update (i : Int) (scores i)).1) e

variable {τ : Type _}

/-- the loop of `FitWithValidation` from iteration `iter` with the trees so far
(`sklearn/lightgbm/early_stopping.go:165-207`): `build` makes the next tree, `val` is the validation score of
the model. `es` is `none` without early stopping. `checkEarlyStopping` always answers no. -/
def fitLoop (build : List τ → τ) (val : List τ → Option β) : Nat → Nat → Option (ES β) → List τ → List τ
  | 0, _, _, trees => trees
  | n + 1, iter, none, trees => fitLoop build val n (iter + 1) none (trees ++ [build trees])
  | n + 1, iter, some e, trees =>
    if e.enabled then
      if (e.update iter (val (trees ++ [build trees]))).2 then
        if (e.update iter (val (trees ++ [build trees]))).1.bestIter < (trees ++ [build trees]).length then
          (trees ++ [build trees]).take ((e.update iter (val (trees ++ [build trees]))).1.bestIter + 1).toNat
        else trees ++ [build trees]
      else fitLoop build val n (iter + 1) (some (e.update iter (val (trees ++ [build trees]))).1) (trees ++ [build trees])
    else fitLoop build val n (iter + 1) (some e) (trees ++ [build trees])

/-- `FitWithValidation` after the preparations (`sklearn/lightgbm/early_stopping.go:154-209`) -/
def fitWithValidation (inf ninf zero : β) (build : List τ → τ) (val : List τ → Option β) (numIterations : Nat)
    (earlyStopping : Int) (metric : String) (hasVal : Bool) : List τ :=
  fitLoop build val numIterations 0
    (if 0 < earlyStopping ∧ hasVal = true then
      some (ES.new inf ninf zero earlyStopping (if metric = "" then "l2" else metric))
    else none) []

/-! ## Callbacks of the trainer -/

/-- the variables captured by `EarlyStoppingCallback` and the stop flag of its environment
(`sklearn/lightgbm/callbacks.go:52-58,18`) -/
structure CB (β : Type _) where
  best : Option β
  bestIter : Int
  noImprove : Int
  stop : Bool

/-- `EarlyStoppingCallback(rounds, metric, minimize)` (`sklearn/lightgbm/callbacks.go:52-58`) -/
def CB.new (inf ninf : β) (minimize : Bool) : CB β := ⟨some (if minimize then inf else ninf), 0, 0, false⟩

/-- one call of the callback with the value of the metric, if it was evaluated
(`sklearn/lightgbm/callbacks.go:60-84`) -/
def CB.call (rounds : Int) (minimize : Bool) (c : CB β) (iteration : Int) (value : Option (Option β)) : CB β :=
  match value with
  | none => c
  | some v =>
    if improves minimize v c.best then ⟨v, iteration, 0, c.stop || decide (rounds ≤ 0)⟩
    else { c with noImprove := c.noImprove + 1, stop := c.stop || decide (rounds ≤ c.noImprove + 1) }

/-- the training loop with this callback (`sklearn/lightgbm/trainer.go:454-533`,
`sklearn/lightgbm/callbacks.go:138-172`): it is called before and after every iteration, before an iteration
with the evaluation of the previous one. The number of trees built; `loss i` is the loss after tree `i`. -/
def cbLoop (rounds : Int) (minimize : Bool) (loss : Nat → Option β) : Nat → Nat → CB β → Option (Option β) → Nat
  | 0, iter, _, _ => iter
  | n + 1, iter, c, eval =>
    if (c.call rounds minimize iter eval).stop then iter
    else if ((c.call rounds minimize iter eval).call rounds minimize iter (some (loss iter))).stop then iter + 1
    else cbLoop rounds minimize loss n (iter + 1)
      ((c.call rounds minimize iter eval).call rounds minimize iter (some (loss iter))) (some (loss iter))

/-- `FitWithCallbacks` with an early stopping callback: the number of trees
(`sklearn/lightgbm/callbacks.go:224-234`) -/
def fitWithCallback (inf ninf : β) (rounds : Int) (minimize : Bool) (loss : Nat → Option β) (numIterations : Nat) : Nat :=
  cbLoop rounds minimize loss numIterations 0 (CB.new inf ninf minimize) none

/-- the history kept by `RecordEvaluation` during a run of `n` iterations: called before and after every
iteration, before the first one without results (`sklearn/lightgbm/callbacks.go:39-49,138-167`) -/
def recordLoop (loss : Nat → Option β) (n : Nat) : List (Option β) :=
  (List.range n).foldl (fun h i => (if i = 0 then h else h ++ [loss (i - 1)]) ++ [loss i]) []

/-! ## The Python-style training function -/

/-- `EarlyStoppingCallback` of the api package (`sklearn/lightgbm/api/callbacks.go:105-131`) -/
structure ApiES (β : Type _) where
  best : Option β
  bestIter : Int
  wait : Int
  higher : Bool

/-- `Init` (`sklearn/lightgbm/api/callbacks.go:134-155`): by the objective in the parameters, if it is a string -/
def ApiES.init (inf ninf : β) (objective : Option String) : ApiES β :=
  if objective = some "binary" ∨ objective = some "multiclass" then ⟨some ninf, 0, 0, true⟩
  else ⟨some inf, 0, 0, false⟩

/-- `AfterIteration` with the score it picked (`sklearn/lightgbm/api/callbacks.go:163-226`); `none` is the
error `ErrEarlyStop`. `minDelta` is zero. -/
def ApiES.after (rounds : Int) (c : ApiES β) (iter : Int) (score : Option β) : Option (ApiES β) :=
  if improves (!c.higher) score c.best then some { c with best := score, bestIter := iter, wait := 0 }
  else if rounds ≤ c.wait + 1 then none
  else some { c with wait := c.wait + 1 }

/-- the booster returned by `Train`: the trees of its model if it has one, the current and the best iteration
(`sklearn/lightgbm/api/booster.go:14-34`) -/
structure Booster (τ : Type _) where
  model : Option (List τ)
  current : Int
  best : Int

/-- the loop of `Train` (`sklearn/lightgbm/api/train.go:80-128`). `fit` is the training of all trees at once,
`scores` the validation scores of a model, one per validation set; `pick i` is the key found first in the map of
results at iteration `i`. -/
def trainLoop (rounds : Int) (fit : Outcome (List τ)) (scores : List (List τ → Option β)) (pick : Nat → Nat) :
    Nat → Nat → Option (ApiES β) → Booster τ → Outcome (Booster τ)
  | 0, _, _, b => .ok b
  | n + 1, iter, c, b =>
    -- `trainOneIteration` (`sklearn/lightgbm/api/train.go:294-326`)
    (match b.model with
      | none => fit
      | some ts => .ok ts).bind fun ts =>
        match c, scores[pick iter]? with
        | some c, some sc =>
          match c.after rounds iter (sc ts) with
          | none => .err (.other "early stopping")
          | some c' => trainLoop rounds fit scores pick n (iter + 1) (some c') ⟨some ts, iter + 1, b.best⟩
        | c, _ => trainLoop rounds fit scores pick n (iter + 1) c ⟨some ts, iter + 1, b.best⟩

/-- the last assignment of `Train` (`sklearn/lightgbm/api/train.go:141-143`) -/
def Booster.finish (b : Booster τ) : Booster τ := if b.best = 0 then { b with best := b.current } else b

/-- `Train` (`sklearn/lightgbm/api/train.go:24-146`). Simplified: no user callbacks, one distinct name for every
validation set. -/
def train (inf ninf : β) (objective : Option String) (fit : Outcome (List τ)) (scores : List (List τ → Option β))
    (pick : Nat → Nat) (numBoostRound : Nat) (earlyStoppingRound : Int) : Outcome (Booster τ) :=
  (trainLoop earlyStoppingRound fit scores pick numBoostRound 0
    (if 0 < earlyStoppingRound then some (ApiES.init inf ninf objective) else none) ⟨none, 0, 0⟩).map Booster.finish

end

end Scigo.Boost
