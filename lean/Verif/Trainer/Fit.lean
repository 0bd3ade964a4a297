import Verif.Trainer.Sample
import Verif.Boost.Objective
import Verif.LGB.Ensemble

/-!
# The training loop

Model of `Trainer.Fit`, `calculateGradients`, `getCurrentPrediction`, `updatePredictions`, `calculateLoss` and `GetModel`
(`sklearn/lightgbm/trainer.go`).

Not modelled: logging; `initialize` and `buildHistograms`, whose results (`orderedIdx`, `histograms`, `histPool`) nothing reads;
`SampleFeatures` (`activeFeatures` is read only by `findBestSplitWithHistogram`, which nothing calls; the draws are part of the
arbitrary generator); `checkEarlyStopping`, which always returns false (see `Verif.Trainer.Legacy`). The error and panic of a callback end the training. `X` and `y`
have the same number of rows (a shorter `y` makes `updatePredictions` panic, a longer one `calculateGradients`), except that
`multiclass_native` accepts a shorter `y`, which is not modelled.
-/

set_option linter.unusedSectionVars false

namespace Scigo.Trainer

variable {α : Type}

/-- the training set: sklearn/lightgbm/trainer.go:388-418 -/
structure Problem (α : Type) where
  rows : Nat
  cols : Nat
  x : Nat → Nat → α
  y : List α

/-- row `i` as a slice: sklearn/lightgbm/trainer.go:902-905 -/
def Problem.row (P : Problem α) (i : Nat) : List α := (List.range P.cols).map (P.x i)

/-- the parameters `Fit` reads, after the defaults of `NewTrainer`. `wide`: the objective is `multiclass` or `multiclass_native`, for which
the cached scores are not used. sklearn/lightgbm/trainer.go:187-237, 420-447 -/
structure Config (α : Type) where
  iterations : Nat
  learningRate : α
  boosting : String
  topRate : α
  otherRate : α
  baggingFraction : α
  baggingFreq : Int
  lim : Limits α
  hb : Hist.Builder α
  categorical : List Int
  objective : Boost.Objective α
  wide : Bool
  initScore : Option α
  weights : Option (List α)
  classWeight : Option (Int → Option α)
  /-- `MonotoneConstraints`; read by `allowed` only -/
  monotone : List Int

/-- what a callback does: sklearn/lightgbm/trainer.go:458-470, 518-530 -/
inductive CB
  | go
  | stop
  | fail (e : GoErr)

/-- the state of the trainer that survives an iteration: trees, cached scores, reported losses (oldest first): sklearn/lightgbm/trainer.go:508-516 -/
structure St (α : Type) where
  trees : List (LGB.Tree α)
  preds : Option (List α)
  losses : List α

/-- collect `f 0, …, f (n-1)`, the first panic ends the loop: sklearn/lightgbm/trainer.go:1311-1316 -/
def collect (f : Nat → Outcome α) : Nat → Outcome (List α)
  | 0 => .ok []
  | n + 1 => (collect f n).bind fun l => (f n).bind fun v => .ok (l ++ [v])

section
variable [DecidableEq α] [LT α] [DecidableLT α] [LE α] [DecidableLE α] [Zero α] [One α] [Add α] [Sub α] [Neg α] [Mul α] [Div α]

/-- the initial score: sklearn/lightgbm/trainer.go:438-446 -/
def Config.init (C : Config α) (P : Problem α) : α := C.initScore.getD (C.objective.init P.y)

/-- the score recomputed from all trees: sklearn/lightgbm/trainer.go:888-896 -/
def onDemand (toInt : α → Int) (lr : α) (x : List α) : List (LGB.Tree α) → α → Outcome α
  | [], s => .ok s
  | t :: ts, s => (t.predict toInt x).bind fun v => onDemand toInt lr x ts (s + v * lr)

/-- the cached scores, created by the first iteration: sklearn/lightgbm/trainer.go:830-836 -/
def Config.cache (C : Config α) (P : Problem α) (st : St α) : List α := st.preds.getD (List.replicate P.rows (C.init P))

/-- `getCurrentPrediction` of row `i`; with one column the cached score, reading beyond it panics: sklearn/lightgbm/trainer.go:875-897 -/
def Config.current (C : Config α) (toInt : α → Int) (P : Problem α) (trees : List (LGB.Tree α)) (cache : List α) (i : Nat) : Outcome α :=
  if C.wide then onDemand toInt C.learningRate (P.row i) trees (C.init P)
  else match cache[i]? with
    | some v => .ok v
    | none => .panic "mat: row index out of range"

/-- sample weight of row `i`: sklearn/lightgbm/trainer.go:585-590, 858-861 -/
def Config.weight (C : Config α) (i : Nat) : Outcome α :=
  match C.weights with
  | none => .ok 1
  | some w => match w[i]? with
    | some v => .ok v
    | none => .panic "index out of range"

/-- a gradient or hessian with sample and class weight applied: sklearn/lightgbm/trainer.go:853-870 -/
def Config.weighted (C : Config α) (toInt : α → Int) (target w v : α) : α :=
  match C.classWeight with
  | none => v * w
  | some cw => match cw (toInt target) with
    | none => v * w
    | some c => v * w * c

/-- `calculateGradients`: gradients or hessians (`d`) of all rows: sklearn/lightgbm/trainer.go:805-872 -/
def Config.derivs (C : Config α) (toInt : α → Int) (P : Problem α) (d : α → α → α) (scores : List α) : Outcome (List α) :=
  collect (fun i => (C.weight i).bind fun w => .ok (C.weighted toInt (P.y.getD i 0) w (d (scores.getD i 0) (P.y.getD i 0)))) P.rows

/-- the weighted sum of the losses and the sum of the weights: sklearn/lightgbm/trainer.go:1341-1356 -/
def Config.lossSums (C : Config α) (toInt : α → Int) (P : Problem α) (trees : List (LGB.Tree α)) (cache : List α) : Nat → Outcome (α × α)
  | 0 => .ok (0, 0)
  | n + 1 => (C.lossSums toInt P trees cache n).bind fun s => (C.current toInt P trees cache n).bind fun p => (C.weight n).bind fun w =>
      .ok (s.1 + C.objective.loss p (P.y.getD n 0) * w, s.2 + w)

/-- `calculateLoss`: sklearn/lightgbm/trainer.go:1335-1358 -/
def Config.loss (C : Config α) (toInt : α → Int) (P : Problem α) (trees : List (LGB.Tree α)) (cache : List α) : Outcome α :=
  (C.lossSums toInt P trees cache P.rows).bind fun s => .ok (s.1 / s.2)

/-- the rows of the tree and the derivatives it is grown from: sklearn/lightgbm/trainer.go:481-488 -/
def Config.sample (C : Config α) (lib : Lib α) (byGrad : (Nat → α) → List Nat → List Nat) (r : Nat → Nat) (P : Problem α) (iteration : Nat) (g h : Nat → α) :
    List Nat × (Nat → α) × (Nat → α) :=
  if C.boosting = "goss" then
    let o := goss lib.scale (byGrad g) r C.topRate C.otherRate P.rows g h
    (o.selected, o.g, o.h)
  else (sampleInstances lib.scale r C.baggingFraction C.baggingFreq P.rows iteration, g, h)

/-- one iteration without the callbacks: sklearn/lightgbm/trainer.go:472-516. `fuel` bounds the depth of the recursion of `buildNode`; a deeper recursion
is reported as a panic (a Go run overflows the stack or never ends). The restoration of the gradients is unobservable (`goss_restored`): the
next iteration computes them anew. -/
def Config.iterate (C : Config α) (lib : Lib α) (byGrad : (Nat → α) → List Nat → List Nat) (rand : Nat → Nat → Nat) (fuel : Nat) (P : Problem α)
    (iteration : Nat) (st : St α) : Outcome (St α) :=
  if P.y.length ≠ P.rows then .panic "index out of range"
  else
    (collect (C.current lib.toInt P st.trees (C.cache P st)) P.rows).bind fun scores =>
    (C.derivs lib.toInt P C.objective.grad scores).bind fun gs =>
    (C.derivs lib.toInt P C.objective.hess scores).bind fun hs =>
    let smp := C.sample lib byGrad (rand iteration) P iteration (fun i => gs.getD i 0) (fun i => hs.getD i 0)
    match (grower lib C.hb C.lim C.categorical ⟨P.cols, P.x, smp.2.1, smp.2.2⟩).buildTree C.learningRate fuel smp.1 with
    | none => .panic "does not terminate"
    | some t =>
      (collect (fun i => match (C.cache P st)[i]? with
        | none => .panic "mat: row index out of range"
        | some s => (t.predict lib.toInt (P.row i)).bind fun v => .ok (s + v * t.shrinkage)) P.rows).bind fun cache =>
      (C.loss lib.toInt P (st.trees ++ [t]) cache).bind fun loss =>
      .ok ⟨st.trees ++ [t], some cache, st.losses ++ [loss]⟩

/-- the training loop with the callbacks, `n` iterations from `iteration` on: sklearn/lightgbm/trainer.go:453-550 -/
def Config.run (C : Config α) (lib : Lib α) (byGrad : (Nat → α) → List Nat → List Nat) (rand : Nat → Nat → Nat) (fuel : Nat) (P : Problem α)
    (before after : Nat → St α → CB) : Nat → Nat → St α → Outcome (St α)
  | 0, _, st => .ok st
  | n + 1, iteration, st =>
    match before iteration st with
    | .fail e => .err e
    | .stop => .ok st
    | .go =>
      (C.iterate lib byGrad rand fuel P iteration st).bind fun st' =>
        match after iteration st' with
        | .fail e => .err e
        | .stop => .ok st'
        | .go => C.run lib byGrad rand fuel P before after n (iteration + 1) st'

/-- `Fit` on a trainer in state `st`; a new trainer has no trees and no cached scores: sklearn/lightgbm/trainer.go:388-553 -/
def Config.fit (C : Config α) (lib : Lib α) (byGrad : (Nat → α) → List Nat → List Nat) (rand : Nat → Nat → Nat) (fuel : Nat) (P : Problem α)
    (before after : Nat → St α → CB) (st : St α) : Outcome (St α) :=
  C.run lib byGrad rand fuel P before after C.iterations 0 st

/-- a new trainer: sklearn/lightgbm/trainer.go:212-224 -/
def St.new : St α := ⟨[], none, []⟩

/-- `GetModel`; `name` and `numClass` are the parameters `Objective` and `NumClass`, `BestIteration` is never set: sklearn/lightgbm/trainer.go:1383-1401 -/
def Config.getModel (C : Config α) (name : String) (numClass : Int) (P : Problem α) (st : St α) : LGB.Model α :=
  ⟨name, if 0 < numClass then numClass else 1, st.trees.length, C.learningRate, st.trees, P.cols, 0, C.init P, false⟩

end
end Scigo.Trainer
