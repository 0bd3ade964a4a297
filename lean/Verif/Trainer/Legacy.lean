import Verif.Trainer.Fit

/-!
# The early-stopping setting of a training without validation data

Model of the end of the loop of `Trainer.Fit` that `Verif.Trainer.Fit` leaves out: the test of the parameter `EarlyStopping` and
`checkEarlyStopping` with the score it keeps. Logging is not modelled.
-/

set_option linter.unusedSectionVars false

namespace Scigo.Trainer

variable {α : Type} [DecidableEq α] [LT α] [DecidableLT α] [LE α] [DecidableLE α] [Zero α] [One α] [Add α] [Sub α] [Neg α] [Mul α] [Div α]

/-- `checkEarlyStopping`: whether to stop, and the new best score: sklearn/lightgbm/trainer.go:1319-1332 -/
def Config.checkStop (C : Config α) (lib : Lib α) (P : Problem α) (st : St α) (best : α) : Outcome (Bool × α) :=
  (C.loss lib.toInt P st.trees (C.cache P st)).bind fun l =>
    if l < best then .ok (false, l) else .ok (false, best)

/-- the end of an iteration: stop or go on, and the best score; `rounds` is the parameter `EarlyStopping`: sklearn/lightgbm/trainer.go:534-541 -/
def Config.endOfRound (C : Config α) (lib : Lib α) (P : Problem α) (rounds : Int) (st : St α) (best : α) : Outcome (Bool × α) :=
  if 0 < rounds then C.checkStop lib P st best else .ok (false, best)

/-- the training loop with the callbacks and the early-stopping setting; the result also carries the best score, which a new trainer starts at 0:
sklearn/lightgbm/trainer.go:453-550 -/
def Config.runStop (C : Config α) (lib : Lib α) (byGrad : (Nat → α) → List Nat → List Nat) (rand : Nat → Nat → Nat) (fuel : Nat) (P : Problem α)
    (before after : Nat → St α → CB) (rounds : Int) : Nat → Nat → St α → α → Outcome (St α × α)
  | 0, _, st, best => .ok (st, best)
  | n + 1, iteration, st, best =>
    match before iteration st with
    | .fail e => .err e
    | .stop => .ok (st, best)
    | .go =>
      (C.iterate lib byGrad rand fuel P iteration st).bind fun st' =>
        match after iteration st' with
        | .fail e => .err e
        | .stop => .ok (st', best)
        | .go => (C.endOfRound lib P rounds st' best).bind fun d =>
          if d.1 then .ok (st', d.2) else C.runStop lib byGrad rand fuel P before after rounds n (iteration + 1) st' d.2

/-- `Fit` with the early-stopping setting on a trainer in state `st` whose best score is `best`: sklearn/lightgbm/trainer.go:388-553 -/
def Config.fitStop (C : Config α) (lib : Lib α) (byGrad : (Nat → α) → List Nat → List Nat) (rand : Nat → Nat → Nat) (fuel : Nat) (P : Problem α)
    (before after : Nat → St α → CB) (rounds : Int) (st : St α) (best : α) : Outcome (St α × α) :=
  C.runStop lib byGrad rand fuel P before after rounds C.iterations 0 st best

end Scigo.Trainer
