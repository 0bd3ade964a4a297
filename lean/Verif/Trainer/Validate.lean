import Verif.Trainer.Fit
import Verif.Boost.EarlyStop

/-!
# Training with validation data

Model of `FitWithValidation` and `evaluateValidation` (`sklearn/lightgbm/early_stopping.go:89-241`) on top of the trainer of
`Verif.Trainer.Fit`. `Verif.Boost.EarlyStop` has the loop with arbitrary trees and scores; here they are those of the
trainer. Not modelled: NaN scores, which no carrier used here has.
-/

set_option linter.unusedSectionVars false

namespace Scigo.Trainer

variable {α : Type}

/-- `ValidationData` (`sklearn/lightgbm/early_stopping.go:89-94`) -/
structure Valid (α : Type) where
  x : Mat α
  y : Mat α
  weight : Option (List α)

section
variable [DecidableEq α] [LT α] [DecidableLT α] [LE α] [DecidableLE α] [Zero α] [One α] [Add α] [Sub α] [Neg α] [Mul α] [Div α]

/-- the factor of row `i`: its weight, if there is one (`sklearn/lightgbm/early_stopping.go:235`) -/
def Valid.scaled (v : Valid α) (i : Nat) (loss : α) : α :=
  match v.weight with
  | none => loss
  | some w => match w[i]? with
    | some c => loss * c
    | none => loss

/-- the accumulated loss after `n` rows of predictions `p` (`sklearn/lightgbm/early_stopping.go:226-238`) -/
def Valid.losses (obj : Boost.Objective α) (v : Valid α) (p : Mat α) : Nat → α
  | 0 => 0
  | n + 1 => v.scaled n (v.losses obj p n + obj.loss (p.at' n 0) (v.y.at' n 0))

/-- `evaluateValidation` (`sklearn/lightgbm/early_stopping.go:213-241`); `inf` is `math.Inf(1)`. Targets with more rows than the
features make `pred.At` panic. -/
def evaluateValidation (N : LGB.ENum α) (toInt : α → Int) (inf : α) (obj : Boost.Objective α) (m : LGB.Model α) :
    Option (Valid α) → Outcome α
  | none => .ok 0
  | some v =>
    match m.predict N toInt v.x with
    | .err _ => .ok inf
    | .panic s => .panic s
    | .ok p => if v.x.r < v.y.r then .panic "mat: row index out of range" else .ok (v.losses obj p v.y.r / N.ofNat v.y.r)

/-- the settings `FitWithValidation` works with: the initial score is always the objective's
(`sklearn/lightgbm/early_stopping.go:141-147`) -/
def Config.own (C : Config α) : Config α := { C with initScore := none }

/-- one iteration: all rows are used (`sklearn/lightgbm/early_stopping.go:165-186`) -/
def Config.iterateAll (C : Config α) (lib : Lib α) (fuel : Nat) (P : Problem α) (st : St α) : Outcome (St α) :=
  if P.y.length ≠ P.rows then .panic "index out of range"
  else
    (collect (C.own.current lib.toInt P st.trees (C.own.cache P st)) P.rows).bind fun scores =>
    (C.derivs lib.toInt P C.objective.grad scores).bind fun gs =>
    (C.derivs lib.toInt P C.objective.hess scores).bind fun hs =>
    match (grower lib C.hb C.lim C.categorical ⟨P.cols, P.x, fun i => gs.getD i 0, fun i => hs.getD i 0⟩).buildTree C.learningRate fuel
        (List.range P.rows) with
    | none => .panic "does not terminate"
    | some t =>
      (collect (fun i => match (C.own.cache P st)[i]? with
        | none => .panic "mat: row index out of range"
        | some s => (t.predict lib.toInt (P.row i)).bind fun v => .ok (s + v * t.shrinkage)) P.rows).bind fun cache =>
      .ok ⟨st.trees ++ [t], some cache, st.losses⟩

/-- the trees kept when training stops (`sklearn/lightgbm/early_stopping.go:195-198`) -/
def kept (best : Int) (trees : List (LGB.Tree α)) : List (LGB.Tree α) :=
  if best < trees.length then trees.take (best + 1).toNat else trees

/-- the main loop, `n` iterations from `iteration` on; `score` evaluates the trees so far
(`sklearn/lightgbm/early_stopping.go:165-207`) -/
def Config.validRun (C : Config α) (lib : Lib α) (fuel : Nat) (P : Problem α) (score : St α → Outcome α) :
    Nat → Nat → Option (Boost.ES α) → St α → Outcome (St α)
  | 0, _, _, st => .ok st
  | n + 1, iteration, none, st =>
    (C.iterateAll lib fuel P st).bind fun st' => C.validRun lib fuel P score n (iteration + 1) none st'
  | n + 1, iteration, some e, st =>
    (C.iterateAll lib fuel P st).bind fun st' =>
      if e.enabled then
        (score st').bind fun s =>
          if (e.update iteration (some s)).2 then
            .ok { st' with trees := kept (e.update iteration (some s)).1.bestIter st'.trees }
          else C.validRun lib fuel P score n (iteration + 1) (some (e.update iteration (some s)).1) st'
      else C.validRun lib fuel P score n (iteration + 1) (some e) st'

/-- `FitWithValidation` on a new trainer; `name`, `numClass`, `rounds` and `metric` are the parameters `Objective`, `NumClass`,
`EarlyStopping` and `Metric` (`sklearn/lightgbm/early_stopping.go:97-210`) -/
def Config.fitWithValidation (C : Config α) (lib : Lib α) (N : LGB.ENum α) (inf ninf : α) (fuel : Nat) (P : Problem α) (name : String)
    (numClass rounds : Int) (metric : String) (v : Option (Valid α)) : Outcome (St α) :=
  C.validRun lib fuel P (fun st => evaluateValidation N lib.toInt inf C.objective (C.own.getModel name numClass P st) v) C.iterations 0
    (if 0 < rounds ∧ v.isSome = true then some (Boost.ES.new inf ninf 0 rounds (if metric = "" then "l2" else metric)) else none) St.new

end
end Scigo.Trainer
