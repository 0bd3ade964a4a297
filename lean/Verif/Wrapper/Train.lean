import Verif.Wrapper.Model
import Verif.Trainer.Fit

/-!
# From the options of a wrapper to the training loop

Model of `NewTrainer` and of the calls a wrapper makes (`sklearn/lightgbm/trainer.go:187-238`, `sklearn/lightgbm/lgbm_classifier.go:201-207`),
on top of the training loop of `Verif/Trainer/Fit.lean`. Not modelled: the objective `multiclass` with fewer than two classes, which only a regressor
given that objective can reach.
-/

set_option linter.unusedSectionVars false

namespace Scigo.Wrapper

variable {α : Type}

/-- everything outside the wrapper that training depends on: `math` functions, literals (`0.1`, `0.2`, `1.5`), library functions, the order of rows by
gradient, the random numbers drawn for a seed, and a bound on the recursion of `buildNode`
(`sklearn/lightgbm/trainer.go:187-238`) -/
structure Env (α : Type) where
  num : Online.Num α
  lits : Boost.Lits α
  floor : α → Nat
  ceil : α → Nat
  fifth : α
  threeHalves : α
  lib : Trainer.Lib α
  byGrad : (Nat → α) → List Nat → List Nat
  rand : Int → Bool → Nat → Nat → Nat
  fuel : Nat

section
variable [DecidableEq α] [LT α] [DecidableLT α] [LE α] [DecidableLE α] [Zero α] [One α] [Add α] [Sub α] [Neg α] [Mul α] [Div α]

/-- a zero counts as not given (`sklearn/lightgbm/trainer.go:189-209`) -/
def orDefault {β : Type} [DecidableEq β] [Zero β] (v d : β) : β := if v = 0 then d else v

/-- `NewTrainer` with the objective `obj` already created (`sklearn/lightgbm/trainer.go:187-238`). `String.toLower` stands for `strings.ToLower`. -/
def Request.config (E : Env α) (r : Request α) (obj : Boost.Objective α) : Trainer.Config α where
  iterations := (orDefault r.iterations 100).toNat
  learningRate := orDefault r.learningRate E.num.tenth
  boosting := r.boosting
  topRate := if r.boosting.toLower = "goss" then E.fifth else 0
  otherRate := if r.boosting.toLower = "goss" then E.num.tenth else 0
  baggingFraction := orDefault r.baggingFraction 1
  baggingFreq := r.baggingFreq
  lim := ⟨r.maxDepth, orDefault r.numLeaves 31, orDefault r.minData 20, r.minGain,
    if r.boosting.toLower = "goss" then some (E.fifth, E.num.tenth) else none⟩
  hb := ⟨(orDefault r.maxBin 255).toNat, r.lambda, r.alpha⟩
  categorical := r.categorical
  objective := obj
  wide := decide (r.objective = "multiclass" ∨ r.objective = "multiclass_native")
  initScore := r.initScore
  weights := r.weights
  classWeight := none
  monotone := []

/-- the training set of a pair of matrices (`sklearn/lightgbm/trainer.go:418-419`) -/
def problem (X y : Mat α) : Trainer.Problem α := ⟨X.r, X.c, X.at', (List.range y.r).map (fun i => y.at' i 0)⟩

/-- `NewTrainer`, `SetInitScore`, `SetSampleWeight`, `Fit` and `GetModel` in a row (`sklearn/lightgbm/lgbm_classifier.go:201-207`,
`sklearn/lightgbm/trainer.go:387-553`) -/
def train (E : Env α) (r : Request α) (X y : Mat α) : Outcome (LGB.Model α) :=
  match Boost.createObjective E.num E.lits E.floor E.ceil r.huberDelta r.fairC r.quantileAlpha r.tweediePower E.threeHalves r.objective with
  | none => .err (.other "failed to create objective function")
  | some obj =>
    ((r.config E obj).fit E.lib E.byGrad (E.rand r.seed r.deterministic) E.fuel (problem X y) (fun _ _ => .go) (fun _ _ => .go) Trainer.St.new).bind
      fun st => .ok ((r.config E obj).getModel r.objective r.numClass (problem X y) st)

end
end Scigo.Wrapper
