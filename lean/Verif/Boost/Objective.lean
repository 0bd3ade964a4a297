import Verif.Online.Model
import Verif.Base.Sort
import Verif.Parallel.Model

/-!
# Objective functions

Model of `sklearn/lightgbm/objectives.go`. Carrier `α` stands for `float64`; the `math` functions come from
`Online.Num`, the remaining literals from `Lits`. `math.Max`, `math.Min` are `maxA`, `minA` (their treatment of
NaN and signed zero is not modelled).
-/

set_option linter.unusedSectionVars false

namespace Scigo.Boost

open Scigo.Online

variable {α : Type _}

/-- the literals of the file: `1e-7` (`sklearn/lightgbm/objectives.go:75,151`), `1e-16` (`:356`), `700` (`:285`),
`1e-15` (`:390`) -/
structure Lits (α : Type _) where
  e7 : α
  e16 : α
  e15 : α
  big : α

/-- `ObjectiveFunction` (`sklearn/lightgbm/objectives.go:10-25`); predictions come first -/
structure Objective (α : Type _) where
  grad : α → α → α
  hess : α → α → α
  loss : α → α → α
  init : List α → α

section
variable [Add α] [Sub α] [Mul α] [Div α] [Neg α] [Zero α] [One α] [LT α] [DecidableLT α] [LE α] [DecidableLE α] [BEq α]

/-- `math.Max` on numbers (`sklearn/lightgbm/objectives.go:341`) -/
def maxA (a b : α) : α := if a < b then b else a
/-- `math.Min` on numbers (`sklearn/lightgbm/objectives.go:291`) -/
def minA (a b : α) : α := if b < a then b else a

/-- the clamp to `[-700, 700]` (`sklearn/lightgbm/objectives.go:341`) -/
def clampA (L : Lits α) (x : α) : α := maxA (-L.big) (minA x L.big)

/-- the sum and the mean of a slice (`sklearn/lightgbm/objectives.go:56-60`) -/
def meanOf (N : Num α) (l : List α) : α := l.foldl (· + ·) 0 / N.ofNat l.length

/-- the exchange loop of `calculateMedian`: it stops after position `k` (`sklearn/lightgbm/objectives.go:629-639`).
`exchangeLoop m` performs `m` passes; `min (k+1) (n-1)` passes are made. -/
def medianSort (l : List α) : List α := exchangeLoop (min (l.length / 2 + 1) (l.length - 1)) l

/-- `calculateMedian` (`sklearn/lightgbm/objectives.go:616-645`) -/
def calculateMedian (N : Num α) (l : List α) : α :=
  if l.length = 0 then 0
  else if l.length % 2 = 1 then (medianSort l).getD (l.length / 2) 0
  else ((medianSort l).getD (l.length / 2 - 1) 0 + (medianSort l).getD (l.length / 2) 0) / N.two

/-- `calculateQuantile` (`sklearn/lightgbm/objectives.go:647-678`); `floor`, `ceil` round to an integer -/
def calculateQuantile (N : Num α) (floor ceil : α → Nat) (l : List α) (q : α) : α :=
  if l.length = 0 then 0
  else
    let sorted := exchangeLoop (l.length - 1) l
    let pos := q * N.ofNat (l.length - 1)
    if floor pos = ceil pos then sorted.getD (floor pos) 0
    else sorted.getD (floor pos) 0 * (1 - (pos - N.ofNat (floor pos))) +
      sorted.getD (ceil pos) 0 * (pos - N.ofNat (floor pos))

/-- `L2Objective` (`sklearn/lightgbm/objectives.go:27-66`); `LambdaRankObjective` is the same (`:562-614`) -/
def l2 (N : Num α) : Objective α where
  grad p t := p - t
  hess _ _ := 1
  loss p t := N.half * (p - t) * (p - t)
  init l := if l.length = 0 then 0 else meanOf N l

/-- `L1Objective` (`sklearn/lightgbm/objectives.go:68-111`) -/
def l1 (N : Num α) (L : Lits α) : Objective α where
  grad p t := if N.abs (p - t) < L.e7 then 0 else if 0 < p - t then 1 else -1
  hess _ _ := 1
  loss p t := N.abs (p - t)
  init l := if l.length = 0 then 0 else calculateMedian N l

/-- `NewHuberObjective`: the threshold used (`sklearn/lightgbm/objectives.go:118-125`) -/
def huberDelta (delta : α) : α := if delta ≤ 0 then 1 else delta

/-- `HuberObjective` (`sklearn/lightgbm/objectives.go:113-182`) -/
def huber (N : Num α) (L : Lits α) (delta : α) : Objective α where
  grad p t := if N.abs (p - t) ≤ delta then p - t else if 0 < p - t then delta else -delta
  hess p t := if N.abs (p - t) ≤ delta then 1 else L.e7
  loss p t := if N.abs (p - t) ≤ delta then N.half * (p - t) * (p - t) else delta * (N.abs (p - t) - N.half * delta)
  init l := if l.length = 0 then 0 else meanOf N l

/-- `NewQuantileObjective`: the level used (`sklearn/lightgbm/objectives.go:189-196`) -/
def quantileAlpha (N : Num α) (a : α) : α := if a ≤ 0 ∨ 1 ≤ a then N.half else a

/-- `QuantileObjective` (`sklearn/lightgbm/objectives.go:184-233`) -/
def quantile (N : Num α) (floor ceil : α → Nat) (a : α) : Objective α where
  grad p t := if 0 < p - t then a else if p - t < 0 then a - 1 else 0
  hess _ _ := 1
  loss p t := if 0 < p - t then a * (p - t) else (a - 1) * (p - t)
  init l := if l.length = 0 then 0 else calculateQuantile N floor ceil l a

/-- `FairObjective` (`sklearn/lightgbm/objectives.go:235-276`) -/
def fair (N : Num α) (c : α) : Objective α where
  grad p t := c * (p - t) / (N.abs (p - t) + c)
  hess p t := c * c / ((N.abs (p - t) + c) * (N.abs (p - t) + c))
  loss p t := c * c * (N.abs (p - t) / c - N.log (1 + N.abs (p - t) / c))
  init l := if l.length = 0 then 0 else calculateMedian N l

/-- `PoissonObjective` (`sklearn/lightgbm/objectives.go:278-323`) -/
def poisson (N : Num α) (L : Lits α) : Objective α where
  grad p t := N.exp (minA p L.big) - t
  hess p _ := N.exp (minA p L.big)
  loss p t := N.exp (minA p L.big) - t * p
  init l := if l.length = 0 then 0 else if meanOf N l ≤ 0 then -N.ten else N.log (meanOf N l)

/-- the sigmoid of the clamped score (`sklearn/lightgbm/objectives.go:341-343`) -/
def clampedSigmoid (N : Num α) (L : Lits α) (p : α) : α := 1 / (1 + N.exp (-clampA L p))

/-- `BinaryLogLossObjective` (`sklearn/lightgbm/objectives.go:325-400`) -/
def binary (N : Num α) (L : Lits α) : Objective α where
  grad p t := clampedSigmoid N L p - t
  hess p _ := maxA L.e16 (clampedSigmoid N L p * (1 - clampedSigmoid N L p))
  loss p t := if 0 ≤ clampA L p then t * clampA L p + N.log (1 + N.exp (-clampA L p))
    else -t * clampA L p + N.log (1 + N.exp (clampA L p))
  init l := if l.length = 0 then 0 else
    N.log (maxA L.e15 (minA (1 - L.e15) (meanOf N l)) / (1 - maxA L.e15 (minA (1 - L.e15) (meanOf N l))))

/-- the logarithm of the mean of the positive targets (`sklearn/lightgbm/objectives.go:449-467,537-555`) -/
def logMeanPos (N : Num α) (l : List α) : α :=
  if l.length = 0 then 0
  else if (l.filter fun t => decide (0 < t)).length = 0 then 0
  else N.log (meanOf N (l.filter fun t => decide (0 < t)))

/-- `GammaObjective` (`sklearn/lightgbm/objectives.go:404-472`) -/
def gamma (N : Num α) (L : Lits α) : Objective α where
  grad p t := N.two * (1 - t * N.exp (-clampA L p))
  hess p t := maxA L.e16 (N.two * t * N.exp (-clampA L p))
  loss p t := if t ≤ 0 then 0
    else N.two * (N.log (N.exp (clampA L p) / t) + t / N.exp (clampA L p) - 1)
  init l := logMeanPos N l

/-- `NewTweedieObjective`: the power used (`sklearn/lightgbm/objectives.go:482-491`) -/
def tweediePower (dflt v : α) (N : Num α) : α := if v ≤ 1 ∨ N.two ≤ v then dflt else v

/-- `TweedieObjective` (`sklearn/lightgbm/objectives.go:474-560`); `v` is the variance power -/
def tweedie (N : Num α) (L : Lits α) (v : α) : Objective α where
  grad p t := N.two * (N.exp (clampA L ((N.two - v) * p)) - t * N.exp (clampA L ((1 - v) * p)))
  hess p t := maxA L.e16 (N.abs (N.two * ((N.two - v) * N.exp (clampA L ((N.two - v) * p)) -
    (1 - v) * t * N.exp (clampA L ((1 - v) * p)))))
  loss p t := if t == 0 then N.two * N.pow (N.exp (clampA L p)) (N.two - v) / (N.two - v)
    else N.two * (N.pow t (N.two - v) / ((1 - v) * (N.two - v)) - t * N.pow (N.exp (clampA L p)) (1 - v) / (1 - v) +
      N.pow (N.exp (clampA L p)) (N.two - v) / (N.two - v))
  init l := logMeanPos N l

/-- `MulticlassLogLossAdapter` (`sklearn/lightgbm/objectives.go:902-966`) -/
def multiAdapter (N : Num α) (L : Lits α) : Objective α where
  grad p t := clampedSigmoid N L p - t
  hess p _ := maxA L.e16 (clampedSigmoid N L p * (1 - clampedSigmoid N L p))
  loss p t := N.half * (p - t) * (p - t)
  init l := if l.length = 0 then 0 else meanOf N l

/-- `CreateObjectiveFunction` (`sklearn/lightgbm/objectives.go:681-737`): the objective of a name; `delta`, `c`, `a`, `v`
are the parameters of the training parameters and `dv` is `1.5` -/
def createObjective (N : Num α) (L : Lits α) (floor ceil : α → Nat) (delta c a v dv : α) (name : String) :
    Option (Objective α) :=
  if name ∈ ["regression", "regression_l2", "l2", "mean_squared_error", "mse"] then some (l2 N)
  else if name ∈ ["regression_l1", "l1", "mean_absolute_error", "mae"] then some (l1 N L)
  else if name = "huber" then some (huber N L (huberDelta (if 0 < delta then delta else 1)))
  else if name = "fair" then some (fair N (huberDelta (if 0 < c then c else 1)))
  else if name = "poisson" then some (poisson N L)
  else if name = "quantile" then some (quantile N floor ceil (quantileAlpha N (if 0 < a ∧ a < 1 then a else N.half)))
  else if name = "gamma" then some (gamma N L)
  else if name = "tweedie" then some (tweedie N L (tweediePower dv (if 1 < v ∧ v < N.two then v else dv) N))
  else if name ∈ ["lambdarank", "rank_xendcg"] then some (l2 N)
  else if name ∈ ["binary", "binary_logloss", "logistic"] then some (binary N L)
  else if name ∈ ["multiclass", "softmax", "multiclassova", "multiclass_logloss"] then some (multiAdapter N L)
  else none

/-! ## Multiclass -/

/-- the largest logit (`sklearn/lightgbm/objectives.go:768-774,872-878`) -/
def maxLogit : List α → α
  | [] => 0
  | x :: xs => xs.foldl (fun m l => if m < l then l else m) x

/-- `stableSoftmax` (`sklearn/lightgbm/objectives.go:767-792`); an empty slice panics in Go, callers pass at least
one class -/
def softmax (N : Num α) (logits : List α) : List α :=
  let e := logits.map fun l => N.exp (l - maxLogit logits)
  let s := e.foldl (· + ·) 0
  if 0 < s then e.map (· / s) else e

/-- the gradients and Hessians of one sample (`sklearn/lightgbm/objectives.go:825-851`) -/
def multiRow (N : Num α) (L : Lits α) (trueClass : Nat) (logits : List α) : List (α × α) :=
  (List.range logits.length).map fun k =>
    let p := (softmax N logits).getD k 0
    (if k = trueClass then p - 1 else p, if p * (1 - p) < L.e16 then L.e16 else p * (1 - p))

/-- the batches of 100 samples, one goroutine each (`sklearn/lightgbm/objectives.go:803-818`) -/
def batches (n : Nat) : List (Nat × Nat) :=
  (List.range ((n + 100 - 1) / 100)).map fun b => (b * 100, if n < b * 100 + 100 then n else b * 100 + 100)

/-- the writes of one sample's goroutine to its row of the two result slices, one per class
(`sklearn/lightgbm/objectives.go:830-851`) -/
def multiBody (N : Num α) (L : Lits α) (rows : Nat → List α) (y : Nat → Nat) (i : Nat) : List (List (α × α) → List (α × α)) :=
  (List.range (rows i).length).map fun k row => row.set k ((multiRow N L (y i) (rows i)).getD k (0, 0))

/-- the state in which `CalculateGradientsAndHessians` starts its goroutines (`sklearn/lightgbm/objectives.go:795-807`);
the flattened slices are one row of `numClasses` entries per sample -/
def multiStart (n numClasses : Nat) : Parallel.Config (List (α × α)) :=
  ⟨batches n, [], 0, fun _ => List.replicate numClasses (0, 0), false⟩

/-- the loss of one sample (`sklearn/lightgbm/objectives.go:866-888`) -/
def multiLoss (N : Num α) (logits : List α) (trueClass : Nat) : α :=
  -(logits.getD trueClass 0 - (N.log ((logits.map fun l => N.exp (l - maxLogit logits)).foldl (· + ·) 0) + maxLogit logits))

/-- `CalculateLoss` (`sklearn/lightgbm/objectives.go:861-893`); `rows i` are the logits of sample `i` -/
def multiTotal (N : Num α) (rows : Nat → List α) (y : Nat → Nat) (n : Nat) : α :=
  (List.range n).foldl (fun s i => s + multiLoss N (rows i) (y i)) 0 / N.ofNat n

end

end Scigo.Boost
