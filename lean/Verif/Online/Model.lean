import Verif.Base.Outcome
import Verif.Base.Mat
import Verif.Base.Loop
import Verif.Base.Sort
import Verif.Errors.Model

/-!
# Online linear models

Model of `sklearn/linear_model/sgd_regressor.go`, `sklearn/linear_model/sgd_classifier.go` and
`sklearn/linear_model/passive_aggressive.go`: the per-sample updates, `PartialFit`, `Fit`, `Predict`,
`PredictProba`, `DecisionFunction`.

Carrier `α` stands for `float64`; `math.Sqrt`, `math.Exp`, … and the literals are collected in `Num`.
No option of the package sets `averageSGD`/`averagePA` (`sklearn/linear_model/sgd_regressor.go:78`, `sklearn/linear_model/sgd_classifier.go:81`,
`sklearn/linear_model/passive_aggressive.go:98,122`), so the averaging branches are unreachable and left out. Warnings and
`verbose` printing are not modelled. The random initial weights and the shuffles are parameters.
-/

set_option linter.unusedSectionVars false

namespace Scigo.Online

open Scigo.Errors

variable {α : Type _}

/-- the `math` functions and literals used (`sklearn/linear_model/sgd_regressor.go:283-404`);
`unstable` is the test of `errors.CheckScalar` (`pkg/errors/numerical.go:9-16`) -/
structure Num (α : Type _) where
  sqrt : α → α
  abs : α → α
  pow : α → α → α
  exp : α → α
  log : α → α
  unstable : α → Bool
  ofNat : Nat → α
  half : α
  tenth : α
  ten : α
  two : α
  four : α

/-- the options of the two SGD estimators (`sklearn/linear_model/sgd_regressor.go:20-40`,
`sklearn/linear_model/sgd_classifier.go:20-40`); `eta0` changes during training and is kept in the
state -/
structure Opts (α : Type _) where
  loss : String
  penalty : String
  schedule : String
  alpha : α
  l1Ratio : α
  epsilon : α
  powerT : α
  tol : α
  fitIntercept : Bool
  shuffle : Bool
  warmStart : Bool
  maxIter : Nat

/-- `nIterNoChange` (`sklearn/linear_model/sgd_regressor.go:79`, no option changes it) -/
def nIterNoChange : Nat := 5

section
variable [Add α] [Sub α] [Mul α] [Div α] [Neg α] [Zero α] [One α] [LT α] [DecidableLT α]
  [LE α] [DecidableLE α] [BEq α]

/-- `sign` (`sklearn/linear_model/sgd_regressor.go:703-710`) -/
def sign (x : α) : α := if 0 < x then 1 else if x < 0 then -1 else 0

/-- `s := b; for i, xi := range x { s += w[i] * xi }` (`sklearn/linear_model/sgd_regressor.go:285-288`,
`sklearn/linear_model/sgd_classifier.go:278-281`, `sklearn/linear_model/passive_aggressive.go:254-257`) -/
def score (w : List α) (b : α) (x : List α) : α :=
  (List.range x.length).foldl (fun s i => s + w.getD i 0 * x.getD i 0) b

/-- the penalty term added to one component of the gradient (`sklearn/linear_model/sgd_regressor.go:344-352`,
`sklearn/linear_model/sgd_classifier.go:365-373`) -/
def addPenalty (o : Opts α) (w g : α) : α :=
  if o.penalty = "l2" then g + o.alpha * w
  else if o.penalty = "l1" then g + o.alpha * sign w
  else if o.penalty = "elasticnet" then
    g + o.alpha * (o.l1Ratio * sign w + (1 - o.l1Ratio) * w)
  else g

/-- the gradient vector of one sample (`sklearn/linear_model/sgd_regressor.go:339-355`) -/
def gradVec (o : Opts α) (w x : List α) (d : α) : List α :=
  (List.range x.length).map (fun i => addPenalty o (w.getD i 0) (d * x.getD i 0))

/-- `isIncreasing` (`sklearn/linear_model/sgd_regressor.go:712-719`) -/
def isIncreasing : List α → Bool
  | a :: b :: l => if b < a then false else isIncreasing (b :: l)
  | _ => true

/-- the last `k` elements, `l[len(l)-k:]` (`sklearn/linear_model/sgd_regressor.go:394,411`) -/
def lastN {β : Type _} (k : Nat) (l : List β) : List β := l.drop (l.length - k)

/-- `getLearningRate` (`sklearn/linear_model/sgd_regressor.go:383-403`, `sklearn/linear_model/sgd_classifier.go:823-842`) -/
def learningRate (N : Num α) (o : Opts α) (eta0 : α) (t : Nat) (hist : List α) : α :=
  if o.schedule = "constant" then eta0
  else if o.schedule = "optimal" then 1 / (o.alpha * (N.ofNat t + 1))
  else if o.schedule = "invscaling" then eta0 / N.pow (N.ofNat t + 1) o.powerT
  else if o.schedule = "adaptive" then
    if 5 < hist.length ∧ isIncreasing (lastN 5 hist) then eta0 * N.half else eta0
  else eta0

/-- `checkConvergence` (`sklearn/linear_model/sgd_regressor.go:406-425`, `sklearn/linear_model/sgd_classifier.go:845-864`) -/
def checkConvergence (tol : α) (hist : List α) : Bool :=
  if hist.length < nIterNoChange + 1 then false
  else
    let recent := lastN nIterNoChange hist
    let h0 := recent.headD 0
    let maxL := recent.foldl (fun m v => if m < v then v else m) h0
    let minL := recent.foldl (fun m v => if v < m then v else m) h0
    decide (maxL - minL < tol)

/-- `rng.Shuffle(n, swap)` on the indices (`sklearn/linear_model/sgd_regressor.go:199-207`, `sklearn/linear_model/sgd_classifier.go:182-190`):
for `i = n-1 … 1`, swap positions `i` and some `j ≤ i` drawn from the generator -/
def shuffleFrom (pick : Nat → Nat) : Nat → List Nat → List Nat
  | 0, l => l
  | 1, l => l
  | n + 2, l =>
    let i := n + 1
    let j := pick i % (i + 1)
    shuffleFrom pick (n + 1) ((l.set i (l.getD j 0)).set j (l.getD i 0))

/-- the order in which one epoch visits the rows (`sklearn/linear_model/sgd_regressor.go:198-208`) -/
def epochOrder (o : Opts α) (pick : Nat → Nat) (rows : Nat) : List Nat :=
  if o.shuffle then shuffleFrom pick rows (List.range rows) else List.range rows

/-- `y.At(i, 0)`, which panics outside the matrix (sklearn/linear_model/sgd_regressor.go:198-208) -/
def labelAt (y : Mat α) (i : Nat) : Option α :=
  if i < y.r ∧ 0 < y.c then some (y.at' i 0) else none

/-! ## SGDRegressor -/

/-- the state of `SGDRegressor` (`sklearn/linear_model/sgd_regressor.go:19-57`) -/
structure Reg (α : Type _) where
  opts : Opts α
  eta0 : α
  coef : Option (List α)
  intercept : α
  nFeatures : Nat
  nIter : Nat
  t : Nat
  hist : List α
  converged : Bool
  fitted : Bool

/-- loss and its derivative with respect to the prediction (`sklearn/linear_model/sgd_regressor.go:299-333`) -/
def regLoss (N : Num α) (loss : String) (eps pred y : α) : α × α :=
  if loss = "squared_error" then
    let diff := pred - y
    (N.half * diff * diff, diff)
  else if loss = "huber" then
    let diff := pred - y
    if N.abs diff ≤ eps then (N.half * diff * diff, diff)
    else (eps * (N.abs diff - N.half * eps), eps * sign diff)
  else if loss = "epsilon_insensitive" then
    let diff := N.abs (pred - y)
    if diff ≤ eps then (0, 0) else (diff - eps, sign (pred - y))
  else
    let diff := pred - y
    (N.half * diff * diff, diff)

/-- one weight: subtract, and roll back if the result is unstable (`sklearn/linear_model/sgd_regressor.go:361-369`) -/
def moveWeight (N : Num α) (lr w g : α) : α :=
  let w' := w - lr * g
  if N.unstable w' then w' + lr * g else w'

/-- `updateWeights` (`sklearn/linear_model/sgd_regressor.go:283-380`); `none` is the index panic when the row is wider than
the weights (before anything is changed). Returns the new state and the loss. -/
def Reg.updateWeights (N : Num α) (m : Reg α) (x : List α) (y : α) : Option (Reg α × α) :=
  let w := m.coef.getD []
  if w.length < x.length then none
  else
    let pred := score w m.intercept x
    if N.unstable pred then some ({ m with eta0 := m.eta0 * N.tenth }, 0)
    else
      let ld := regLoss N m.opts.loss m.opts.epsilon pred y
      let lr := learningRate N m.opts m.eta0 m.t m.hist
      let g := clipGradient N.sqrt (gradVec m.opts w x ld.2) N.ten
      some ({ m with
              t := m.t + 1
              coef := some ((List.range w.length).map (fun i =>
                if i < x.length then moveWeight N lr (w.getD i 0) (g.getD i 0) else w.getD i 0))
              intercept := if m.opts.fitIntercept then m.intercept - lr * ld.2 else m.intercept },
            ld.1)

/-- `GetLearningRate` (`sklearn/linear_model/sgd_regressor.go:602-606`) -/
def Reg.getLearningRate (N : Num α) (m : Reg α) : α := learningRate N m.opts m.eta0 m.t m.hist

/-- the loop over rows in a given order, accumulating the loss; the flag says a panic ended it
(`sklearn/linear_model/sgd_regressor.go:211-217`, `264-270`) -/
def Reg.trainRows (N : Num α) (X y : Mat α) : List Nat → Reg α → α → Reg α × α × Bool
  | [], m, acc => (m, acc, false)
  | i :: is, m, acc =>
    match labelAt y i with
    | none => (m, acc, true)
    | some yi =>
      match m.updateWeights N (X.row i) yi with
      | none => (m, acc, true)
      | some (m', l) => Reg.trainRows N X y is m' (acc + l)

/-- `reset` (`sklearn/linear_model/sgd_regressor.go:690-700`); `nFeatures_` and `eta0` are not touched -/
def Reg.reset (m : Reg α) : Reg α :=
  { m with coef := none, intercept := 0, nIter := 0, t := 0, hist := [], converged := false,
           fitted := false }

/-- lazily create the weights (`sklearn/linear_model/sgd_regressor.go:184-192`, `249-258`); `init cols` is the list of
`cols` random numbers -/
def Reg.ensureCoef (init : Nat → List α) (cols : Nat) (m : Reg α) : Reg α :=
  match m.coef with
  | some _ => m
  | none => { m with coef := some (init cols) }

/-- the first-call initialisation of `PartialFit` (`sklearn/linear_model/sgd_regressor.go:249-258`) -/
def Reg.begin (init : Nat → List α) (cols : Nat) (m : Reg α) : Reg α :=
  match m.coef with
  | some _ => m
  | none => { m with nFeatures := cols, coef := some (init cols) }

/-- `PartialFit` (`sklearn/linear_model/sgd_regressor.go:242-280`) -/
def Reg.partialFit (N : Num α) (init : Nat → List α) (m : Reg α) (X y : Mat α) :
    Reg α × Outcome Unit :=
  let m := m.begin init X.c
  if X.c ≠ m.nFeatures then (m, .err (.dimension m.nFeatures X.c 1))
  else
    match m.trainRows N X y (List.range X.r) 0 with
    | (m', _, true) => (m', .panic "index out of range")
    | (m', l, false) =>
      ({ m' with hist := m'.hist ++ [l / N.ofNat X.r], nIter := m'.nIter + 1, fitted := true }, .ok ())

/-- the epochs of `Fit` (`sklearn/linear_model/sgd_regressor.go:195-229`): `n` is the number of iterations left, `k` the
index of the current one, `pick k` the random numbers of its shuffle -/
def Reg.fitLoop (N : Num α) (pick : Nat → Nat → Nat) (X y : Mat α) :
    Nat → Nat → Reg α → Reg α × Bool
  | 0, _, m => (m, false)
  | n + 1, k, m =>
    match m.trainRows N X y (epochOrder m.opts (pick k) X.r) 0 with
    | (m', _, true) => (m', true)
    | (m', l, false) =>
      let m2 := { m' with hist := m'.hist ++ [l / N.ofNat X.r], nIter := m'.nIter + 1 }
      if checkConvergence m2.opts.tol m2.hist then ({ m2 with converged := true }, false)
      else Reg.fitLoop N pick X y n (k + 1) m2

/-- the part of `Fit` before the loop (`sklearn/linear_model/sgd_regressor.go:177-192`) -/
def Reg.fitBegin (init : Nat → List α) (m : Reg α) (cols : Nat) : Reg α :=
  let m1 := if m.opts.warmStart ∧ m.coef.isSome then m else m.reset
  ({ m1 with nFeatures := cols }).ensureCoef init cols

/-- `Fit` (`sklearn/linear_model/sgd_regressor.go:173-239`) -/
def Reg.fit (N : Num α) (init : Nat → List α) (pick : Nat → Nat → Nat) (m : Reg α) (X y : Mat α) :
    Reg α × Outcome Unit :=
  match Reg.fitLoop N pick X y m.opts.maxIter 0 (m.fitBegin init X.c) with
  | (m', true) => (m', .panic "index out of range")
  | (m', false) => ({ m' with fitted := true }, .ok ())

/-- `pred := b; for j { pred += X.At(i,j) * w[j] }` (`sklearn/linear_model/sgd_regressor.go:450-455`,
`sklearn/linear_model/sgd_classifier.go:427-430`, `sklearn/linear_model/passive_aggressive.go:337-342`) -/
def predRow (w : List α) (b : α) (X : Mat α) (i : Nat) : α :=
  (List.range X.c).foldl (fun s j => s + X.at' i j * w.getD j 0) b

/-- the common part of every `Predict` (`sklearn/linear_model/sgd_regressor.go:428-440`): checks, then one value per row.
`mat.NewDense(0, 1, nil)` panics. -/
def checked {β : Type _} (fitted : Bool) (nFeatures : Nat) (X : Mat α) (k : Outcome β) : Outcome β :=
  if !fitted then .err .notFitted
  else if X.c ≠ nFeatures then .err (.dimension nFeatures X.c 1)
  else if X.r = 0 then .panic "mat: zero length in matrix dimension"
  else k

/-- `Predict` (`sklearn/linear_model/sgd_regressor.go:428-459`) -/
def Reg.predict (m : Reg α) (X : Mat α) : Outcome (Mat α) :=
  checked m.fitted m.nFeatures X
    (if (m.coef.getD []).length < X.c then .panic "index out of range"
     else .ok ⟨X.r, 1, fun i _ => predRow (m.coef.getD []) m.intercept X i⟩)

/-! ## PassiveAggressiveRegressor -/

/-- the state of `PassiveAggressiveRegressor` (`sklearn/linear_model/passive_aggressive.go:16-46`) -/
structure PA (α : Type _) where
  C : α
  loss : String
  epsilon : α
  fitIntercept : Bool
  warmStart : Bool
  maxIter : Nat
  coef : Option (List α)
  intercept : α
  nFeatures : Nat
  nIter : Nat
  t : Nat
  fitted : Bool

/-- `dotProduct(x, x)` (`sklearn/linear_model/passive_aggressive.go:751-760`), left to right -/
def dotSelf (x : List α) : α := sumOver x (fun v => v * v)

/-- the step length `tau` of the regressor (`sklearn/linear_model/passive_aggressive.go:260-291`) -/
def paTau (N : Num α) (loss : String) (C eps : α) (x : List α) (pred y : α) : α :=
  if loss = "squared_epsilon_insensitive" then
    let diff := N.abs (y - pred)
    if eps < diff then
      let tau := (diff - eps) / (dotSelf x + 1 / (N.two * C))
      if y < pred then -tau else tau
    else 0
  else
    let d := N.abs (y - pred) - eps
    let l := if 0 < d then d else 0
    if 0 < l then
      let tau := l / (dotSelf x + 1 / (N.two * C))
      if y < pred then -tau else tau
    else 0

/-- weights plus `tau * x` (`sklearn/linear_model/passive_aggressive.go:294-302`) -/
def addScaled (w x : List α) (tau : α) : List α :=
  (List.range w.length).map (fun i =>
    if i < x.length then w.getD i 0 + tau * x.getD i 0 else w.getD i 0)

/-- `updateWeights` (`sklearn/linear_model/passive_aggressive.go:253-312`); `none` is the index panic -/
def PA.updateWeights (N : Num α) (m : PA α) (x : List α) (y : α) : Option (PA α) :=
  let w := m.coef.getD []
  if w.length < x.length then none
  else
    let pred := score w m.intercept x
    let tau := paTau N m.loss m.C m.epsilon x pred y
    if tau == 0 then some { m with t := m.t + 1 }
    else some { m with
                coef := some (addScaled w x tau)
                intercept := if m.fitIntercept then m.intercept + tau else m.intercept
                t := m.t + 1 }

/-- the loop over rows (`sklearn/linear_model/passive_aggressive.go:203-208`, `241-246`) -/
def PA.trainRows (N : Num α) (X y : Mat α) : List Nat → PA α → PA α × Bool
  | [], m => (m, false)
  | i :: is, m =>
    match labelAt y i with
    | none => (m, true)
    | some yi =>
      match m.updateWeights N (X.row i) yi with
      | none => (m, true)
      | some m' => PA.trainRows N X y is m'

/-- first-call initialisation (`sklearn/linear_model/passive_aggressive.go:229-233`) -/
def PA.begin (cols : Nat) (m : PA α) : PA α :=
  match m.coef with
  | some _ => m
  | none => { m with nFeatures := cols, coef := some (List.replicate cols 0) }

/-- `PartialFit` (`sklearn/linear_model/passive_aggressive.go:224-250`) -/
def PA.partialFit (N : Num α) (m : PA α) (X y : Mat α) : PA α × Outcome Unit :=
  let m := m.begin X.c
  if X.c ≠ m.nFeatures then (m, .err (.dimension m.nFeatures X.c 1))
  else
    match PA.trainRows N X y (List.range X.r) m with
    | (m', true) => (m', .panic "index out of range")
    | (m', false) => ({ m' with fitted := true }, .ok ())

/-- `Predict` (`sklearn/linear_model/passive_aggressive.go:315-346`) -/
def PA.predict (m : PA α) (X : Mat α) : Outcome (Mat α) :=
  checked m.fitted m.nFeatures X
    (if (m.coef.getD []).length < X.c then .panic "index out of range"
     else .ok ⟨X.r, 1, fun i _ => predRow (m.coef.getD []) m.intercept X i⟩)

/-! ## The classifiers -/

/-- `extractClasses` (`sklearn/linear_model/sgd_classifier.go:767-792`, `sklearn/linear_model/passive_aggressive.go:631-656`): the distinct
labels, sorted by the hand-written exchange sort; `iter` stands for ranging over the map -/
def extractClasses (toInt : α → Int) (iter : List Int → List Int) (y : Mat α) : List Int :=
  exchangeSort (iter ((List.range y.r).map (fun i => toInt (y.at' i 0))))

/-- loss and derivative for one class with target `±1` (`sklearn/linear_model/sgd_classifier.go:289-352`) -/
def clfLoss (N : Num α) (loss : String) (target s : α) : α × α :=
  let hinge := if target * s < 1 then (1 - target * s, -target) else (0, 0)
  if loss = "hinge" then hinge
  else if loss = "squared_hinge" then
    if target * s < 1 then
      let diff := 1 - target * s
      (N.half * diff * diff, -target * diff)
    else (0, 0)
  else if loss = "log_loss" then
    let z := target * s
    if 0 < z then
      let e := N.exp (-z)
      (N.log (1 + e), -target * e / (1 + e))
    else
      let e := N.exp z
      (-z + N.log (1 + e), -target * e / (1 + e))
  else if loss = "modified_huber" then
    let margin := target * s
    if margin < -1 then (-N.four * margin, -N.four * target)
    else if margin < 1 then
      let diff := 1 - margin
      (diff * diff, -N.two * target * diff)
    else (0, 0)
  else if loss = "perceptron" then
    if target * s ≤ 0 then (-target * s, -target) else (0, 0)
  else hinge

/-- the state of `SGDClassifier` (`sklearn/linear_model/sgd_classifier.go:19-60`); `nClasses_` is the length of
`classes_` throughout -/
structure Clf (α : Type _) where
  opts : Opts α
  eta0 : α
  coef : Option (List (List α))
  intercept : List α
  classes : List Int
  nFeatures : Nat
  nIter : Nat
  t : Nat
  hist : List α
  converged : Bool
  fitted : Bool

/-- the target of class number `c` when the sample has class number `k`
(`sklearn/linear_model/sgd_classifier.go:284-287`, `sklearn/linear_model/passive_aggressive.go:445-448`) -/
def target (c k : Nat) : α := if c = k then 1 else -1

/-- the update of the weights of one class (`sklearn/linear_model/sgd_classifier.go:356-393`): no clipping here -/
def clfStep (o : Opts α) (lr d : α) (w x : List α) : List α :=
  (List.range w.length).map (fun i =>
    if i < x.length then w.getD i 0 - lr * addPenalty o (w.getD i 0) (d * x.getD i 0)
    else w.getD i 0)

/-- `updateWeights` (`sklearn/linear_model/sgd_classifier.go:269-396`); a label outside `classes_` changes nothing and
counts as loss zero; `none` is the index panic of a row wider than the weights -/
def Clf.updateWeights (N : Num α) (m : Clf α) (x : List α) (label : Int) : Option (Clf α × α) :=
  match m.classes.idxOf? label with
  | none => some (m, 0)
  | some k =>
    let W := m.coef.getD []
    if W.any (fun w => decide (w.length < x.length)) then none
    else
      let n := m.classes.length
      let lr := learningRate N m.opts m.eta0 m.t m.hist
      let ld : Nat → α × α := fun c =>
        clfLoss N m.opts.loss (target c k) (score (W.getD c []) (m.intercept.getD c 0) x)
      some ({ m with
              t := m.t + 1
              coef := some ((List.range n).map (fun c => clfStep m.opts lr (ld c).2 (W.getD c []) x))
              intercept := (List.range n).map (fun c =>
                if m.opts.fitIntercept then m.intercept.getD c 0 - lr * (ld c).2
                else m.intercept.getD c 0) },
            sumTo n (fun c => (ld c).1) / N.ofNat n)

/-- the scores of one row, one per class (`sklearn/linear_model/sgd_classifier.go:510-524`) -/
def Clf.scores (m : Clf α) (X : Mat α) (i : Nat) : List α :=
  (List.range m.classes.length).map (fun c =>
    predRow ((m.coef.getD []).getD c []) (m.intercept.getD c 0) X i)

/-- the scan for the greatest score, starting from the first class and `-Inf`
(`sklearn/linear_model/sgd_classifier.go:420-438`, `sklearn/linear_model/passive_aggressive.go:528-546`) -/
def argmaxClass (ninf : α) (classes : List Int) (scores : List α) : Int :=
  ((List.zip scores classes).foldl (fun best p => if best.1 < p.1 then p else best)
    (ninf, classes.headD 0)).2

/-- `Predict` (`sklearn/linear_model/sgd_classifier.go:402-442`); the label is stored as `float64(class)` -/
def Clf.predict (ofInt : Int → α) (ninf : α) (m : Clf α) (X : Mat α) : Outcome (Mat α) :=
  checked m.fitted m.nFeatures X
    (if m.classes = [] then .panic "index out of range"
     else if (m.coef.getD []).any (fun w => decide (w.length < X.c)) then .panic "index out of range"
     else .ok ⟨X.r, 1, fun i _ => ofInt (argmaxClass ninf m.classes (m.scores X i))⟩)

/-- softmax without shifting by the maximum (`sklearn/linear_model/sgd_classifier.go:478-488`) -/
def softmaxPlain (exp : α → α) (l : List α) : List α :=
  let e := l.map exp
  let s := sumOver e id
  e.map (· / s)

/-- `PredictProba` (`sklearn/linear_model/sgd_classifier.go:445-491`) -/
def Clf.predictProba (exp : α → α) (m : Clf α) (X : Mat α) : Outcome (Mat α) :=
  checked m.fitted m.nFeatures X
    (if m.classes = [] then .panic "mat: zero length in matrix dimension"
     else if (m.coef.getD []).any (fun w => decide (w.length < X.c)) then .panic "index out of range"
     else .ok ⟨X.r, m.classes.length, fun i c => (softmaxPlain exp (m.scores X i)).getD c 0⟩)

/-- `DecisionFunction` (`sklearn/linear_model/sgd_classifier.go:495-527`) -/
def Clf.decisionFunction (m : Clf α) (X : Mat α) : Outcome (Mat α) :=
  checked m.fitted m.nFeatures X
    (if m.classes = [] then .panic "mat: zero length in matrix dimension"
     else if (m.coef.getD []).any (fun w => decide (w.length < X.c)) then .panic "index out of range"
     else .ok ⟨X.r, m.classes.length, fun i c => (m.scores X i).getD c 0⟩)

/-- first-call initialisation of `PartialFit` (`sklearn/linear_model/sgd_classifier.go:231-246`, `initializeWeights`
`795-810`); `init k cols` are the random weights, `classes = none` is Go `nil` -/
def Clf.begin (toInt : α → Int) (iter : List Int → List Int) (init : Nat → Nat → List (List α))
    (X y : Mat α) (classes : Option (List Int)) (m : Clf α) : Clf α :=
  match m.coef with
  | some _ => m
  | none =>
    let cs := match classes with
      | some cs => cs
      | none => extractClasses toInt iter y
    { m with nFeatures := X.c, classes := cs, coef := some (init cs.length X.c),
             intercept := List.replicate cs.length 0 }

/-- the loop over rows (`sklearn/linear_model/sgd_classifier.go:252-258`) -/
def Clf.trainRows (N : Num α) (toInt : α → Int) (X y : Mat α) :
    List Nat → Clf α → α → Clf α × α × Bool
  | [], m, acc => (m, acc, false)
  | i :: is, m, acc =>
    match labelAt y i with
    | none => (m, acc, true)
    | some yi =>
      match m.updateWeights N (X.row i) (toInt yi) with
      | none => (m, acc, true)
      | some (m', l) => Clf.trainRows N toInt X y is m' (acc + l)

/-- `PartialFit` (`sklearn/linear_model/sgd_classifier.go:225-266`); unlike the regressor it does not count iterations -/
def Clf.partialFit (N : Num α) (toInt : α → Int) (iter : List Int → List Int)
    (init : Nat → Nat → List (List α)) (m : Clf α) (X y : Mat α) (classes : Option (List Int)) :
    Clf α × Outcome Unit :=
  let m := m.begin toInt iter init X y classes
  if X.c ≠ m.nFeatures then (m, .err (.dimension m.nFeatures X.c 1))
  else
    match Clf.trainRows N toInt X y (List.range X.r) m 0 with
    | (m', _, true) => (m', .panic "index out of range")
    | (m', l, false) =>
      ({ m' with hist := m'.hist ++ [l / N.ofNat X.r], fitted := true }, .ok ())

/-! ### PassiveAggressiveClassifier -/

/-- the state of `PassiveAggressiveClassifier` (`sklearn/linear_model/passive_aggressive.go:50-81`); `converged_` is written and never read -/
structure PAClf (α : Type _) where
  C : α
  loss : String
  fitIntercept : Bool
  warmStart : Bool
  maxIter : Nat
  coef : Option (List (List α))
  intercept : List α
  classes : List Int
  nFeatures : Nat
  nIter : Nat
  t : Nat
  fitted : Bool

/-- the step length for one class (`sklearn/linear_model/passive_aggressive.go:452-479`; the three loss branches are the
same computation) -/
def paClfTau (N : Num α) (C tgt s : α) (x : List α) : α :=
  if tgt * s < 1 then (1 - tgt * s) / (dotSelf x + 1 / (N.two * C)) * tgt else 0

/-- `updateWeights` (`sklearn/linear_model/passive_aggressive.go:433-504`) -/
def PAClf.updateWeights (N : Num α) (m : PAClf α) (x : List α) (label : Int) : Option (PAClf α) :=
  match m.classes.idxOf? label with
  | none => some m
  | some k =>
    let W := m.coef.getD []
    if W.any (fun w => decide (w.length < x.length)) then none
    else
      let n := m.classes.length
      let tau : Nat → α := fun c =>
        paClfTau N m.C (target c k) (score (W.getD c []) (m.intercept.getD c 0) x) x
      some { m with
             t := m.t + 1
             coef := some ((List.range n).map (fun c =>
               if tau c == 0 then W.getD c [] else addScaled (W.getD c []) x (tau c)))
             intercept := (List.range n).map (fun c =>
               if tau c == 0 then m.intercept.getD c 0
               else if m.fitIntercept then m.intercept.getD c 0 + tau c
               else m.intercept.getD c 0) }

/-- first-call initialisation of `PartialFit` (`sklearn/linear_model/passive_aggressive.go:402-414`, `initializeWeights`
`659-669`) -/
def PAClf.begin (toInt : α → Int) (iter : List Int → List Int) (X y : Mat α) (classes : Option (List Int)) (m : PAClf α) : PAClf α :=
  match m.coef with
  | some _ => m
  | none =>
    let cs := match classes with
      | some cs => cs
      | none => extractClasses toInt iter y
    { m with nFeatures := X.c, classes := cs, coef := some (List.replicate cs.length (List.replicate X.c 0)),
             intercept := List.replicate cs.length 0 }

/-- the loop over rows (`sklearn/linear_model/passive_aggressive.go:374-379`, `421-426`) -/
def PAClf.trainRows (N : Num α) (toInt : α → Int) (X y : Mat α) : List Nat → PAClf α → PAClf α × Bool
  | [], m => (m, false)
  | i :: is, m =>
    match labelAt y i with
    | none => (m, true)
    | some yi =>
      match m.updateWeights N (X.row i) (toInt yi) with
      | none => (m, true)
      | some m' => PAClf.trainRows N toInt X y is m'

/-- `PartialFit` (`sklearn/linear_model/passive_aggressive.go:395-430`) -/
def PAClf.partialFit (N : Num α) (toInt : α → Int) (iter : List Int → List Int) (m : PAClf α) (X y : Mat α) (classes : Option (List Int)) :
    PAClf α × Outcome Unit :=
  let m := m.begin toInt iter X y classes
  if X.c ≠ m.nFeatures then (m, .err (.dimension m.nFeatures X.c 1))
  else
    match PAClf.trainRows N toInt X y (List.range X.r) m with
    | (m', true) => (m', .panic "index out of range")
    | (m', false) => ({ m' with fitted := true }, .ok ())

/-- the scores of one row, one per class (`sklearn/linear_model/passive_aggressive.go:533-537`) -/
def PAClf.scores (m : PAClf α) (X : Mat α) (i : Nat) : List α :=
  (List.range m.classes.length).map (fun c => predRow ((m.coef.getD []).getD c []) (m.intercept.getD c 0) X i)

/-- `Predict` (`sklearn/linear_model/passive_aggressive.go:507-549`) -/
def PAClf.predict (ofInt : Int → α) (ninf : α) (m : PAClf α) (X : Mat α) : Outcome (Mat α) :=
  checked m.fitted m.nFeatures X
    (if m.classes = [] then .panic "index out of range"
     else if (m.coef.getD []).any (fun w => decide (w.length < X.c)) then .panic "index out of range"
     else .ok ⟨X.r, 1, fun i _ => ofInt (argmaxClass ninf m.classes (m.scores X i))⟩)

/-! ## `Fit` of the other three models -/

/-- `reset` (`sklearn/linear_model/passive_aggressive.go:682-690`) -/
def PA.reset (m : PA α) : PA α := { m with coef := none, intercept := 0, nIter := 0, t := 0, fitted := false }

/-- the epochs of `Fit` (`sklearn/linear_model/passive_aggressive.go:202-210`): rows in order, the option `shuffle` is not used -/
def PA.epochs (N : Num α) (X y : Mat α) : Nat → PA α → PA α × Bool
  | 0, m => (m, false)
  | n + 1, m =>
    match PA.trainRows N X y (List.range X.r) m with
    | (m', true) => (m', true)
    | (m', false) => PA.epochs N X y n { m' with nIter := m'.nIter + 1 }

/-- the part of `Fit` before the loop (`sklearn/linear_model/passive_aggressive.go:189-199`) -/
def PA.fitBegin (m : PA α) (cols : Nat) : PA α :=
  { PA.begin cols (if m.warmStart ∧ m.coef.isSome then m else m.reset) with nFeatures := cols }

/-- `Fit` (`sklearn/linear_model/passive_aggressive.go:185-221`) -/
def PA.fit (N : Num α) (m : PA α) (X y : Mat α) : PA α × Outcome Unit :=
  match PA.epochs N X y m.maxIter (m.fitBegin X.c) with
  | (m', true) => (m', .panic "index out of range")
  | (m', false) => ({ m' with fitted := true }, .ok ())

/-- `reset` (`sklearn/linear_model/passive_aggressive.go:692-702`) -/
def PAClf.reset (m : PAClf α) : PAClf α := { m with coef := none, intercept := [], classes := [], nIter := 0, t := 0, fitted := false }

/-- the epochs of `Fit` (`sklearn/linear_model/passive_aggressive.go:373-381`) -/
def PAClf.epochs (N : Num α) (toInt : α → Int) (X y : Mat α) : Nat → PAClf α → PAClf α × Bool
  | 0, m => (m, false)
  | n + 1, m =>
    match PAClf.trainRows N toInt X y (List.range X.r) m with
    | (m', true) => (m', true)
    | (m', false) => PAClf.epochs N toInt X y n { m' with nIter := m'.nIter + 1 }

/-- the part of `Fit` before the loop (`sklearn/linear_model/passive_aggressive.go:355-370`): `classes_` is nil exactly if `coef_` is -/
def PAClf.fitBegin (toInt : α → Int) (iter : List Int → List Int) (m : PAClf α) (X y : Mat α) : PAClf α :=
  { PAClf.begin toInt iter X y none (if m.warmStart ∧ m.coef.isSome then m else m.reset) with nFeatures := X.c }

/-- `Fit` (`sklearn/linear_model/passive_aggressive.go:351-392`) -/
def PAClf.fit (N : Num α) (toInt : α → Int) (iter : List Int → List Int) (m : PAClf α) (X y : Mat α) : PAClf α × Outcome Unit :=
  match PAClf.epochs N toInt X y m.maxIter (m.fitBegin toInt iter X y) with
  | (m', true) => (m', .panic "index out of range")
  | (m', false) => ({ m' with fitted := true }, .ok ())

/-- `reset` (`sklearn/linear_model/sgd_classifier.go:867-879`) -/
def Clf.reset (m : Clf α) : Clf α :=
  { m with coef := none, intercept := [], classes := [], nIter := 0, t := 0, hist := [], converged := false, fitted := false }

/-- the part of `Fit` before the loop (`sklearn/linear_model/sgd_classifier.go:160-175`): `classes_` is nil exactly if `coef_` is -/
def Clf.fitBegin (toInt : α → Int) (iter : List Int → List Int) (init : Nat → Nat → List (List α)) (m : Clf α) (X y : Mat α) : Clf α :=
  { Clf.begin toInt iter init X y none (if m.opts.warmStart ∧ m.coef.isSome then m else m.reset) with nFeatures := X.c }

/-- the epochs of `Fit` (`sklearn/linear_model/sgd_classifier.go:178-212`) -/
def Clf.fitLoop (N : Num α) (toInt : α → Int) (pick : Nat → Nat → Nat) (X y : Mat α) : Nat → Nat → Clf α → Clf α × Bool
  | 0, _, m => (m, false)
  | n + 1, k, m =>
    match Clf.trainRows N toInt X y (epochOrder m.opts (pick k) X.r) m 0 with
    | (m', _, true) => (m', true)
    | (m', l, false) =>
      let m2 := { m' with hist := m'.hist ++ [l / N.ofNat X.r], nIter := m'.nIter + 1 }
      if checkConvergence m2.opts.tol m2.hist then ({ m2 with converged := true }, false)
      else Clf.fitLoop N toInt pick X y n (k + 1) m2

/-- `Fit` (`sklearn/linear_model/sgd_classifier.go:156-222`) -/
def Clf.fit (N : Num α) (toInt : α → Int) (iter : List Int → List Int) (init : Nat → Nat → List (List α)) (pick : Nat → Nat → Nat)
    (m : Clf α) (X y : Mat α) : Clf α × Outcome Unit :=
  match Clf.fitLoop N toInt pick X y m.opts.maxIter 0 (m.fitBegin toInt iter init X y) with
  | (m', true) => (m', .panic "index out of range")
  | (m', false) => ({ m' with fitted := true }, .ok ())

end

end Scigo.Online
