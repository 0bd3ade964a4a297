import Verif.Online.Model

/-!
# LogisticRegression

Model of `sklearn/linear_model/logistic.go`. Carrier `α` stands for `float64`, the `math` functions and
literals come from `Online.Num`. gonum's `optimize.Minimize` with L-BFGS (`sklearn/linear_model/logistic.go:517,672`) is a
parameter: it receives the objective, its gradient and the starting point. The random initial weights
(`cryptoNormalFloat64`, `sklearn/linear_model/logistic.go:939-956`) are a parameter. `randomState`, `verbose`,
`interceptScaling`, `classWeight` and `l1Ratio` are stored by the code but used nowhere in training;
they appear only in the parameter map.
-/

set_option linter.unusedSectionVars false

namespace Scigo.Logistic

open Scigo.Online

variable {α : Type _}

/-- the state of `LogisticRegression` (`sklearn/linear_model/logistic.go:26-54`); `nClasses_` is the length of `classes_`
throughout -/
structure LR (α : Type _) where
  penalty : String
  C : α
  fitIntercept : Bool
  solver : String
  maxIter : Nat
  multiClass : String
  warmStart : Bool
  tol : α
  coef : Option (List (List α))
  intercept : List α
  classes : List Int
  nFeatures : Nat
  nIter : List Nat
  fitted : Bool

section
variable [Zero α] [One α] [Add α] [Sub α] [Neg α] [Mul α] [Div α] [LT α] [LE α] [DecidableLT α]
  [DecidableLE α] [BEq α]

/-- `sigmoid` (`sklearn/linear_model/logistic.go:959-961`) -/
def sigmoid (N : Num α) (z : α) : α := 1 / (1 + N.exp (-z))

/-- `stableSigmoid` (`sklearn/linear_model/logistic.go:98-105`) -/
def stableSigmoid (N : Num α) (z : α) : α :=
  if 0 ≤ z then 1 / (1 + N.exp (-z)) else N.exp z / (1 + N.exp z)

/-- `clampProbability` (`sklearn/linear_model/logistic.go:108-116`); `eps` is `1e-15` -/
def clampProbability (eps p : α) : α :=
  if p < eps then eps else if 1 - eps < p then 1 - eps else p

/-- `z := b; for j { z += X.At(i,j) * w[j] }` (`sklearn/linear_model/logistic.go:328-331`, `777-780`) -/
def zAt (nF : Nat) (w : Nat → α) (b : α) (X : Mat α) (i : Nat) : α :=
  (List.range nF).foldl (fun s j => s + X.at' i j * w j) b

/-- the same with the factors the other way round (`sklearn/linear_model/logistic.go:443-446`) -/
def zAt' (nF : Nat) (w : Nat → α) (b : α) (X : Mat α) (i : Nat) : α :=
  (List.range nF).foldl (fun s j => s + w j * X.at' i j) b

/-! ## The objective handed to L-BFGS -/

/-- the intercept part of the parameter vector (`sklearn/linear_model/logistic.go:436-439`) -/
def thetaB (hasB : Bool) (nF : Nat) (theta : List α) : α := if hasB then theta.getD nF 0 else 0

/-- `prob.Func` (`sklearn/linear_model/logistic.go:433-463`, `602-629`) -/
def objFunc (N : Num α) (eps lambda : α) (hasB : Bool) (X : Mat α) (yb : Nat → α) (theta : List α) : α :=
  let w := fun j => theta.getD j 0
  let b := thetaB hasB X.c theta
  let loss := (List.range X.r).foldl (fun s i =>
    let p := clampProbability eps (stableSigmoid N (zAt' X.c w b X i))
    s + (-yb i * N.log p - (1 - yb i) * N.log (1 - p))) 0
  let loss := loss / N.ofNat X.r
  if 0 < lambda then loss + N.half * lambda * sumTo X.c (fun j => w j * w j) else loss

/-- `prob.Grad` (`sklearn/linear_model/logistic.go:464-507`, `630-665`) -/
def objGrad (N : Num α) (lambda : α) (hasB : Bool) (X : Mat α) (yb : Nat → α) (theta : List α) : List α :=
  let w := fun j => theta.getD j 0
  let b := thetaB hasB X.c theta
  let diff := fun i => stableSigmoid N (zAt' X.c w b X i) - yb i
  let invN := 1 / N.ofNat X.r
  let gw := (List.range X.c).map (fun j =>
    let g := sumTo X.r (fun i => diff i * X.at' i j) * invN
    if 0 < lambda then g + lambda * w j else g)
  if hasB then gw ++ [sumTo X.r diff * invN] else gw

/-! ## Gradient descent -/

/-- one round of the loop of `fitBinary` (`sklearn/linear_model/logistic.go:324-384`; `fitBinaryForClass`, `694-754`, is the
same): new weights, new intercept, largest gradient component -/
def gdStep (N : Num α) (l2 : Bool) (C : α) (fitIntercept : Bool) (X : Mat α) (yb : Nat → α)
    (iter : Nat) (w : List α) (b : α) : List α × α × α :=
  let err := fun i => sigmoid N (zAt X.c (fun j => w.getD j 0) b X i) - yb i
  let n := N.ofNat X.r
  let gw := (List.range X.c).map (fun j =>
    let g := sumTo X.r (fun i => err i * X.at' i j) / n
    if l2 then g + 1 / C * w.getD j 0 else g)
  let gb := sumTo X.r err / n
  let rate := 1 / (1 + N.tenth * N.ofNat iter)
  let w' := (List.range w.length).map (fun j => w.getD j 0 - rate * gw.getD j 0)
  let b' := if fitIntercept then b - rate * gb else b
  (w', b', gw.foldl (fun m g => if m < N.abs g then N.abs g else m) (N.abs gb))

/-- the loop (`sklearn/linear_model/logistic.go:324-384`), `fuel` rounds left; returns weights, intercept and `nIter_` -/
def gdLoop (N : Num α) (l2 : Bool) (C : α) (fitIntercept : Bool) (tol : α) (X : Mat α) (yb : Nat → α) :
    Nat → Nat → List α → α → Nat → List α × α × Nat
  | 0, _, w, b, k => (w, b, k)
  | fuel + 1, iter, w, b, _ =>
    match gdStep N l2 C fitIntercept X yb iter w b with
    | (w', b', g) =>
      if g < tol then (w', b', iter + 1)
      else gdLoop N l2 C fitIntercept tol X yb fuel (iter + 1) w' b' (iter + 1)

/-! ## Fit -/

/-- Go's `copy(dst, src)` (sklearn/linear_model/logistic.go:304-387) -/
def copyInto {β : Type _} (dst src : List β) : List β := src.take dst.length ++ dst.drop src.length

/-- `extractClasses`, then `initializeWeights` unless warm starting (`sklearn/linear_model/logistic.go:224-232`, `251-301`) -/
def LR.begin (toInt : α → Int) (iter : List Int → List Int) (init : Nat → Nat → List (List α))
    (m : LR α) (X y : Mat α) : LR α :=
  let cs := extractClasses toInt iter y
  let k := if cs.length = 2 then 1 else cs.length
  if !m.warmStart || m.coef.isNone then
    { m with classes := cs, nFeatures := X.c, coef := some (init k X.c),
             intercept := List.replicate k 0, nIter := List.replicate k 0 }
  else { m with classes := cs, nFeatures := X.c }

/-- put the result of fitting one class back into the state (sklearn/linear_model/logistic.go:304-387) -/
def LR.store (m : LR α) (idx : Nat) (w : List α) (b : α) (k : Nat) : LR α :=
  { m with coef := some ((m.coef.getD []).set idx w), intercept := m.intercept.set idx b,
           nIter := m.nIter.set idx k }

/-- `fitBinary` and `fitBinaryForClass` (`sklearn/linear_model/logistic.go:304-387`, `sklearn/linear_model/logistic.go:686-757`): gradient descent on the
weights number `idx`; weights of another length than the number of columns are an index panic as
soon as the loop runs -/
def LR.fitGD (N : Num α) (m : LR α) (X : Mat α) (yb : Nat → α) (idx : Nat) : LR α × Outcome Unit :=
  match (m.coef.getD [])[idx]?, m.intercept[idx]? with
  | some w, some b =>
    if 0 < m.maxIter ∧ w.length ≠ X.c then (m, .panic "index out of range")
    else
      match gdLoop N (m.penalty == "l2") m.C m.fitIntercept m.tol X yb m.maxIter 0 w b (m.nIter.getD idx 0) with
      | (w', b', k) => (m.store idx w' b' k, .ok ())
  | _, _ => (m, .panic "index out of range")

/-- the regularisation strength used by the L-BFGS fits (`sklearn/linear_model/logistic.go:423-429`); `none` is the error
for `C == 0` -/
def LR.lambda (m : LR α) : Option α :=
  if m.penalty = "l2" then if m.C == 0 then none else some (1 / m.C) else some 0

/-- result of the optimiser: the parameters and `Stats.MajorIterations` (sklearn/linear_model/logistic.go:391-529) -/
structure OptResult (α : Type _) where
  x : List α
  iters : Nat

/-- the type of `optimize.Minimize` with fixed settings (sklearn/linear_model/logistic.go:391-529) -/
abbrev Minimizer (α : Type _) := (List α → α) → (List α → List α) → List α → Outcome (OptResult α)

/-- the L-BFGS fit of the weights number `idx` from starting point `x0` (`sklearn/linear_model/logistic.go:390-529`,
`sklearn/linear_model/logistic.go:577-683`); `errors.Wrap` keeps the cause, which is what is recorded -/
def LR.fitLBFGS (N : Num α) (eps : α) (mini : Minimizer α) (m : LR α) (X : Mat α) (yb : Nat → α)
    (idx : Nat) (x0 : List α) : LR α × Outcome Unit :=
  match (m.coef.getD [])[idx]?, m.intercept[idx]? with
  | some w, some b =>
    match m.lambda with
    | none => (m, .err (.other "C must be > 0 for l2 penalty"))
    | some la =>
      match mini (objFunc N eps la m.fitIntercept X yb) (objGrad N la m.fitIntercept X yb) x0 with
      | .err e => (m, .err e)
      | .panic s => (m, .panic s)
      | .ok r =>
        (m.store idx (copyInto w (r.x.take X.c)) (if m.fitIntercept then r.x.getD X.c 0 else b) r.iters,
         .ok ())
  | _, _ => (m, .panic "index out of range")

/-- the starting point of the binary L-BFGS fit (`sklearn/linear_model/logistic.go:405-418`) -/
def LR.start (m : LR α) (nF : Nat) : List α :=
  let w := (m.coef.getD []).getD 0 []
  let tail := fun (b : α) => if m.fitIntercept then [b] else []
  if m.warmStart && w.length == nF then w ++ tail (m.intercept.getD 0 0)
  else List.replicate nF 0 ++ tail 0

/-- the starting point of the L-BFGS fit of one class (`sklearn/linear_model/logistic.go:585-590`) -/
def LR.startOvr (m : LR α) (nF idx : Nat) : List α :=
  copyInto (List.replicate nF 0) ((m.coef.getD []).getD idx []) ++
    (if m.fitIntercept then [m.intercept.getD idx 0] else [])

/-- 0/1 labels for one class (`sklearn/linear_model/logistic.go:307-315`, `536-544`) -/
def binaryLabels (toInt : α → Int) (y : Mat α) (cls : Int) : Nat → α :=
  fun i => if toInt (y.at' i 0) = cls then 1 else 0

/-- fit one class with the configured solver (`sklearn/linear_model/logistic.go:179-190`, `193-209`) -/
def LR.fitOne (N : Num α) (eps : α) (mini : Minimizer α) (m : LR α) (X : Mat α) (yb : Nat → α)
    (idx : Nat) (x0 : List α) : LR α × Outcome Unit :=
  if m.solver = "lbfgs" then m.fitLBFGS N eps mini X yb idx x0 else m.fitGD N X yb idx

/-- `fitOVR`, `fitOVRLBFGS` (`sklearn/linear_model/logistic.go:532-574`): class after class, stopping at the first error -/
def LR.fitOvr (N : Num α) (eps : α) (mini : Minimizer α) (toInt : α → Int) (X y : Mat α) :
    List (Int × Nat) → LR α → LR α × Outcome Unit
  | [], m => (m, .ok ())
  | (cls, idx) :: rest, m =>
    match m.fitOne N eps mini X (binaryLabels toInt y cls) idx (m.startOvr X.c idx) with
    | (m', .ok _) => LR.fitOvr N eps mini toInt X y rest m'
    | (m', .err e) => (m', .err e)
    | (m', .panic s) => (m', .panic s)

/-- `validateSolverPenalty` (`sklearn/linear_model/logistic.go:171-176`): accepted? -/
def LR.penaltyOk (m : LR α) : Bool :=
  !(m.solver == "lbfgs" && m.penalty != "l2" && m.penalty != "none")

/-- `fitBinaryClassification` and `fitMultiClassification` (`sklearn/linear_model/logistic.go:179-209`) -/
def LR.fitClasses (N : Num α) (eps : α) (mini : Minimizer α) (toInt : α → Int) (m : LR α) (X y : Mat α) :
    LR α × Outcome Unit :=
  if m.classes.length = 2 then
    if !m.penaltyOk then (m, .err (.other "lbfgs supports only l2 or none penalty"))
    else m.fitOne N eps mini X (binaryLabels toInt y (m.classes.getD 1 0)) 0 (m.start X.c)
  else if m.multiClass = "multinomial" ∧ m.solver = "lbfgs" then
    (m, .err (.other "multinomial logistic regression not yet implemented"))
  else if !m.penaltyOk then (m, .err (.other "lbfgs supports only l2 or none penalty"))
  else LR.fitOvr N eps mini toInt X y m.classes.zipIdx m

/-- `Fit` (`sklearn/linear_model/logistic.go:212-247`) -/
def LR.fit (N : Num α) (eps : α) (mini : Minimizer α) (toInt : α → Int) (iter : List Int → List Int)
    (init : Nat → Nat → List (List α)) (m : LR α) (X y : Mat α) : LR α × Outcome Unit :=
  if X.r ≠ y.r then (m, .err (.other "x and y must have the same number of samples"))
  else if y.c ≠ 1 then (m, .err (.other "y must be a column vector"))
  else
    match (m.begin toInt iter init X y).fitClasses N eps mini toInt X y with
    | (m', .ok _) => ({ m' with fitted := true }, .ok ())
    | r => r

/-! ## Prediction -/

/-- the score of class `c` for row `i` (`sklearn/linear_model/logistic.go:795-798`) -/
def LR.scoreAt (m : LR α) (X : Mat α) (i c : Nat) : α :=
  zAt m.nFeatures (fun j => ((m.coef.getD []).getD c []).getD j 0) (m.intercept.getD c 0) X i

/-- checks common to `Predict` and `PredictProba` (`sklearn/linear_model/logistic.go:766-772`, `812-818`): there is no
dimension error; a narrower matrix, or weights that do not fit the classes, are index panics -/
def LR.guarded {β : Type _} (m : LR α) (X : Mat α) (k : Outcome β) : Outcome β :=
  let nCoef := if m.classes.length = 2 then 1 else m.classes.length
  if !m.fitted then .err (.other "model must be fitted before prediction")
  else if X.r = 0 ∨ m.classes = [] then .panic "mat: zero length in matrix dimension"
  else if X.c < m.nFeatures then .panic "mat: column index out of range"
  else if (m.coef.getD []).length < nCoef ∨ m.intercept.length < nCoef ∨
      ((m.coef.getD []).take nCoef).any (fun w => decide (w.length < m.nFeatures)) then
    .panic "index out of range"
  else k

/-- the scan for the best class (`sklearn/linear_model/logistic.go:790-804`); `lowest` is `-math.MaxFloat64` -/
def LR.bestClass (lowest : α) (m : LR α) (X : Mat α) (i : Nat) : Int :=
  argmaxClass lowest m.classes ((List.range m.classes.length).map (m.scoreAt X i))

/-- `Predict` (`sklearn/linear_model/logistic.go:766-809`); with no class at all the multiclass scan reads `classes_[0]` of
an empty slice -/
def LR.predict (N : Num α) (ofInt : Int → α) (lowest : α) (m : LR α) (X : Mat α) : Outcome (Mat α) :=
  m.guarded X (.ok ⟨X.r, 1, fun i _ =>
    if m.classes.length = 2 then
      if N.half ≤ sigmoid N (m.scoreAt X i 0) then ofInt (m.classes.getD 1 0)
      else ofInt (m.classes.getD 0 0)
    else ofInt (m.bestClass lowest X i)⟩)

/-- softmax shifted by the maximum (`sklearn/linear_model/logistic.go:834-857`) -/
def softmaxShift (exp : α → α) (lowest : α) (l : List α) : List α :=
  let mx := l.foldl (fun m s => if m < s then s else m) lowest
  let e := l.map (fun s => exp (s - mx))
  let total := sumOver e id
  e.map (· / total)

/-- `PredictProba` (`sklearn/linear_model/logistic.go:812-863`) -/
def LR.predictProba (N : Num α) (lowest : α) (m : LR α) (X : Mat α) : Outcome (Mat α) :=
  m.guarded X (.ok ⟨X.r, m.classes.length, fun i c =>
    if m.classes.length = 2 then
      let p := sigmoid N (m.scoreAt X i 0)
      if c = 0 then 1 - p else p
    else (softmaxShift N.exp lowest ((List.range m.classes.length).map (m.scoreAt X i))).getD c 0⟩)

/-- `Score` (`sklearn/linear_model/logistic.go:866-882`); an error of `Predict` scores 0 -/
def LR.scoreAcc (N : Num α) (ofInt : Int → α) (lowest : α) (m : LR α) (X y : Mat α) : Outcome α :=
  match m.predict N ofInt lowest X with
  | .err _ => .ok 0
  | .panic s => .panic s
  | .ok P =>
    if y.r < X.r ∨ y.c = 0 then .panic "mat: row index out of range"
    else .ok (N.ofNat (((List.range X.r).filter (fun i => P.at' i 0 == y.at' i 0)).length) / N.ofNat X.r)

end

/-! ## Parameters -/

/-- a dynamically typed parameter value (`interface{}`) (sklearn/linear_model/logistic.go:885-939) -/
inductive PVal (α : Type _)
  | str (s : String)
  | flt (x : α)
  | bool (b : Bool)
  | int (n : Int)
  | int64 (n : Int)

/-- all hyperparameters, as `GetParams` sees them (`sklearn/linear_model/logistic.go:29-42`) -/
structure Params (α : Type _) where
  penalty : String
  C : α
  fitIntercept : Bool
  interceptScaling : α
  classWeight : String
  randomState : Int
  solver : String
  maxIter : Int
  multiClass : String
  verbose : Int
  warmStart : Bool
  l1Ratio : α
  tol : α
  randomSeed : Int

/-- `GetParams` (`sklearn/linear_model/logistic.go:885-901`) -/
def Params.get (p : Params α) : List (String × PVal α) :=
  [("penalty", .str p.penalty), ("C", .flt p.C), ("fit_intercept", .bool p.fitIntercept),
   ("intercept_scaling", .flt p.interceptScaling), ("class_weight", .str p.classWeight),
   ("random_state", .int64 p.randomState), ("solver", .str p.solver), ("max_iter", .int p.maxIter),
   ("multi_class", .str p.multiClass), ("verbose", .int p.verbose), ("warm_start", .bool p.warmStart),
   ("l1_ratio", .flt p.l1Ratio), ("tol", .flt p.tol)]

/-- one round of the loop of `SetParams` (`sklearn/linear_model/logistic.go:905-934`); a value of another dynamic type is a
failed type assertion, which panics -/
def Params.set1 (p : Params α) (key : String) (v : PVal α) : Outcome (Params α) :=
  let bad := Outcome.panic "interface conversion"
  if key = "penalty" then match v with | .str s => .ok { p with penalty := s } | _ => bad
  else if key = "C" then match v with | .flt x => .ok { p with C := x } | _ => bad
  else if key = "fit_intercept" then match v with | .bool b => .ok { p with fitIntercept := b } | _ => bad
  else if key = "intercept_scaling" then
    match v with | .flt x => .ok { p with interceptScaling := x } | _ => bad
  else if key = "class_weight" then match v with | .str s => .ok { p with classWeight := s } | _ => bad
  else if key = "random_state" then
    match v with | .int64 n => .ok { p with randomState := n, randomSeed := n } | _ => bad
  else if key = "solver" then match v with | .str s => .ok { p with solver := s } | _ => bad
  else if key = "max_iter" then match v with | .int n => .ok { p with maxIter := n } | _ => bad
  else if key = "multi_class" then match v with | .str s => .ok { p with multiClass := s } | _ => bad
  else if key = "verbose" then match v with | .int n => .ok { p with verbose := n } | _ => bad
  else if key = "warm_start" then match v with | .bool b => .ok { p with warmStart := b } | _ => bad
  else if key = "l1_ratio" then match v with | .flt x => .ok { p with l1Ratio := x } | _ => bad
  else if key = "tol" then match v with | .flt x => .ok { p with tol := x } | _ => bad
  else .err (.other "unknown parameter")

/-- `SetParams` (`sklearn/linear_model/logistic.go:904-939`) over the entries in the order the map is ranged over; the state
after a failure keeps what was already assigned -/
def Params.setAll : Params α → List (String × PVal α) → Params α × Outcome Unit
  | p, [] => (p, .ok ())
  | p, (k, v) :: rest =>
    match p.set1 k v with
    | .ok p' => Params.setAll p' rest
    | .err e => (p, .err e)
    | .panic s => (p, .panic s)

end Scigo.Logistic
