import Verif.Base.Loop
import Verif.Base.Mat
import Verif.Base.Outcome
import Verif.Base.Sort

/-!
# `metrics`: regression, classification and ranking metrics

`*mat.VecDense` is `Option (List α)` (`none` is a nil pointer).  Loops
`for i := 0; i < n; i++ { … yTrue.AtVec(i) … yPred.AtVec(i) … }` over two vectors of the
same checked length are folds over the zipped list, in the same order.
-/

namespace Scigo.Metrics

variable {α β : Type _}

/-- A nil or real vector pointer. (`*mat.VecDense` arguments, metrics/regression.go:66-73) -/
abbrev Vec (α : Type _) := Option (List α)

/-- Input validation shared by `MSE`, `MAE`, `R2Score`, `MAPE`, `ExplainedVarianceScore`:
`yTrue.Len()` (nil pointer panics), empty → value error, `yPred.Len() != n` (nil panics) →
dimension error. Models `metrics/regression.go:66-73, 192-199, 240-247, 303-310, 361-368`. -/
def regGuard (t p : Vec α) (k : List (α × α) → Outcome β) : Outcome β :=
  match t with
  | none => .panic "nil pointer dereference"
  | some t =>
    if t.length = 0 then .err .value
    else match p with
      | none => .panic "nil pointer dereference"
      | some p =>
        if p.length ≠ t.length then .err (.dimension t.length p.length 0)
        else k (t.zip p)

/-- Input validation of the classification and ranking metrics: nil → value error, empty →
value error, length mismatch → dimension error.
Models `metrics/classification.go:41-63, 228-250, 318-340`, `metrics/ranking.go:48-70, 246-268`. -/
def clsGuard (t p : Vec α) (k : List (α × α) → Outcome β) : Outcome β :=
  match t, p with
  | some t, some p =>
    if t.length = 0 then .err .value
    else if t.length ≠ p.length then .err (.dimension t.length p.length 0)
    else k (t.zip p)
  | _, _ => .err .value

/-! ### Regression metrics -/

section Reg

variable [Add α] [Sub α] [Mul α] [Div α] [Zero α] [One α] [NatCast α] [BEq α]

/-- `MSE`. Models `metrics/regression.go:64-83`. -/
def mse (t p : Vec α) : Outcome α :=
  regGuard t p fun z =>
    .ok (sumOver z (fun x => (x.1 - x.2) * (x.1 - x.2)) / (z.length : α))

/-- `MSEMatrix`. Models `metrics/regression.go:107-134`. -/
def mseMatrix (t p : Mat α) : Outcome α :=
  if t.r = 0 ∨ t.c = 0 then .err .value
  else if t.r ≠ p.r ∨ t.c ≠ p.c then .err (.dimension t.r p.r 0)
  else if t.c ≠ 1 then .err .value
  else mse (some (t.col 0)) (some (p.col 0))

/-- `RMSE`. Models `metrics/regression.go:157-163`. -/
def rmse (sqrt : α → α) (t p : Vec α) : Outcome α :=
  (mse t p).bind fun m => .ok (sqrt m)

/-- `MAE`. Models `metrics/regression.go:190-209`. -/
def mae (abs : α → α) (t p : Vec α) : Outcome α :=
  regGuard t p fun z => .ok (sumOver z (fun x => abs (x.1 - x.2)) / (z.length : α))

/-- `R2Score`. Models `metrics/regression.go:238-273`. -/
def r2Score (t p : Vec α) : Outcome α :=
  regGuard t p fun z =>
    let yMean := sumOver z (fun x => x.1) / (z.length : α)
    let tss := sumOver z (fun x => (x.1 - yMean) * (x.1 - yMean))
    let rss := sumOver z (fun x => (x.1 - x.2) * (x.1 - x.2))
    if tss == 0 then .err (.other "no variance") else .ok (1 - rss / tss)

/-- The accumulation loop of `MAPE`: sum and count over the non-zero targets.
Models `metrics/regression.go:313-323`. -/
def mapeLoop (abs : α → α) (z : List (α × α)) : α × Nat :=
  z.foldl (fun s x =>
    if x.1 != 0 then (s.1 + abs (x.1 - x.2) / abs x.1, s.2 + 1) else s) (0, 0)

/-- `MAPE`; `hundred` is the literal `100`. Models `metrics/regression.go:301-330`. -/
def mape (abs : α → α) (hundred : α) (t p : Vec α) : Outcome α :=
  regGuard t p fun z =>
    let s := mapeLoop abs z
    if s.2 = 0 then .err (.other "all zero") else .ok (s.1 / (s.2 : α) * hundred)

/-- `ExplainedVarianceScore`. Models `metrics/regression.go:359-399` (the unused `yPredMean`
is left out). -/
def explainedVariance (t p : Vec α) : Outcome α :=
  regGuard t p fun z =>
    let n : α := (z.length : α)
    let yMean := sumOver z (fun x => x.1) / n
    let dMean := sumOver z (fun x => x.1 - x.2) / n
    let varY := sumOver z (fun x => (x.1 - yMean) * (x.1 - yMean)) / n
    let varD := sumOver z (fun x => (x.1 - x.2 - dMean) * (x.1 - x.2 - dMean)) / n
    if varY == 0 then .err (.other "no variance") else .ok (1 - varD / varY)

end Reg

/-! ### Classification metrics -/

section Cls

variable [Add α] [Sub α] [Mul α] [Div α] [Zero α] [One α] [NatCast α] [BEq α]

/-- A label that is neither `0.0` nor `1.0`. Models `metrics/classification.go:68, 261`,
`metrics/ranking.go:274`. -/
def notBinary (y : α) : Bool := y != 0 && y != 1

/-- The ROC sweep: walk the sorted (score, label) pairs; when the score changes emit the point
`(fp/totalNeg, tp/totalPos)`; then count the label.
Models `metrics/classification.go:123-141`; points are `(fpr, tpr)`. -/
def sweep (totalPos totalNeg : α) : List (α × α) → α → α → α → List (α × α)
  | [], _, _, _ => []
  | q :: qs, tp, fp, prev =>
    let rest := fun prev =>
      if q.2 == 1 then sweep totalPos totalNeg qs (tp + 1) fp prev
      else sweep totalPos totalNeg qs tp (fp + 1) prev
    if q.1 != prev then (fp / totalNeg, tp / totalPos) :: rest q.1 else rest prev

/-- Trapezoidal rule over the ROC points, accumulating left to right; `two` is the literal
`2`. Models `metrics/classification.go:148-154`. -/
def trapezoid (two : α) : List (α × α) → α → α
  | a :: b :: rest, acc => trapezoid two (b :: rest) (acc + (b.1 - a.1) * ((b.2 + a.2) / two))
  | _, acc => acc

/-- Number of labels equal to `1.0` counted as a float. Models `metrics/classification.go:101-109`. -/
def countLabels (one : Bool) (ts : List α) : α :=
  ts.foldl (fun s y => if (y == 1) = one then s + 1 else s) 0

/-- `AUC`; `half`, `two` are the literals `0.5`, `2`; `srt` is `sort.Slice` on the
(score, label) pairs. Models `metrics/classification.go:39-157`. -/
def auc (half two : α) (srt : List (α × α) → List (α × α)) (t p : Vec α) : Outcome α :=
  clsGuard t p fun z =>
    if z.any (fun x => notBinary x.1) then .err .validation
    else
      let pairs := srt (z.map (fun x => (x.2, x.1)))
      let totalPos : α := countLabels true (z.map Prod.fst)
      let totalNeg : α := countLabels false (z.map Prod.fst)
      if totalPos == 0 || totalNeg == 0 then .ok half
      else match pairs with
        | [] => .panic "index out of range"
        | q :: _ =>
          .ok (trapezoid two
            ((0, 0) :: (sweep totalPos totalNeg pairs 0 0 (q.1 + 1) ++ [(1, 1)])) 0)

/-- `AUCMatrix`: first columns; a matrix with rows but no columns makes `At(i,0)` panic.
Models `metrics/classification.go:171-201` (nil interface values are `none`). -/
def aucMatrix (half two : α) (srt : List (α × α) → List (α × α)) (t p : Option (Mat α)) :
    Outcome α :=
  match t, p with
  | some t, some p =>
    if t.r = 0 ∨ p.r = 0 then .err .value
    else if t.c = 0 ∨ p.c = 0 then .panic "column index out of range"
    else auc half two srt (some (t.col 0)) (some (p.col 0))
  | _, _ => .err .value

/-- `ClassificationError`. Models `metrics/classification.go:316-351`. -/
def classificationError (t p : Vec α) : Outcome α :=
  clsGuard t p fun z =>
    .ok (((z.foldl (fun s x => if x.1 != x.2 then s + 1 else s) 0 : Nat) : α) / (z.length : α))

/-- `Accuracy`. Models `metrics/classification.go:364-370`. -/
def accuracy (t p : Vec α) : Outcome α :=
  (classificationError t p).bind fun e => .ok (1 - e)

variable [LT α] [DecidableLT α] [LE α] [DecidableLE α]

/-- `logSafe`; `big` is `-1e10`. Models `metrics/classification.go:288-293`. -/
def logSafe (log : α → α) (big x : α) : α := if x ≤ 0 then big else log x

/-- Clip a probability to `[eps, 1-eps]`. Models `metrics/classification.go:270-274`. -/
def clipProb (eps p : α) : α := if p < eps then eps else if p > 1 - eps then 1 - eps else p

/-- The loss loop with its early validation error. Models `metrics/classification.go:254-282`. -/
def logLossLoop (log : α → α) (eps big : α) : List (α × α) → α → Outcome α
  | [], loss => .ok loss
  | (y, p) :: zs, loss =>
    if notBinary y then .err .validation
    else
      let p' := clipProb eps p
      if y == 1 then logLossLoop log eps big zs (loss - logSafe log big p')
      else logLossLoop log eps big zs (loss - logSafe log big (1 - p'))

/-- `BinaryLogLoss`; `eps` is `1e-15`, `big` is `-1e10`. Models `metrics/classification.go:226-285`. -/
def binaryLogLoss (log : α → α) (eps big : α) (t p : Vec α) : Outcome α :=
  clsGuard t p fun z =>
    (logLossLoop log eps big z 0).bind fun l => .ok (l / (z.length : α))

end Cls

/-! ### Ranking metrics -/

section Rank

variable [Add α] [Sub α] [Mul α] [Div α] [Zero α] [One α] [NatCast α] [BEq α] [LT α] [DecidableLT α]

/-- `dcg` over the relevances in ranked order; `pow2 r` is `math.Pow(2, r)`, `log2 i` is
`math.Log2(float64(i))`. Models `metrics/ranking.go:151-170`. -/
def dcg (pow2 : α → α) (log2 : Nat → α) (rels : List α) (k : Nat) : α :=
  let k' := if k > rels.length then rels.length else k
  ((rels.take k').zipIdx).foldl (fun s x => s + (pow2 x.1 - 1) / log2 (x.2 + 2)) 0

/-- `NDCG`. Models `metrics/ranking.go:46-148`; `srtP` is the `sort.Slice` by predicted score
(pairs (score, relevance)), `srtR` the one by relevance. -/
def ndcg (pow2 : α → α) (log2 : Nat → α) (srtP : List (α × α) → List (α × α))
    (srtR : List α → List α) (t p : Vec α) (k : Int) : Outcome α :=
  clsGuard t p fun z =>
    if k ≤ 0 ∧ k ≠ -1 then .err .validation
    else
      let k' : Nat := if k = -1 ∨ k > z.length then z.length else k.toNat
      if z.any (fun x => decide (x.1 < 0)) then .err .validation
      else
        let d := dcg pow2 log2 ((srtP (z.map (fun x => (x.2, x.1)))).map Prod.snd) k'
        let i := dcg pow2 log2 (srtR (z.map Prod.fst)) k'
        if i == 0 then .ok 0 else .ok (d / i)

/-- The precision loop of `AveragePrecision` over relevances in ranked order, from position
`i` with `hits` hits so far. Models `metrics/ranking.go:312-321`. -/
def apLoop : List α → Nat → Nat → α → α
  | [], _, _, s => s
  | r :: rs, i, hits, s =>
    if r == 1 then apLoop rs (i + 1) (hits + 1) (s + ((hits + 1 : Nat) : α) / ((i + 1 : Nat) : α))
    else apLoop rs (i + 1) hits s

/-- `AveragePrecision`. Models `metrics/ranking.go:244-324`. -/
def averagePrecision (srt : List (α × α) → List (α × α)) (t p : Vec α) : Outcome α :=
  clsGuard t p fun z =>
    if z.any (fun x => notBinary x.1) then .err .validation
    else
      let numRel := (z.map Prod.fst).foldl (fun s y => if y == 1 then s + 1 else s) 0
      if numRel = 0 then .ok 0
      else
        .ok (apLoop ((srt (z.map (fun x => (x.2, x.1)))).map Prod.snd) 0 0 0 / ((numRel : Nat) : α))

/-- The query loop of `MeanAveragePrecision`. Models `metrics/ranking.go:355-362`. -/
def mapLoop (srt : List (α × α) → List (α × α)) : List (Vec α × Vec α) → α → Outcome α
  | [], s => .ok s
  | q :: qs, s => (averagePrecision srt q.1 q.2).bind fun ap => mapLoop srt qs (s + ap)

/-- `MeanAveragePrecision`. Models `metrics/ranking.go:338-365`. -/
def meanAveragePrecision (srt : List (α × α) → List (α × α)) (ts ps : List (Vec α)) : Outcome α :=
  if ts.length = 0 ∨ ps.length = 0 then .err .value
  else if ts.length ≠ ps.length then .err (.dimension ts.length ps.length 0)
  else (mapLoop srt (ts.zip ps) 0).bind fun s => .ok (s / (ts.length : α))

end Rank

end Scigo.Metrics
