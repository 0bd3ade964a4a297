import Mathlib.Data.List.Basic
import Mathlib.Algebra.Order.Field.Basic

/-!
# Model of `sklearn/drift/ddm.go`

Numbers are an arbitrary carrier; `math.Sqrt`, `math.Log`, `math.Abs` are parameters. Every
exported method holds the detector's mutex for its whole body, so a method is one atomic step.
-/

namespace Scigo.Drift

variable {α : Type _}

/-! ## DDM -/

/-- `DDM` struct (sklearn/drift/ddm.go:11-33). `minErrorRate = minStdDev = +Inf` (both fields are always
written together) is `min = none`. -/
structure DDM (α : Type _) where
  minNumInstances : Int
  warningLevel : α
  outControlLevel : α
  numInstances : Nat
  numErrors : Nat
  errorRate : α
  stdDev : α
  min : Option (α × α)
  warningDetected : Bool
  driftDetected : Bool
deriving DecidableEq

/-- `DriftDetectionResult` (sklearn/drift/ddm.go:36-41). -/
structure Result (α : Type _) where
  warningDetected : Bool
  driftDetected : Bool
  errorRate : α
  confidenceLevel : α
deriving DecidableEq

/-- `NewDDM` after its options (sklearn/drift/ddm.go:44-82): options only set the three parameters. -/
def DDM.new [Zero α] (minNum : Int) (warn out : α) : DDM α :=
  ⟨minNum, warn, out, 0, 0, 0, 0, none, false, false⟩

/-- `resetAfterDrift` (sklearn/drift/ddm.go:180-189) and `Reset` (sklearn/drift/ddm.go:165-177); the same assignments. -/
def DDM.reset [Zero α] (s : DDM α) : DDM α :=
  { s with numInstances := 0, numErrors := 0, errorRate := 0, stdDev := 0, min := none,
           warningDetected := false, driftDetected := false }

/-- the reference pair after the update at sklearn/drift/ddm.go:114-118: `currentLevel < +Inf` holds -/
def newMin [Add α] [LT α] [DecidableLT α] (rate sd : α) : Option (α × α) → α × α
  | none => (rate, sd)
  | some m => if rate + sd < m.1 + m.2 then (rate, sd) else m

section
variable [Add α] [Sub α] [Mul α] [Div α] [Zero α] [One α] [NatCast α] [LT α] [DecidableLT α]

/-- `Update` (sklearn/drift/ddm.go:87-149). -/
def DDM.update (sqrt : α → α) (correct : Bool) (s : DDM α) : Result α × DDM α :=
  let n := s.numInstances + 1
  let e := if correct then s.numErrors else s.numErrors + 1
  let s := { s with numInstances := n, numErrors := e }
  if (n : Int) < s.minNumInstances then (⟨false, false, 0, 0⟩, s)
  else
    let rate : α := (e : α) / (n : α)
    let sd := sqrt (rate * (1 - rate) / (n : α))
    let m := newMin rate sd s.min
    let conf := if 0 < m.2 then (rate + sd) / (m.1 + m.2) else 1
    let w := decide (m.1 + s.warningLevel * m.2 < rate + sd)
    let d := decide (m.1 + s.outControlLevel * m.2 < rate + sd)
    let s := { s with errorRate := rate, stdDev := sd, min := some m, warningDetected := w,
                      driftDetected := d }
    (⟨w, d, rate, conf⟩, if d then s.reset else s)

/-- `UpdateWithPrediction` (sklearn/drift/ddm.go:152-155); `eps` is `1e-10`. -/
def DDM.updateWithPrediction (sqrt abs : α → α) (eps predicted actual : α) (s : DDM α) :
    Result α × DDM α :=
  s.update sqrt (decide (abs (predicted - actual) < eps))

/-- `UpdateWithError` (sklearn/drift/ddm.go:158-162); `tenth` is `0.1`. -/
def DDM.updateWithError (sqrt : α → α) (tenth error : α) (s : DDM α) : Result α × DDM α :=
  s.update sqrt (decide (error < tenth))

end

/-! ## ADWIN -/

/-- `bucket` (sklearn/drift/ddm.go:239-242). -/
structure Bucket (α : Type _) where
  sum : α
  count : Nat
deriving DecidableEq

/-- `ADWIN` struct (sklearn/drift/ddm.go:222-236). `variance` is never read or written except to 0. The
counters are unsigned here: sklearn/drift/ddm.go:397-400 subtracts counts that were added before. -/
structure ADWIN (α : Type _) where
  delta : α
  maxBuckets : Int
  buckets : List (Bucket α)
  totalSum : α
  totalCount : Nat
  width : Nat
deriving DecidableEq

/-- `NewADWIN` after its options (sklearn/drift/ddm.go:245-274). -/
def ADWIN.new [Zero α] (delta : α) (maxBuckets : Int) : ADWIN α := ⟨delta, maxBuckets, [], 0, 0, 0⟩

/-- `Reset` (sklearn/drift/ddm.go:437-446). -/
def ADWIN.reset [Zero α] (s : ADWIN α) : ADWIN α :=
  { s with buckets := [], totalSum := 0, totalCount := 0, width := 0 }

section
variable [Add α] [Sub α] [Mul α] [Div α] [Zero α] [One α] [NatCast α] [LT α] [DecidableLT α]

/-- the bucket list after adding `{value, 1}` (sklearn/drift/ddm.go:290-304) -/
def pushBucket (bs : List (Bucket α)) (value : α) : List (Bucket α) :=
  match bs.getLast? with
  | none => bs ++ [⟨value, 1⟩]
  | some last =>
    if last.count = 1 then bs.dropLast ++ [⟨last.sum + value, last.count + 1⟩]
    else bs ++ [⟨value, 1⟩]

/-- `removeOldestBucket` (sklearn/drift/ddm.go:392-403). -/
def ADWIN.removeOldest (s : ADWIN α) : ADWIN α :=
  match s.buckets with
  | [] => s
  | b :: bs => { s with totalSum := s.totalSum - b.sum, totalCount := s.totalCount - b.count,
                        width := s.width - b.count, buckets := bs }

/-- `addElement` (sklearn/drift/ddm.go:289-316). -/
def ADWIN.addElement (value : α) (s : ADWIN α) : ADWIN α :=
  let s := { s with buckets := pushBucket s.buckets value, totalSum := s.totalSum + value,
                    totalCount := s.totalCount + 1, width := s.width + 1 }
  if s.maxBuckets < (s.buckets.length : Int) then s.removeOldest else s

/-- loop accumulating sum and count of a run of buckets (sklearn/drift/ddm.go:354-366) -/
def bucketTotals (bs : List (Bucket α)) : α × Nat :=
  bs.foldl (fun acc b => (acc.1 + b.sum, acc.2 + b.count)) (0, 0)

/-- `mean := 0.0; if count > 0 { mean = sum / count }` (sklearn/drift/ddm.go:368-376) -/
def bucketMean (t : α × Nat) : α := if 0 < t.2 then t.1 / (t.2 : α) else 0

/-- `getHoeffdingBound` (sklearn/drift/ddm.go:382-389). `half`, `two` are the literals. -/
def hoeffding (sqrt log : α → α) (half two delta : α) (n0 n1 : Nat) : α :=
  if n0 = 0 ∨ n1 = 0 then 0
  else sqrt (half * (1 / (n0 : α) + 1 / (n1 : α)) * log (two / delta))

/-- the test made at split point `i` (sklearn/drift/ddm.go:330-341), using `getSubwindowStats` (sklearn/drift/ddm.go:353-379) -/
def splitDrifts (sqrt log abs : α → α) (half two delta : α) (bs : List (Bucket α)) (i : Nat) : Bool :=
  let t0 := bucketTotals (bs.take i)
  let t1 := bucketTotals (bs.drop i)
  if t0.2 = 0 ∨ t1.2 = 0 then false
  else decide (hoeffding sqrt log half two delta t0.2 t1.2 < abs (bucketMean t0 - bucketMean t1))

/-- `detectDrift` (sklearn/drift/ddm.go:319-350) with `updateGlobalStats` (sklearn/drift/ddm.go:406-416): the first split
point `1 ≤ i < len` that passes the test. -/
def ADWIN.detectDrift (sqrt log abs : α → α) (half two : α) (s : ADWIN α) : Bool × ADWIN α :=
  if s.buckets.length < 2 then (false, s)
  else if s.totalCount < 5 then (false, s)
  else
    match (List.range' 1 (s.buckets.length - 1)).find?
        (splitDrifts sqrt log abs half two s.delta s.buckets) with
    | none => (false, s)
    | some i =>
      let bs := s.buckets.drop i
      let t := bucketTotals bs
      (true, { s with buckets := bs, totalSum := t.1, totalCount := t.2, width := t.2 })

/-- `Update` (sklearn/drift/ddm.go:277-286). -/
def ADWIN.update (sqrt log abs : α → α) (half two value : α) (s : ADWIN α) : Bool × ADWIN α :=
  (s.addElement value).detectDrift sqrt log abs half two

/-- `GetMean` (sklearn/drift/ddm.go:419-427). -/
def ADWIN.mean (s : ADWIN α) : α :=
  if s.totalCount = 0 then 0 else s.totalSum / (s.totalCount : α)

end

end Scigo.Drift
