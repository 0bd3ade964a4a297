import Verif.Base.Outcome
import Verif.Base.Sort
import Verif.Base.Loop

/-!
# Histograms and split search

`sklearn/lightgbm/histogram_optimization.go` and the sequential parts of `sklearn/lightgbm/parallel_histogram.go`. A column
of the training matrix is a function from row index to value; gradients and hessians are functions of the row index.
`sort.Float64s` and `sort.Slice` are parameters. Literals (`1e-10`, `1e-16`, `0.5`) are fields of `Lits`. `MaxBin` is a
natural number: a negative one makes `make` panic, and zero is replaced by 255 in `NewHistogramBuilder`.
-/

set_option linter.unusedSectionVars false

namespace Scigo.Hist

variable {α : Type}

/-- the float literals used: sklearn/lightgbm/histogram_optimization.go:232, 424, 434 -/
structure Lits (α : Type) where
  eps : α
  minHess : α
  half : α

/-- `HistogramBin`: sklearn/lightgbm/histogram_optimization.go:12-18 -/
structure Bin (α : Type) where
  lo : α
  hi : α
  count : Int
  grad : α
  hess : α
  deriving DecidableEq

/-- `FeatureHistogram`: sklearn/lightgbm/histogram_optimization.go:21-26. Simplified: the `Missing` bin, which nothing fills, is left out. -/
structure Hist (α : Type) where
  feature : Nat
  bins : List (Bin α)
  bounds : List α
  deriving DecidableEq

/-- the parameters of `HistogramBuilder` that are read: sklearn/lightgbm/histogram_optimization.go:29-36 -/
structure Builder (α : Type) where
  maxBin : Nat
  lambda : α
  alpha : α

section bounds
variable [DecidableEq α] [LT α] [DecidableLT α] [LE α] [DecidableLE α] [Zero α] [One α] [Add α] [Sub α]

/-- the loop collecting the values that differ from their predecessor: sklearn/lightgbm/histogram_optimization.go:221-226 -/
def uniqFrom (prev : α) : List α → List α
  | [] => []
  | b :: l => if b ≠ prev then b :: uniqFrom b l else uniqFrom b l

/-- `unique`: sklearn/lightgbm/histogram_optimization.go:221-226 -/
def uniq : List α → List α
  | [] => []
  | a :: l => a :: uniqFrom a l

/-- the loop keeping the bounds above the last one kept: sklearn/lightgbm/histogram_optimization.go:252-256 -/
def risingFrom (last : α) : List α → List α
  | [] => []
  | b :: l => if last < b then b :: risingFrom b l else risingFrom last l

/-- the quantile bounds before duplicates are removed: sklearn/lightgbm/histogram_optimization.go:241-249 -/
def quantileBounds (L : Lits α) (maxBin : Nat) (sorted : List α) : List α :=
  (sorted.getD 0 0 - L.eps) :: ((List.range (maxBin - 1)).map fun i => sorted.getD ((sorted.length - 1) * (i + 1) / maxBin) 0) ++
    [sorted.getD (sorted.length - 1) 0 + L.eps]

/-- `findBinBoundaries`: sklearn/lightgbm/histogram_optimization.go:214-262 -/
def findBinBoundaries (L : Lits α) (srt : List α → List α) (maxBin : Nat) (values : List α) : List α :=
  if values.length = 0 then [0, 1]
  else
    let sorted := srt values
    let unique := uniq sorted
    if unique.length ≤ maxBin then (unique.getD 0 0 - L.eps) :: unique.map (fun u => u + L.eps)
    else match quantileBounds L maxBin sorted with
      | [] => []
      | b :: l => b :: risingFrom b l

/-- the binary search of `findBinIndex`: sklearn/lightgbm/histogram_optimization.go:265-277 -/
def searchBin (v : α) (b : List α) (left right : Int) : Option Int :=
  if left ≤ right then
    let mid := (left + right) / 2
    if b.getD mid.toNat 0 ≤ v ∧ v < b.getD (mid + 1).toNat 0 then some mid
    else if v < b.getD mid.toNat 0 then searchBin v b left (mid - 1)
    else searchBin v b (mid + 1) right
  else none
termination_by (right + 1 - left).toNat

/-- `findBinIndex`: sklearn/lightgbm/histogram_optimization.go:265-286 -/
def findBinIndex (v : α) (b : List α) : Int :=
  match searchBin v b 0 ((b.length : Int) - 2) with
  | some m => m
  | none => if v < b.getD 0 0 then 0 else (b.length : Int) - 2

/-- the empty bins between consecutive bounds: sklearn/lightgbm/histogram_optimization.go:132-145 -/
def emptyBins (b : List α) : List (Bin α) :=
  (List.range (b.length - 1)).map fun i => ⟨b.getD i 0, b.getD (i + 1) 0, 0, 0, 0⟩

/-- adding one row to a bin: sklearn/lightgbm/histogram_optimization.go:152-154 -/
def Bin.add (g h : α) (b : Bin α) : Bin α := { b with count := b.count + 1, grad := b.grad + g, hess := b.hess + h }

/-- one round of the aggregation loop: sklearn/lightgbm/histogram_optimization.go:149-155 -/
def addRow (find : α → List α → Int) (b : List α) (v g h : α) (bins : List (Bin α)) : List (Bin α) :=
  if 0 ≤ find v b ∧ find v b < bins.length then bins.modify (find v b).toNat (Bin.add g h) else bins

/-- the aggregation loop over the rows of a node, for given bounds: sklearn/lightgbm/histogram_optimization.go:138-156 -/
def fill (find : α → List α → Int) (b : List α) (x g h : Nat → α) (indices : List Nat) : List (Bin α) :=
  indices.foldl (fun bins idx => addRow find b (x idx) (g idx) (h idx) bins) (emptyBins b)

/-- `buildContinuousHistogram`: sklearn/lightgbm/histogram_optimization.go:119-158 -/
def buildContinuous (L : Lits α) (srt : List α → List α) (maxBin feature : Nat) (x g h : Nat → α) (indices : List Nat) : Hist α :=
  let b := findBinBoundaries L srt maxBin (indices.map x)
  ⟨feature, fill findBinIndex b x g h indices, b⟩

/-- `findBinBoundariesOptimized`; `trunc i n m` is `int(float64(i) * (float64(n-1) / float64(m)))`:
sklearn/lightgbm/parallel_histogram.go:267-305 -/
def findBinBoundariesOpt (L : Lits α) (trunc : Nat → Nat → Nat → Nat) (srt : List α → List α) (maxBins : Nat)
    (values : List α) : List α :=
  if values.length = 0 then [0, 1]
  else
    let unique := uniq (srt values)
    if unique.length ≤ maxBins then unique ++ [unique.getD (unique.length - 1) 0 + L.eps]
    else ((List.range maxBins).map fun i => unique.getD (trunc i unique.length maxBins) 0) ++
      [unique.getD (unique.length - 1) 0 + L.eps]

/-- the binary search of `findBinIndexOptimized`: sklearn/lightgbm/parallel_histogram.go:310-321 -/
def searchBinOpt (v : α) (b : List α) (left right : Int) : Option Int :=
  if left ≤ right then
    let mid := (left + right) / 2
    if v < b.getD mid.toNat 0 then searchBinOpt v b left (mid - 1)
    else if b.getD (mid + 1).toNat 0 ≤ v then searchBinOpt v b (mid + 1) right
    else some mid
  else none
termination_by (right + 1 - left).toNat

/-- `findBinIndexOptimized`: sklearn/lightgbm/parallel_histogram.go:308-332 -/
def findBinIndexOpt (v : α) (b : List α) : Int :=
  match searchBinOpt v b 0 ((b.length : Int) - 2) with
  | some m => m
  | none =>
    if v < b.getD 0 0 then 0
    else if b.getD (b.length - 1) 0 ≤ v then (b.length : Int) - 2
    else -1

/-- `buildContinuousHistogramOptimized`: sklearn/lightgbm/parallel_histogram.go:123-162 -/
def buildContinuousOpt (L : Lits α) (trunc : Nat → Nat → Nat → Nat) (srt : List α → List α) (maxBins feature : Nat)
    (x g h : Nat → α) (indices : List Nat) : Hist α :=
  let b := findBinBoundariesOpt L trunc srt maxBins (indices.map x)
  ⟨feature, fill findBinIndexOpt b x g h indices, b⟩

end bounds

section categorical
variable [Zero α] [One α] [Add α]

/-- `CategoryInfo`: sklearn/lightgbm/categorical.go:21-26 -/
structure Cat (α : Type) where
  category : Int
  count : Int
  grad : α
  hess : α
  deriving DecidableEq

/-- one round of the collecting loop; the map is a list of entries with distinct categories:
sklearn/lightgbm/histogram_optimization.go:167-177 -/
def Cat.addTo (c : Int) (g h : α) : List (Cat α) → List (Cat α)
  | [] => [⟨c, 0 + 1, 0 + g, 0 + h⟩]
  | k :: l => if k.category = c then { k with count := k.count + 1, grad := k.grad + g, hess := k.hess + h } :: l
    else k :: Cat.addTo c g h l

/-- the collecting loop: sklearn/lightgbm/histogram_optimization.go:166-177. `int(x)` of a float is the parameter `toInt`. -/
def catStats (toInt : α → Int) (x g h : Nat → α) (indices : List Nat) : List (Cat α) :=
  indices.foldl (fun m idx => Cat.addTo (toInt (x idx)) (g idx) (h idx) m) []

/-- `buildCategoricalHistogram`; `iter` is the order of the map and `srt` sorts by category:
sklearn/lightgbm/histogram_optimization.go:162-206 -/
def buildCategorical (toInt : α → Int) (ofInt : Int → α) (iter : List (Cat α) → List (Cat α))
    (srt : List (Cat α) → List (Cat α)) (feature : Nat) (x g h : Nat → α) (indices : List Nat) : Hist α :=
  let cats := srt (iter (catStats toInt x g h indices))
  ⟨feature, cats.map (fun c => ⟨ofInt c.category, ofInt c.category + 1, c.count, c.grad, c.hess⟩),
    cats.map (fun c => ofInt c.category) ++ [match cats.getLast? with
      | some c => ofInt c.category + 1
      | none => 0]⟩

end categorical

section split
variable [DecidableEq α] [LT α] [DecidableLT α] [LE α] [DecidableLE α] [Zero α] [One α] [Add α] [Sub α] [Neg α] [Mul α] [Div α]

/-- `SplitInfo`: sklearn/lightgbm/trainer.go:171-184. Simplified: `LeftValue` and `RightValue`, which nothing sets, are left out -/
structure Split (α : Type) where
  feature : Int
  threshold : α
  gain : α
  leftCount : Int
  rightCount : Int
  leftGrad : α
  rightGrad : α
  leftHess : α
  rightHess : α
  leftCategories : List Int
  deriving DecidableEq

/-- `SplitInfo{Feature: f, Gain: g}`: sklearn/lightgbm/histogram_optimization.go:290-293, 341-344, 505-508 -/
def noSplit (f : Int) (gain : α) : Split α := ⟨f, 0, gain, 0, 0, 0, 0, 0, 0, []⟩

/-- `math.Abs`: sklearn/lightgbm/histogram_optimization.go:444 -/
def abs' (x : α) : α := if x < 0 then -x else x

/-- `calculateGain`; `special` is `IsInf || IsNaN`: sklearn/lightgbm/histogram_optimization.go:423-455 -/
def Builder.gain (hb : Builder α) (L : Lits α) (special : α → Bool) (lg lh rg rh tg th : α) : α :=
  let lh := lh + hb.lambda
  let rh := rh + hb.lambda
  let th := th + hb.lambda
  if lh < L.minHess ∨ rh < L.minHess ∨ th < L.minHess then 0
  else
    let gain := L.half * (lg * lg / lh + rg * rg / rh - tg * tg / th)
    if special gain then 0
    else if 0 < hb.alpha then gain - hb.alpha * (abs' (lg / lh) + abs' (rg / rh))
    else gain

/-- the sums kept while scanning and the best split so far: sklearn/lightgbm/histogram_optimization.go:290-299 -/
structure Scan (α : Type) where
  best : Split α
  lg : α
  lh : α
  lc : Int

/-- `rightCount`: sklearn/lightgbm/histogram_optimization.go:309-312 -/
def rightCount (bins : List (Bin α)) (i : Nat) : Int := ((bins.drop (i + 1)).map (·.count)).foldl (· + ·) 0

/-- the fields set for every new best split: sklearn/lightgbm/histogram_optimization.go:322-330, 390-397 -/
def Split.fill (s : Split α) (gain : α) (lc rc : Int) (lg rg lh rh : α) : Split α :=
  { s with gain := gain, leftCount := lc, rightCount := rc, leftGrad := lg, rightGrad := rg, leftHess := lh, rightHess := rh }

/-- one round of the scan; `describe i` fills the fields that differ between numerical and categorical splits:
sklearn/lightgbm/histogram_optimization.go:302-332, 376-408 -/
def Builder.scanStep (hb : Builder α) (L : Lits α) (special : α → Bool) (bins : List (Bin α)) (describe : Nat → Split α → Split α)
    (tg th : α) (minData : Int) (s : Scan α) (i : Nat) : Scan α :=
  match bins[i]? with
  | none => s
  | some b =>
    let lg := s.lg + b.grad
    let lh := s.lh + b.hess
    let lc := s.lc + b.count
    let rg := tg - lg
    let rh := th - lh
    let rc := rightCount bins i
    if lc < minData ∨ rc < minData then ⟨s.best, lg, lh, lc⟩
    else
      let gain := hb.gain L special lg lh rg rh tg th
      if s.best.gain < gain then
        ⟨describe i (s.best.fill gain lc rc lg rg lh rh), lg, lh, lc⟩
      else ⟨s.best, lg, lh, lc⟩

/-- the scan over the bins in order (sklearn/lightgbm/histogram_optimization.go:302-332) -/
def Builder.scan (hb : Builder α) (L : Lits α) (special : α → Bool) (bins : List (Bin α)) (describe : Nat → Split α → Split α)
    (feature : Int) (tg th : α) (minData : Int) : Split α :=
  ((List.range (bins.length - 1)).foldl (hb.scanStep L special bins describe tg th minData) ⟨noSplit feature 0, 0, 0, 0⟩).best

/-- `FindBestSplitFromHistogram`: sklearn/lightgbm/histogram_optimization.go:289-336 -/
def Builder.findSplit (hb : Builder α) (L : Lits α) (special : α → Bool) (h : Hist α) (tg th : α) (minData : Int) : Split α :=
  hb.scan L special h.bins (fun i s => match h.bins[i]? with
    | some b => { s with threshold := b.hi }
    | none => s) h.feature tg th minData

/-- `FindBestCategoricalSplitFromHistogram`; `srt` sorts the bins by ratio, `ofNat` is `float64(n)`, `toInt` is `int(x)`:
sklearn/lightgbm/histogram_optimization.go:339-412 -/
def Builder.findCategorical (hb : Builder α) (L : Lits α) (special : α → Bool) (toInt : α → Int) (ofNat : Nat → α)
    (srt : List (Bin α) → List (Bin α)) (h : Hist α) (tg th : α) (minData : Int) : Split α :=
  if h.bins.length ≤ 1 then noSplit h.feature 0
  else
    let bins := srt h.bins
    hb.scan L special bins (fun i s => { s with
      threshold := ofNat (i + 1), leftCategories := (bins.take (i + 1)).map fun b => toInt b.lo }) h.feature tg th minData

/-- the loop over the features of `FindBestSplit`: sklearn/lightgbm/histogram_optimization.go:510-524 -/
def pickBest (minusOne : α) (splits : List (Split α)) : Split α :=
  splits.foldl (fun best s => if best.gain < s.gain then s else best) (noSplit (-1) minusOne)

/-- the final check of `FindBestSplit`: sklearn/lightgbm/histogram_optimization.go:526-531 -/
def finish (minGain : α) (best : Split α) : Split α := if best.gain < minGain then { best with gain := 0 } else best

/-- `HistogramSubtraction`: sklearn/lightgbm/histogram_optimization.go:458-478. Simplified: `Missing` left out. -/
def subtract (parent sibling : Hist α) : Outcome (Hist α) :=
  if sibling.bins.length < parent.bins.length then .panic "index out of range"
  else .ok ⟨parent.feature, List.zipWith (fun p s => ⟨p.lo, p.hi, p.count - s.count, p.grad - s.grad, p.hess - s.hess⟩)
    parent.bins sibling.bins, parent.bounds⟩

/-- `kahanAdd` with the compensation argument always zero, as called by `buildNodeHistogram`: sklearn/lightgbm/trainer.go:748-754 -/
def kahan (sum value comp : α) : α := sum + (value - comp)

end split

end Scigo.Hist
