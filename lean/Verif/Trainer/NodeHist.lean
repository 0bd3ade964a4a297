import Verif.Trainer.Mono

/-!
# The trainer's own histograms

Model of `buildHistograms`, `findQuantileBinBoundaries`, `findBinIndex`, `buildNodeHistogram` and `subtractHistogram` of
`trainer.go`. `Fit` runs the first for every feature, and `buildNodeHistogram` for every node it tries to split; the splits themselves
come from the histogram builder (`Verif/Trainer/Grow.lean`), so that what is seen of these histograms from outside is that they
can panic. `findBestSplitWithHistogram` (`Verif/Trainer/Mono.lean`) searches them.
-/

set_option linter.unusedSectionVars false

namespace Scigo.Trainer

variable {α : Type}

section
variable [DecidableEq α] [LT α] [DecidableLT α] [LE α] [DecidableLE α] [Zero α] [One α] [Add α] [Sub α] [Div α]

/-- a bound between `unique[q]` and its successor; `two` is the literal 2: sklearn/lightgbm/trainer.go:781, 793-797 -/
def midBound (two : α) (u : List α) (q : Nat) : α :=
  if q < u.length - 1 then (u.getD q 0 + u.getD (q + 1) 0) / two else u.getD q 0

/-- the bounds around all values with inner bounds at the given places; `eps` is 1e-10: sklearn/lightgbm/trainer.go:778-784, 788-799 -/
def boundsAt (eps two : α) (u : List α) (places : List Nat) : List α :=
  (u.getD 0 0 - eps) :: (places.map (midBound two u) ++ [u.getD (u.length - 1) 0 + eps])

/-- `findQuantileBinBoundaries`: sklearn/lightgbm/trainer.go:763-802 (`findOptimalBinBoundaries`, 757-760, only calls it). The sort is a
parameter; `unique[0]` of no values, a negative length and `bounds[0]` of an empty slice panic. -/
def binBoundaries (eps two : α) (srt : List α → List α) (maxBin : Int) (values : List α) : Outcome (List α) :=
  if values.length = 0 then .panic "index out of range"
  else
    let u := Hist.uniq (srt values)
    if (u.length : Int) ≤ maxBin then .ok (boundsAt eps two u (List.range (u.length - 1)))
    else if maxBin + 1 < 0 then .panic "makeslice: len out of range"
    else if maxBin + 1 = 0 then .panic "index out of range"
    else if maxBin = 0 then .ok [u.getD (u.length - 1) 0 + eps]
    else .ok (boundsAt eps two u ((List.range (maxBin.toNat - 1)).map fun i => (u.length - 1) * (i + 1) / maxBin.toNat))

/-- the bins of one feature: sklearn/lightgbm/trainer.go:622-646 -/
def featureBins (eps two : α) (srt : List α → List α) (maxBin : Int) (values : List α) : Outcome (List (Hist.Bin α)) :=
  (binBoundaries eps two srt maxBin values).map fun b => (Hist.emptyBins b).take maxBin.toNat

/-- the bins of the features from `j` on, `k` of them: sklearn/lightgbm/trainer.go:621-647 -/
def binsFrom (eps two : α) (srt : List α → List α) (maxBin : Int) (rows : Nat) (x : Nat → Nat → α) : Nat → Nat → Outcome (List (List (Hist.Bin α)))
  | _, 0 => .ok []
  | j, k + 1 => (featureBins eps two srt maxBin ((List.range rows).map fun i => x i j)).bind fun bs =>
      (binsFrom eps two srt maxBin rows x (j + 1) k).map (bs :: ·)

/-- `buildHistograms`: sklearn/lightgbm/trainer.go:609-650. Simplified: without `histPool`, which nothing reads. -/
def buildHistograms (eps two : α) (srt : List α → List α) (maxBin : Int) (rows cols : Nat) (x : Nat → Nat → α) :
    Outcome (List (List (Hist.Bin α))) := binsFrom eps two srt maxBin rows x 0 cols

/-- `findBinIndex` in the bins of a feature: sklearn/lightgbm/trainer.go:725-744. Every bin has two bounds (641); the feature is one of
those binned. -/
def findBin (v : α) (bins : List (Hist.Bin α)) : Int :=
  match bins.findIdx? (fun b => decide (b.lo ≤ v ∧ v < b.hi)) with
  | some i => i
  | none => match bins.getLast? with
    | some b => if v = b.hi then (bins.length : Int) - 1 else -1
    | none => -1

/-- one row in its bin, with `kahanAdd` and the compensation 0, which is never stored: sklearn/lightgbm/trainer.go:685-691, 747-753 -/
def addKahan (g h : α) (b : Hist.Bin α) : Hist.Bin α :=
  { b with count := b.count + 1, grad := Hist.kahan b.grad g 0, hess := Hist.kahan b.hess h 0 }

/-- one row into the bins of one feature: sklearn/lightgbm/trainer.go:682-692 -/
def addToBins (template : List (Hist.Bin α)) (v g h : α) (bins : List (Hist.Bin α)) : List (Hist.Bin α) :=
  if 0 ≤ findBin v template ∧ findBin v template < bins.length then bins.modify (findBin v template).toNat (addKahan g h) else bins

/-- `NodeHistogram`: sklearn/lightgbm/trainer.go:163-168 -/
structure NodeHist (α : Type) where
  feats : List (List (Hist.Bin α))
  totalGrad : α
  totalHess : α
  count : Int
  deriving DecidableEq

/-- `buildNodeHistogram` for the bins `T` of `buildHistograms`: sklearn/lightgbm/trainer.go:653-696. Simplified: the features one after
the other, each over all rows; they do not touch each other. -/
def nodeHistogram (T : List (List (Hist.Bin α))) (x : Nat → Nat → α) (g h : Nat → α) (indices : List Nat) : NodeHist α where
  feats := T.mapIdx fun j t => indices.foldl (fun bins i => addToBins t (x i j) (g i) (h i) bins) t
  totalGrad := indices.foldl (fun s i => Hist.kahan s (g i) 0) 0
  totalHess := indices.foldl (fun s i => Hist.kahan s (h i) 0) 0
  count := indices.length

/-- the difference of two bins: sklearn/lightgbm/trainer.go:713-718 -/
def subBin (p s : Hist.Bin α) : Hist.Bin α := ⟨p.lo, p.hi, p.count - s.count, p.grad - s.grad, p.hess - s.hess⟩

/-- `subtractHistogram`: sklearn/lightgbm/trainer.go:699-722; reading a feature or bin the sibling does not have panics -/
def NodeHist.sub (parent sibling : NodeHist α) : Outcome (NodeHist α) :=
  if sibling.feats.length < parent.feats.length ∨
      ∃ j ∈ List.range parent.feats.length, (sibling.feats.getD j []).length < (parent.feats.getD j []).length then .panic "index out of range"
  else .ok ⟨List.zipWith (List.zipWith subBin) parent.feats sibling.feats, parent.totalGrad - sibling.totalGrad,
    parent.totalHess - sibling.totalHess, parent.count - sibling.count⟩

end
end Scigo.Trainer
