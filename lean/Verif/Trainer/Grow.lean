import Verif.Hist.Model
import Verif.LGB.Tree

/-!
# Growing one tree

Model of `buildTreeWithSamples`, `buildNode` and what they call (`sklearn/lightgbm/trainer.go:1005-1140`, `1262-1295`,
`1361-1381`; `sklearn/lightgbm/categorical.go`; `FindBestSplit` of `sklearn/lightgbm/histogram_optimization.go:499-534`;
`ApplyLeafRegularization` of `sklearn/lightgbm/trainer_params.go`). The recursion of `buildNode` is bounded by a number: `none`
means that it goes deeper. A run of the code that never ends overflows the stack. `buildNodeHistogram`, whose result nothing
reads, is left out. `NodeID`, `ParentID` and `TreeIndex` are left out, as in `LGB/Tree.lean`.
-/

set_option linter.unusedSectionVars false

namespace Scigo.Trainer

open Scigo.LGB (Node Tree NodeKind)

variable {α : Type}

/-- the training parameters that limit a tree: sklearn/lightgbm/trainer.go:80-91. `goss` holds `gossTopRate` and `gossOtherRate` when
`strings.ToLower(BoostingType)` is `"goss"`. -/
structure Limits (α : Type) where
  maxDepth : Int
  numLeaves : Int
  minData : Int
  minGain : α
  goss : Option (α × α)

/-- `adjustedMinDataInLeaf`; `scale n r` is `int(float64(n) * r)`: sklearn/lightgbm/trainer.go:1029-1044 -/
def Limits.adjusted [LT α] [DecidableLT α] [Zero α] [Add α] (scale : Int → α → Int) (p : Limits α) : Int :=
  match p.goss with
  | none => p.minData
  | some (top, other) =>
    if 0 < top ∧ 0 < other then
      if scale p.minData (top + other) < 1 then 1 else scale p.minData (top + other)
    else p.minData

/-- what `buildNode` uses of the trainer: the limits, the adjusted minimum, the split finder, the leaf value, the matrix
(row, feature), the categorical features, `int(x)` and `getCategoriesForSplit` (sklearn/lightgbm/trainer.go:1026-1060) -/
structure Grower (α : Type) where
  lim : Limits α
  adjusted : Int
  find : List Nat → Hist.Split α
  leaf : List Nat → α
  x : Nat → Nat → α
  categorical : List Int
  toInt : α → Int
  fallback : List Nat → Hist.Split α → List Int

section grow
variable [LT α] [DecidableLT α] [LE α] [DecidableLE α] [Zero α]

/-- a leaf as `buildNode` appends it: sklearn/lightgbm/trainer.go:1053-1060, 1080-1087 -/
def leafNode (v : α) : Node α := ⟨-1, -1, .leaf, 0, 0, [], false, 0, v, 0, 0, 0⟩

/-- `isCategoricalFeature`: sklearn/lightgbm/categorical.go:29-36 -/
def Grower.isCat (G : Grower α) (f : Int) : Bool := G.categorical.contains f

/-- the left categories of a split: sklearn/lightgbm/trainer.go:1095-1104 -/
def Grower.categories (G : Grower α) (indices : List Nat) (s : Hist.Split α) : List Int :=
  if G.isCat s.feature then
    if 0 < s.leftCategories.length then s.leftCategories else G.fallback indices s
  else []

/-- an internal node as `buildNode` appends it, its children not yet known (zero): sklearn/lightgbm/trainer.go:1106-1114 -/
def Grower.splitNode (G : Grower α) (indices : List Nat) (s : Hist.Split α) : Node α :=
  ⟨0, 0, if G.isCat s.feature then .categorical else .numerical, s.feature, s.threshold, G.categories indices s, false, s.gain, 0, 0, 0, 0⟩

/-- the side of a row; `X.At` with a column outside the matrix panics, which no split finder here causes: sklearn/lightgbm/trainer.go:1266-1267,
sklearn/lightgbm/categorical.go:43-44 -/
def Grower.goesLeft (G : Grower α) (indices : List Nat) (s : Hist.Split α) (i : Nat) : Bool :=
  if G.isCat s.feature then (G.categories indices s).contains (G.toInt (G.x i s.feature.toNat))
  else decide (G.x i s.feature.toNat ≤ s.threshold)

/-- `splitData` and `splitCategoricalData`, left part: sklearn/lightgbm/trainer.go:1262-1275, sklearn/lightgbm/categorical.go:39-53 -/
def Grower.leftOf (G : Grower α) (indices : List Nat) (s : Hist.Split α) : List Nat :=
  indices.filter fun i => G.goesLeft indices s i

/-- `splitData` and `splitCategoricalData`, right part: sklearn/lightgbm/trainer.go:1262-1275, sklearn/lightgbm/categorical.go:39-53 -/
def Grower.rightOf (G : Grower α) (indices : List Nat) (s : Hist.Split α) : List Nat :=
  indices.filter fun i => !G.goesLeft indices s i

/-- `countLeavesInTree`: sklearn/lightgbm/trainer.go:1372-1380 -/
def countLeavesInTree (nodes : List (Node α)) : Nat :=
  nodes.countP fun n => decide (n.kind = .leaf) || (n.left == -1 && n.right == -1)

/-- `countLeaves`: sklearn/lightgbm/trainer.go:1361-1369 -/
def countLeaves (nodes : List (Node α)) : Nat := nodes.countP fun n => decide (n.kind = .leaf)

/-- the stopping conditions: sklearn/lightgbm/trainer.go:1047-1050 -/
def Grower.stops (G : Grower α) (leaves : Nat) (indices : List Nat) (depth : Nat) : Bool :=
  (decide (0 < G.lim.maxDepth) && decide (G.lim.maxDepth ≤ depth)) || decide ((indices.length : Int) < G.adjusted) ||
    (decide (0 < G.lim.numLeaves) && decide (G.lim.numLeaves - 1 ≤ leaves))

/-- the split is not good enough: sklearn/lightgbm/trainer.go:1072 -/
def Grower.refuses (G : Grower α) (s : Hist.Split α) : Bool := decide (s.feature = -1) || decide (s.gain < G.lim.minGain)

/-- `buildNode`, with at most the given number of nested calls: the nodes of the tree afterwards and the index of the node
built: sklearn/lightgbm/trainer.go:1026-1139 -/
def Grower.buildNode (G : Grower α) : Nat → List (Node α) → List Nat → Nat → Option (List (Node α) × Nat)
  | 0, _, _, _ => none
  | fuel + 1, nodes, indices, depth =>
    if G.stops (countLeavesInTree nodes) indices depth then some (nodes ++ [leafNode (G.leaf indices)], nodes.length)
    else if G.refuses (G.find indices) then some (nodes ++ [leafNode (G.leaf indices)], nodes.length)
    else
      match G.buildNode fuel (nodes ++ [G.splitNode indices (G.find indices)]) (G.leftOf indices (G.find indices)) (depth + 1) with
      | none => none
      | some (nodes₁, l) =>
        match G.buildNode fuel nodes₁ (G.rightOf indices (G.find indices)) (depth + 1) with
        | none => none
        | some (nodes₂, r) => some (nodes₂.modify nodes.length (fun n => { n with left := l, right := r }), nodes.length)

/-- `buildTreeWithSamples`: sklearn/lightgbm/trainer.go:1005-1023 -/
def Grower.buildTree (G : Grower α) (learningRate : α) (fuel : Nat) (indices : List Nat) : Option (Tree α) :=
  match G.buildNode fuel [] indices 0 with
  | none => none
  | some (nodes, _) => some ⟨nodes, [], countLeaves nodes, learningRate, 0⟩

end grow

section concrete
variable [DecidableEq α] [LT α] [DecidableLT α] [LE α] [DecidableLE α] [Zero α] [One α] [Add α] [Sub α] [Neg α] [Mul α] [Div α]

/-- `ApplyLeafRegularization`: sklearn/lightgbm/trainer_params.go:140-158 -/
def leafValue (eps l1 l2 sumGrad sumHess : α) : α :=
  let denominator := sumHess + l2 + eps
  if 0 < l1 then
    if l1 < sumGrad then -(sumGrad - l1) / denominator
    else if sumGrad < -l1 then -(sumGrad + l1) / denominator
    else 0
  else -sumGrad / denominator

/-- `calculateLeafValue`: sklearn/lightgbm/trainer.go:1278-1294 -/
def calculateLeafValue (eps l1 l2 : α) (g h : Nat → α) (indices : List Nat) : α :=
  leafValue eps l1 l2 (sumOver indices g) (sumOver indices h)

/-- library functions and literals used by the split finder: `sort.Float64s`, the order of map iteration, `sort.Slice` by
category and by ratio, `int(x)`, `float64(n)`, `IsInf || IsNaN`, `int(float64(n) * r)` (sklearn/lightgbm/trainer.go:1140-1260) -/
structure Lib (α : Type) where
  lits : Hist.Lits α
  eps : α
  special : α → Bool
  srt : List α → List α
  iter : List (Hist.Cat α) → List (Hist.Cat α)
  byCategory : List (Hist.Cat α) → List (Hist.Cat α)
  byRatio : List (Hist.Bin α) → List (Hist.Bin α)
  catByRatio : List (Hist.Cat α) → List (Hist.Cat α)
  toInt : α → Int
  ofInt : Int → α
  scale : Int → α → Int

/-- the training set as the tree sees it (sklearn/lightgbm/trainer.go:1140-1260) -/
structure Data (α : Type) where
  cols : Nat
  x : Nat → Nat → α
  g : Nat → α
  h : Nat → α

/-- the split found for one feature: sklearn/lightgbm/histogram_optimization.go:91-97, 511-519 -/
def featureSplit (lib : Lib α) (hb : Hist.Builder α) (categorical : List Int) (minData : Int) (D : Data α) (indices : List Nat)
    (j : Nat) : Hist.Split α :=
  if categorical.contains (j : Int) then
    hb.findCategorical lib.lits lib.special lib.toInt (fun n => lib.ofInt n) lib.byRatio
      (Hist.buildCategorical lib.toInt lib.ofInt lib.iter lib.byCategory j (fun i => D.x i j) D.g D.h indices)
      (sumOver indices D.g) (sumOver indices D.h) minData
  else
    hb.findSplit lib.lits lib.special (Hist.buildContinuous lib.lits lib.srt hb.maxBin j (fun i => D.x i j) D.g D.h indices)
      (sumOver indices D.g) (sumOver indices D.h) minData

/-- `FindBestSplit`: sklearn/lightgbm/histogram_optimization.go:499-534 -/
def findBestSplit (lib : Lib α) (hb : Hist.Builder α) (categorical : List Int) (minData : Int) (minGain : α) (D : Data α)
    (indices : List Nat) : Hist.Split α :=
  Hist.finish minGain (Hist.pickBest (-1) ((List.range D.cols).map (featureSplit lib hb categorical minData D indices)))

/-- `getCategoriesForSplit`; a negative count would panic, but the threshold of a categorical split is a count:
sklearn/lightgbm/categorical.go:56-105 -/
def getCategories (lib : Lib α) (D : Data α) (indices : List Nat) (s : Hist.Split α) : List Int :=
  let cats := lib.catByRatio (lib.iter (Hist.catStats lib.toInt (fun i => D.x i s.feature.toNat) D.g D.h indices))
  let n := lib.toInt s.threshold
  match decide (n = 1), cats with
  | true, c :: _ => [c.category]
  | _, _ => (List.range n.toNat).map fun i => (cats[i]?.map (·.category)).getD 0

/-- the trainer in one iteration: sklearn/lightgbm/trainer.go:187-237, 1005-1140 -/
def grower (lib : Lib α) (hb : Hist.Builder α) (lim : Limits α) (categorical : List Int) (D : Data α) : Grower α where
  lim := lim
  adjusted := lim.adjusted lib.scale
  find := findBestSplit lib hb categorical lim.minData lim.minGain D
  leaf := calculateLeafValue lib.eps hb.alpha hb.lambda D.g D.h
  x := D.x
  categorical := categorical
  toInt := lib.toInt
  fallback := getCategories lib D

end concrete

end Scigo.Trainer
