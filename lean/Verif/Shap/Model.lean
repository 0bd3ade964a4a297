import Verif.LGB.Ensemble
import Mathlib.Data.List.Dedup

/-!
# SHAP values

Model of `sklearn/lightgbm/shap.go`. A recursion or loop that does not end in Go (a cyclic node array) is a panic here: more rounds than there are
nodes visit a node twice.
-/

set_option linter.unusedSectionVars false

namespace Scigo.Shap

open Scigo.LGB

variable {α : Type}

section
variable [LE α] [DecidableLE α] [LT α] [DecidableLT α] [Zero α] [Add α] [Sub α] [Neg α] [Mul α] [Div α]

/-- the child a sample value goes to: listed categories or `v <= threshold` go left, everything else, NaN included, right: sklearn/lightgbm/shap.go:202-217 -/
def next (toInt : α → Int) (n : Node α) (v : α) : Int :=
  if n.categories ≠ [] then (if n.categories.contains (toInt v) then n.left else n.right)
  else (if v ≤ n.threshold then n.left else n.right)

/-- `getTreePath`: the loop, from node `id` on: sklearn/lightgbm/shap.go:183-224 -/
def path (toInt : α → Int) (t : LGB.Tree α) (x : List α) : Nat → Int → Outcome (List Int)
  | 0, _ => .panic "does not terminate"
  | d + 1, id =>
    match t.nodeAt id with
    | none => .ok []
    | some n =>
      if n.kind = .leaf then .ok [id]
      else match featureAt x n.feature with
        | none => .ok [id]
        | some v => (path toInt t x d (next toInt n v)).map (id :: ·)

/-- `collectLeafValues`: sklearn/lightgbm/shap.go:90-107 -/
def leafValues (t : LGB.Tree α) : Nat → Int → Outcome (List α)
  | 0, _ => .panic "stack overflow"
  | d + 1, id =>
    match t.nodeAt id with
    | none => .ok []
    | some n =>
      if n.kind = .leaf then .ok [n.leafValue]
      else (leafValues t d n.left).bind fun l => (leafValues t d n.right).map (l ++ ·)

/-- `getTreeBaseline`; `ofNat` is the conversion to `float64`: sklearn/lightgbm/shap.go:68-87 -/
def baseline (ofNat : Nat → α) (t : LGB.Tree α) : Outcome α :=
  if t.nodes = [] then .ok 0
  else (leafValues t (t.nodes.length + 1) 0).map fun l => if l = [] then 0 else sumOver l id / ofNat l.length

/-- the features of the split nodes of a path that lie within the sample: sklearn/lightgbm/shap.go:161-170 -/
def pathFeatures (t : LGB.Tree α) (nF : Nat) (ids : List Int) : List Nat :=
  ids.filterMap fun id =>
    match t.nodeAt id with
    | none => none
    | some n => if n.kind ≠ .leaf ∧ 0 ≤ n.feature ∧ n.feature < nF then some n.feature.toNat else none

/-- `simpleTreeShap`. The entries of `featureCounts` are the distinct elements of `pathFeatures` with their multiplicities; the order of the iteration
over the map does not matter, every step changes another entry: sklearn/lightgbm/shap.go:133-180 -/
def treeShap (ofNat : Nat → α) (toInt : α → Int) (t : LGB.Tree α) (x : List α) : Outcome (List α) :=
  if t.nodes = [] then .ok (List.replicate x.length 0)
  else (path toInt t x (t.nodes.length + 1) 0).bind fun ids =>
    match ids.getLast? with
    | none => .ok (List.replicate x.length 0)
    | some last =>
      match t.nodeAt last with
      | none => .ok (List.replicate x.length 0)
      | some n => (baseline ofNat t).map fun b =>
        let fs := pathFeatures t x.length ids.dropLast
        (List.range x.length).map fun f =>
          if f ∈ fs then 0 + (n.leafValue - b) * ofNat (fs.count f) / ofNat fs.dedup.length else 0

/-- one tree's values added with the learning rate: sklearn/lightgbm/shap.go:123-126 -/
def addTree (lr : α) (acc s : List α) : List α := List.zipWith (fun a b => a + b * lr) acc s

/-- the loop of `calculateSampleSHAP` over the trees: sklearn/lightgbm/shap.go:115-127 -/
def overTrees (ofNat : Nat → α) (toInt : α → Int) (lr : α) (x : List α) : List (LGB.Tree α) → List α → Outcome (List α)
  | [], acc => .ok acc
  | t :: ts, acc =>
    if t.nodes = [] then overTrees ofNat toInt lr x ts acc
    else (treeShap ofNat toInt t x).bind fun s => overTrees ofNat toInt lr x ts (addTree lr acc s)

/-- `calculateSampleSHAP`: sklearn/lightgbm/shap.go:110-130 -/
def sampleShap (ofNat : Nat → α) (toInt : α → Int) (m : LGB.Model α) (x : List α) : Outcome (List α) :=
  overTrees ofNat toInt m.learningRate x m.trees (List.replicate x.length 0)

/-- `calculateBaseValue`: sklearn/lightgbm/shap.go:56-65 -/
def baseValue (m : LGB.Model α) : α := if m.trees = [] then 0 else m.initScore

/-- `CalculateSHAP`: the values row by row and the base value; `mat.NewDense` panics on a dimension 0: sklearn/lightgbm/shap.go:33-53 -/
def calculate (ofNat : Nat → α) (toInt : α → Int) (m : LGB.Model α) (X : Mat α) : Outcome (List (List α) × α) :=
  if X.r = 0 ∨ X.c = 0 then .panic "mat: zero length in matrix dimension"
  else (forRows X (sampleShap ofNat toInt m) X.r).map fun rows => (rows, baseValue m)

/-! ## Interactions -/

/-- `checkSubtreeFeatures`: sklearn/lightgbm/shap.go:343-364 -/
def subtreeUses (t : LGB.Tree α) (f g : Nat) : Nat → Int → Outcome (Bool × Bool)
  | 0, _ => .panic "stack overflow"
  | d + 1, id =>
    match t.nodeAt id with
    | none => .ok (false, false)
    | some n =>
      if n.kind = .leaf then .ok (false, false)
      else (subtreeUses t f g d n.left).bind fun l => (subtreeUses t f g d n.right).map fun r =>
        ((n.feature == f || l.1) || r.1, (n.feature == g || l.2) || r.2)

/-- `treeUsesFeatures`, which repeats the code of `checkSubtreeFeatures` for the root: sklearn/lightgbm/shap.go:317-340 -/
def treeUses (t : LGB.Tree α) (f g : Nat) : Outcome Bool :=
  (subtreeUses t f g (t.nodes.length + 1) 0).map fun u => u.1 && u.2

/-- `getNodeValue`, 0 for an index outside the array: sklearn/lightgbm/shap.go:227-234, 380-388 -/
def nodeValue (t : LGB.Tree α) (id : Int) : α :=
  match t.nodeAt id with
  | none => 0
  | some n => if n.kind = .leaf then n.leafValue else n.internalValue

/-- `math.Abs`: sklearn/lightgbm/shap.go:391 -/
def abs' (x : α) : α := if x < 0 then -x else x

/-- `treeInteractionContribution`; `tenth` is `0.1`. Unlike in `getTreePath` a split feature outside the sample panics: sklearn/lightgbm/shap.go:367-419 -/
def contribution (tenth : α) (toInt : α → Int) (t : LGB.Tree α) (x : List α) (f g : Nat) : Nat → Int → Outcome α
  | 0, _ => .panic "stack overflow"
  | d + 1, id =>
    match t.nodeAt id with
    | none => .ok 0
    | some n =>
      if n.kind = .leaf then .ok 0
      else match featureAt x n.feature with
        | none => .panic "index out of range"
        | some v =>
          let own := if n.feature = f ∨ n.feature = g then abs' (nodeValue t n.left - nodeValue t n.right) * tenth else 0
          match t.nodeAt (next toInt n v) with
          | none => .ok own
          | some _ => (contribution tenth toInt t x f g d (next toInt n v)).map (own + ·)

/-- the loop of `calculatePairwiseInteraction` over the trees: sklearn/lightgbm/shap.go:300-311 -/
def pairOver (tenth : α) (toInt : α → Int) (lr : α) (x : List α) (f g : Nat) : List (LGB.Tree α) → α → Outcome α
  | [], acc => .ok acc
  | t :: ts, acc =>
    if t.nodes = [] then pairOver tenth toInt lr x f g ts acc
    else (treeUses t f g).bind fun u =>
      if u then (contribution tenth toInt t x f g (t.nodes.length + 1) 0).bind fun c => pairOver tenth toInt lr x f g ts (acc + c * lr)
      else pairOver tenth toInt lr x f g ts acc

/-- `calculatePairwiseInteraction`: sklearn/lightgbm/shap.go:294-314 -/
def pairwise (tenth : α) (toInt : α → Int) (m : LGB.Model α) (x : List α) (f g : Nat) : Outcome α :=
  pairOver tenth toInt m.learningRate x f g m.trees 0

/-- `interaction.Set`: sklearn/lightgbm/shap.go:277-288 -/
def set (M : Nat → Nat → α) (i j : Nat) (v : α) : Nat → Nat → α := fun a b => if a = i ∧ b = j then v else M a b

/-- the inner loop, `j` and the number of rounds left: sklearn/lightgbm/shap.go:282-289 -/
def rowLoop (pw : Nat → Nat → Outcome α) (i : Nat) : Nat → Nat → (Nat → Nat → α) → Outcome (Nat → Nat → α)
  | 0, _, M => .ok M
  | k + 1, j, M => (pw i j).bind fun v => rowLoop pw i k (j + 1) (set (set M i j v) j i v)

/-- the outer loop for `n` features, `i` and the number of rounds left: sklearn/lightgbm/shap.go:281-290 -/
def pairLoop (pw : Nat → Nat → Outcome α) (n : Nat) : Nat → Nat → (Nat → Nat → α) → Outcome (Nat → Nat → α)
  | 0, _, M => .ok M
  | k + 1, i, M => (rowLoop pw i (n - (i + 1)) (i + 1) M).bind fun M' => pairLoop pw n k (i + 1) M'

/-- `calculateSampleInteractions`; the matrix starts with zeros: sklearn/lightgbm/shap.go:269-291 -/
def interactions (ofNat : Nat → α) (tenth : α) (toInt : α → Int) (m : LGB.Model α) (x : List α) : Outcome (Nat → Nat → α) :=
  (sampleShap ofNat toInt m x).bind fun s =>
    pairLoop (pairwise tenth toInt m x) x.length x.length 0
      ((List.range x.length).foldl (fun M i => set M i i (s.getD i 0)) fun _ _ => 0)

end

end Scigo.Shap
