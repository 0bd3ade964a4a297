import Verif.Base.Outcome
import Verif.Base.Mat
import Verif.Base.Sort

/-!
# Decision tree classifier

Model of `sklearn/tree/tree.go`; `SetParams` and `GetParams` are in `Verif.Settings`, the options in `Verif.Options` (here the
parameters are a record). Not modelled: `maxFeatures`, `maxLeafNodes` and `randomState` (stored, never used by
the code), and the state manager beyond its fitted flag.
-/

namespace Scigo.Tree

variable {α : Type _}

/-- Hyper-parameters that influence the tree (`sklearn/tree/tree.go:33-39`). -/
structure Params (α : Type _) where
  criterion : String
  maxDepth : Int
  minSamplesSplit : Int
  minSamplesLeaf : Int
  minImpurityDecrease : α

/-- What every node records (`sklearn/tree/tree.go:14-26`: `ClassCounts`, `PredictClass`,
`Impurity`, `NSamples`, `Depth`). -/
structure Info (α : Type _) where
  counts : List Nat
  predictClass : Nat
  impurity : α
  nSamples : Nat
  depth : Nat
  deriving DecidableEq, Repr

/-- `TreeNode` (`sklearn/tree/tree.go:14-26`): a leaf (`IsLeaf`), or a split with two children.
Simplified: the unused `Value` field is dropped. -/
inductive DTree (α : Type _)
  | leaf (info : Info α)
  | split (info : Info α) (feature : Nat) (threshold : α) (left right : DTree α)
  deriving DecidableEq, Repr

/-- one training row: its features (`X.At(i, ·)`) and class index (`yIndices[i]`)
(`sklearn/tree/tree.go:136-145`) -/
abbrev Sample (α : Type _) := (Nat → α) × Nat

section
variable [Add α] [Sub α] [Mul α] [Div α] [Zero α] [One α] [NatCast α]
  [LT α] [LE α] [DecidableLT α] [DecidableLE α] [BEq α]

/-- per-class counts (`sklearn/tree/tree.go:181-185`) -/
def classCounts (nClasses : Nat) (S : List (Sample α)) : List Nat :=
  S.foldl (fun c s => c.modify s.2 (· + 1)) (List.replicate nClasses 0)

/-- majority class: first index whose count beats all before (`sklearn/tree/tree.go:187-195`) -/
def majority (counts : List Nat) : Nat :=
  (counts.zipIdx.foldl (fun (b : Nat × Nat) p => if b.1 < p.1 then (p.1, p.2) else b) (0, 0)).2

/-- impurity of a node (`sklearn/tree/tree.go:271-317`); any criterion but `"entropy"` is Gini.
`log2` stands for `math.Log2`. -/
def impurity (log2 : α → α) (criterion : String) (counts : List Nat) : α :=
  let total : Nat := counts.foldl (· + ·) 0
  if total = 0 then 0
  else if criterion = "entropy" then
    counts.foldl (fun (acc : α) (c : Nat) =>
      if 0 < c then
        let p : α := (c : α) / (total : α)
        acc - p * log2 p
      else acc) 0
  else
    1 - counts.foldl (fun (acc : α) (c : Nat) =>
      if 0 < c then
        let p : α := (c : α) / (total : α)
        acc + p * p
      else acc) 0

/-- stopping criteria (`sklearn/tree/tree.go:251-268`) -/
def shouldStop (P : Params α) (n : Nat) (imp : α) (depth : Nat) : Bool :=
  (decide (0 < P.maxDepth) && decide (P.maxDepth ≤ (depth : Int)))
    || decide ((n : Int) < P.minSamplesSplit) || imp == 0

/-- state of the search for a split: best feature (`none` for -1), threshold, decrease
(`sklearn/tree/tree.go:322-324`) -/
abbrev Best (α : Type _) := Option Nat × α × α

/-- counts on both sides of a threshold (`sklearn/tree/tree.go:356-369`):
left counts, right counts, left size, right size -/
def sideCounts (nClasses : Nat) (S : List (Sample α)) (feature : Nat) (threshold : α) :
    List Nat × List Nat × Nat × Nat :=
  S.foldl (fun (a : List Nat × List Nat × Nat × Nat) s =>
    if s.1 feature ≤ threshold then (a.1.modify s.2 (· + 1), a.2.1, a.2.2.1 + 1, a.2.2.2)
    else (a.1, a.2.1.modify s.2 (· + 1), a.2.2.1, a.2.2.2 + 1))
    (List.replicate nClasses 0, List.replicate nClasses 0, 0, 0)

/-- impurity decrease of splitting `S` (`sklearn/tree/tree.go:377-381`) -/
def decrease (log2 : α → α) (P : Params α) (parent : α) (n : Nat)
    (a : List Nat × List Nat × Nat × Nat) : α :=
  parent - ((a.2.2.1 : α) * impurity log2 P.criterion a.1
    + (a.2.2.2 : α) * impurity log2 P.criterion a.2.1) / (n : α)

/-- one candidate threshold between two neighbours in sorted order
(`sklearn/tree/tree.go:347-387`) -/
def tryThreshold (log2 : α → α) (P : Params α) (nClasses : Nat) (S : List (Sample α)) (parent : α)
    (feature : Nat) (best : Best α) (v : α × α) : Best α :=
  if v.1 == v.2 then best
  else
    let threshold := (v.1 + v.2) / ((2 : Nat) : α)
    let a := sideCounts nClasses S feature threshold
    if (a.2.2.1 : Int) < P.minSamplesLeaf ∨ (a.2.2.2 : Int) < P.minSamplesLeaf then best
    else
      let d := decrease log2 P parent S.length a
      if best.2.2 < d then (some feature, threshold, d) else best

/-- values of a feature in sorted order (`sklearn/tree/tree.go:327-340`); `srt` stands for
`sort.Slice` of the row indices by value -/
def sortedValues (srt : (Nat → α) → List Nat → List Nat) (S : List (Sample α)) (feature : Nat) :
    List α :=
  let values := S.map (fun s => s.1 feature)
  (srt (fun i => values.getD i 0) (List.range S.length)).map (fun i => values.getD i 0)

/-- best feature and threshold (`sklearn/tree/tree.go:320-392`) -/
def findBestSplit (log2 : α → α) (srt : (Nat → α) → List Nat → List Nat) (P : Params α)
    (nClasses nFeatures : Nat) (S : List (Sample α)) (parent : α) : Best α :=
  (List.range nFeatures).foldl (fun best feature =>
    let vs := sortedValues srt S feature
    (vs.zip vs.tail).foldl (tryThreshold log2 P nClasses S parent feature) best) (none, 0, 0)

/-- node before its children are known (`sklearn/tree/tree.go:181-207`) -/
def mkInfo (log2 : α → α) (P : Params α) (nClasses : Nat) (S : List (Sample α)) (depth : Nat) :
    Info α :=
  let counts := classCounts nClasses S
  ⟨counts, majority counts, impurity log2 P.criterion counts, S.length, depth⟩

/-- rows going left / right (`sklearn/tree/tree.go:395-430`) -/
def leftOf (S : List (Sample α)) (feature : Nat) (threshold : α) : List (Sample α) :=
  S.filter (fun s => decide (s.1 feature ≤ threshold))

/-- see `leftOf` (`sklearn/tree/tree.go:395-430`) -/
def rightOf (S : List (Sample α)) (feature : Nat) (threshold : α) : List (Sample α) :=
  S.filter (fun s => !decide (s.1 feature ≤ threshold))

/-- Build a tree; the importances are threaded through (`sklearn/tree/tree.go:178-248`).
`none` means the recursion was cut off by the fuel; `mat.NewDense(0, …)` panics, and so does
`getSubset` on an empty side (`sklearn/tree/tree.go:416`). -/
def build (log2 : α → α) (srt : (Nat → α) → List Nat → List Nat) (P : Params α)
    (nClasses nFeatures : Nat) : Nat → List (Sample α) → Nat → List α →
    Option (Outcome (DTree α × List α))
  | 0, _, _, _ => none
  | fuel + 1, S, depth, imps =>
    let info := mkInfo log2 P nClasses S depth
    if shouldStop P S.length info.impurity depth then some (.ok (.leaf info, imps))
    else
      match findBestSplit log2 srt P nClasses nFeatures S info.impurity with
      | (none, _, _) => some (.ok (.leaf info, imps))
      | (some f, thr, d) =>
        if d < P.minImpurityDecrease then some (.ok (.leaf info, imps))
        else
          let L := leftOf S f thr
          let R := rightOf S f thr
          if (L.length : Int) < P.minSamplesLeaf ∨ (R.length : Int) < P.minSamplesLeaf then
            some (.ok (.leaf info, imps))
          else
            let imps' := imps.modify f (· + d * (S.length : α))
            if L.length = 0 ∨ R.length = 0 then some (.panic "mat: zero length in matrix dimension")
            else
              match build log2 srt P nClasses nFeatures fuel L (depth + 1) imps' with
              | some (.ok (l, imps1)) =>
                match build log2 srt P nClasses nFeatures fuel R (depth + 1) imps1 with
                | some (.ok (r, imps2)) => some (.ok (.split info f thr l r, imps2))
                | o => o
              | o => o

/-- `normalizeFeatureImportances` (`sklearn/tree/tree.go:433-444`) -/
def normalize (imps : List α) : List α :=
  let sum := imps.foldl (· + ·) 0
  if 0 < sum then imps.map (· / sum) else imps

/-- The estimator: learned part and fitted flag (`sklearn/tree/tree.go:29-50`). -/
structure Clf (α : Type _) where
  fitted : Bool
  tree : Option (DTree α)
  nFeatures : Nat
  classes : List Int
  importances : Option (List α)

/-- `NewDecisionTreeClassifier` (`sklearn/tree/tree.go:56-75`) -/
def Clf.new : Clf α := ⟨false, none, 0, [], none⟩

/-- `extractClasses` (`sklearn/tree/tree.go:158-175`): distinct labels, sorted. `iter` stands for
ranging over the map; `sort.Ints` is insertion sort (sorting integers has one result). -/
def extractClasses (toInt : α → Int) (iter : List Int → List Int) (y : Mat α) : List Int :=
  (iter ((List.range y.r).map (fun i => toInt (y.at' i 0)))).insertionSort (· ≤ ·)

/-- the samples: rows with class indices (`sklearn/tree/tree.go:135-145`; an absent label
would keep index 0) -/
def samples (toInt : α → Int) (classes : List Int) (X y : Mat α) : List (Sample α) :=
  (List.range X.r).map (fun i =>
    (fun j => X.at' i j, (classes.idxOf? (toInt (y.at' i 0))).getD 0))

/-- `Fit` (`sklearn/tree/tree.go:115-155`). `none`: out of fuel. Simplified: after a panic the
state is left as before (the code has replaced classes and width by then); `err` does not arise. -/
def Clf.fit (log2 : α → α) (toInt : α → Int) (srt : (Nat → α) → List Nat → List Nat)
    (iter : List Int → List Int) (P : Params α) (fuel : Nat) (X y : Mat α) (t : Clf α) :
    Option (Clf α × Outcome Unit) :=
  if X.r ≠ y.r then some (t, .err (.other "x and y must have same number of samples"))
  else if y.c ≠ 1 then some (t, .err (.other "y must be a column vector"))
  else
    let classes := extractClasses toInt iter y
    let S := samples toInt classes X y
    match build log2 srt P classes.length X.c fuel S 0 (List.replicate X.c 0) with
    | none => none
    | some (.ok (root, imps)) =>
      some (⟨true, some root, X.c, classes, some (normalize imps)⟩, .ok ())
    | some (.err e) => some (t, .err e)
    | some (.panic v) => some (t, .panic v)

/-- walk down to a leaf (`sklearn/tree/tree.go:458-465`); `cols` is the width of the query,
`X.At` beyond it panics -/
def DTree.descend (cols : Nat) (x : Nat → α) : DTree α → Outcome (Info α)
  | .leaf info => .ok info
  | .split _ f thr l r =>
    if f < cols then
      if x f ≤ thr then l.descend cols x else r.descend cols x
    else .panic "mat: column index out of range"

/-- one predicted label (`sklearn/tree/tree.go:456-468`) -/
def Clf.predictRow (root : DTree α) (classes : List Int) (cols : Nat) (x : Nat → α) : Outcome Int :=
  (root.descend cols x).bind (fun info =>
    match classes[info.predictClass]? with
    | some c => .ok c
    | none => .panic "index out of range")

/-- rows one after the other, stopping at the first panic (`sklearn/tree/tree.go:455-469`) -/
def rowsM {β : Type _} (f : Nat → Outcome β) : Nat → Outcome (List β)
  | 0 => .ok []
  | n + 1 => (rowsM f n).bind (fun l => (f n).bind (fun b => .ok (l ++ [b])))

/-- `Predict` (`sklearn/tree/tree.go:447-472`), as a list of labels; `mat.NewDense(0, 1)` panics -/
def Clf.predict (t : Clf α) (X : Mat α) : Outcome (List Int) :=
  if t.fitted = false then .err (.other "model must be fitted before prediction")
  else if X.r = 0 then .panic "mat: zero length in matrix dimension"
  else match t.tree with
    | none => .panic "nil pointer dereference"
    | some root => rowsM (fun i => Clf.predictRow root t.classes X.c (X.at' i)) X.r

/-- one row of probabilities (`sklearn/tree/tree.go:495-505`); entries of a leaf without samples
stay 0 -/
def probaRow (nClasses : Nat) (counts : List Nat) : List α :=
  let total : Nat := counts.foldl (· + ·) 0
  (List.range nClasses).map (fun j =>
    if 0 < total then ((counts.getD j 0 : Nat) : α) / (total : α) else 0)

/-- `PredictProba` (`sklearn/tree/tree.go:475-509`); `mat.NewDense` with a zero dimension panics -/
def Clf.predictProba (t : Clf α) (X : Mat α) : Outcome (List (List α)) :=
  if t.fitted = false then .err (.other "model must be fitted before prediction")
  else if X.r = 0 ∨ t.classes.length = 0 then .panic "mat: zero length in matrix dimension"
  else match t.tree with
    | none => .panic "nil pointer dereference"
    | some root => rowsM (fun i => (root.descend X.c (X.at' i)).map
        (fun info => probaRow t.classes.length info.counts)) X.r

/-- `getMaxDepth` (`sklearn/tree/tree.go:592-604`) on an existing node -/
def DTree.maxDepth : DTree α → Nat
  | .leaf info => info.depth
  | .split _ _ _ l r => if r.maxDepth < l.maxDepth then l.maxDepth else r.maxDepth

/-- `GetDepth` (`sklearn/tree/tree.go:584-589`) -/
def Clf.getDepth (t : Clf α) : Nat := match t.tree with
  | none => 0
  | some root => root.maxDepth

/-- `countLeaves` (`sklearn/tree/tree.go:615-623`) -/
def DTree.nLeaves : DTree α → Nat
  | .leaf _ => 1
  | .split _ _ _ l r => l.nLeaves + r.nLeaves

/-- `GetNLeaves` (`sklearn/tree/tree.go:607-612`) -/
def Clf.getNLeaves (t : Clf α) : Nat := match t.tree with
  | none => 0
  | some root => root.nLeaves

/-- `Score` (`sklearn/tree/tree.go:512-528`): 0 when `Predict` fails, a panic goes through.
Labels are compared as `float64(class) == y.At(i, 0)`; a missing label panics. -/
def Clf.score [IntCast α] (t : Clf α) (X y : Mat α) : Outcome α :=
  match t.predict X with
  | .err _ => .ok 0
  | .panic v => .panic v
  | .ok p =>
    if y.r < X.r ∨ (y.c = 0 ∧ 0 < X.r) then .panic "mat: row or column index out of range" else
    let correct := (List.range X.r).countP (fun i => ((p.getD i 0 : Int) : α) == y.at' i 0)
    .ok ((correct : α) / (X.r : α))

end

end Scigo.Tree
