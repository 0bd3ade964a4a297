import Verif.LGB.Ensemble
import Verif.LGB.Leaves

/-!
# The dump of a booster, and leaf numbers and raw scores of loaded models

Model of `DumpModel` (`sklearn/lightgbm/api/booster.go:324-423`), of reading a file written with save type `json`
(`sklearn/lightgbm/json_loader.go`) and of the methods of `LeavesModel` in `sklearn/lightgbm/predictor_extended.go`.
-/

set_option linter.unusedSectionVars false

namespace Scigo.LGB

variable {α : Type _}

/-- a dumped node (`sklearn/lightgbm/api/booster.go:377-423`): the map of a leaf or of a split, the map of a tree without
nodes, `null` for a nil map, `absent` for a missing key -/
inductive Dump (α : Type _)
  | absent
  | null
  | values (leafValue : List α)
  | leaf (index : Int) (value : α) (count : Int)
  | split (index feature : Int) (gain threshold : α) (defaultLeft : Bool) (internalValue : α) (internalCount : Int)
      (left right : Dump α)

/-- `dumpNode` (`sklearn/lightgbm/api/booster.go:390-423`) with bounded recursion depth; `none`: deeper (a Go run on a
cyclic tree overflows the stack) -/
def Tree.dumpNode (t : Tree α) : Nat → Int → Option (Dump α)
  | 0, _ => none
  | fuel + 1, id =>
    match t.nodeAt id with
    | none => some .null
    | some n =>
      if n.isLeaf then some (.leaf id n.leafValue n.leafCount)
      else
        match (if n.left ≥ 0 then t.dumpNode fuel n.left else some .absent) with
        | none => none
        | some l =>
          match (if n.right ≥ 0 then t.dumpNode fuel n.right else some .absent) with
          | none => none
          | some r => some (.split id n.feature n.gain n.threshold n.defaultLeft n.internalValue n.internalCount l r)

/-- `dumpTreeStructure` (`sklearn/lightgbm/api/booster.go:377-387`) -/
def Tree.dump (t : Tree α) : Option (Dump α) :=
  if t.nodes.isEmpty then some (.values t.leafValues) else t.dumpNode (t.nodes.length + 1) 0

/-- `dump["tree_info"]` (`sklearn/lightgbm/api/booster.go:357-371`): number of leaves, shrinkage and structure of every
tree -/
def dumpTrees : List (Tree α) → Option (List (Int × α × Dump α))
  | [] => some []
  | t :: ts =>
    match t.dump with
    | none => none
    | some d => match dumpTrees ts with
      | none => none
      | some ds => some ((t.numLeaves, t.shrinkage, d) :: ds)

/-- reading a dumped node as a `JSONTreeNode` (`sklearn/lightgbm/json_loader.go:45-68,86`): the keys `decision_type`,
`missing_type` and `split_indices` are not in the file. `none`: an array of values is not a number, so reading fails.
Simplified: a negative feature number is read as 0 (the code wraps it to a huge one). -/
def Dump.toLJson [Zero α] : Dump α → Option (LJson α)
  | .absent => some .nil
  | .null => some .nil
  | .values _ => none
  | .leaf _ v _ => some (.node 0 0 false [] 0 false v .nil .nil)
  | .split _ f _ thr dl _ _ l r =>
    match l.toLJson, r.toLJson with
    | some l, some r => some (.node f.toNat thr false [] 0 dl 0 l r)
    | _, _ => none

/-- `encoding/json` accepts the numbers of a dumped node (`sklearn/lightgbm/api/booster.go:287-290`) -/
def Dump.finite (fin : α → Bool) : Dump α → Bool
  | .absent => true
  | .null => true
  | .values vs => vs.all fin
  | .leaf _ v _ => fin v
  | .split _ _ g t _ v _ l r => fin g && fin t && fin v && l.finite fin && r.finite fin

/-- `parseObjective` (`sklearn/lightgbm/json_loader.go:121-139`) on an objective without spaces; the empty one is
"regression" -/
def parseObjective (s : String) : String := if s = "" then "regression" else s

/-- all trees of the file (`sklearn/lightgbm/json_loader.go:108-115`) -/
def readTrees [Zero α] (ofInt : Int → α) : List (Int × α × Dump α) → Option (List (LTree α))
  | [] => some []
  | (_, _, d) :: ds =>
    match d.toLJson with
    | none => none
    | some j => match readTrees ofInt ds with
      | none => none
      | some ts => some (j.convert ofInt :: ts)

/-- `SaveModel` with save type `json` (`sklearn/lightgbm/api/booster.go:242-293`), then `LoadJSONModelFromFile`
(`sklearn/lightgbm/json_loader.go:71-118`). `fin` tells the finite numbers, the others cannot be written. The initial score
is not in the file. Left out: the parameters and importances in the file, which reading skips, and failures of the file
system. -/
def Model.viaJson [Zero α] (fin : α → Bool) (ofInt : Int → α) (m : Model α) : Outcome (LModel α) :=
  match dumpTrees m.trees with
  | none => .panic "stack overflow"
  | some ds =>
    if ds.all (fun d => fin d.2.1 && d.2.2.finite fin) then
      match readTrees ofInt ds with
      | none => .err (.other "failed to parse JSON")
      | some ts => .ok ⟨ts, m.numClass, parseObjective m.objective, 0, m.numFeatures - 1 + 1⟩
    else .err (.other "failed to marshal model")

section

variable [BEq α] [LE α] [DecidableLE α] [LT α] [DecidableLT α] [Zero α] [Neg α] [Add α] [Sub α] [One α] [Div α]

/-- `LeavesModel.PredictRawScore` (`sklearn/lightgbm/predictor_extended.go:242-259`) -/
def LModel.rawScore (L : LNum α) (m : LModel α) (x : List α) : Outcome (List α) :=
  if 2 < m.numClass then
    m.accumulate L x (m.trees.mapIdx fun i t => (i, t)) (List.replicate m.numClass.toNat 0)
  else (sumTrees L x m.trees m.initScore).map fun s => [s]

/-- `visitedLeaves` with its counter: the leaves met so far in order (`sklearn/lightgbm/predictor_extended.go:281-282`) -/
abbrev Seen := List Nat

/-- the two checks at the top of the loop: a leaf among the children gets the next number unless it has one
(`sklearn/lightgbm/predictor_extended.go:288-302`) -/
def Seen.meet (s : Seen) (isLeaf : Bool) (i : Nat) : Seen := if isLeaf && !s.contains i then s ++ [i] else s

/-- the number of a leaf met before (`sklearn/lightgbm/predictor_extended.go:314,319,331,336,344,349`) -/
def Seen.number (s : Seen) (i : Nat) : Nat := s.idxOf i

/-- the direction taken (`sklearn/lightgbm/predictor_extended.go:305-353`); `toU32` is the conversion `uint32(x)`. A node
has at most one of the two flags for missing values. -/
def LNode.leafLeft (toU32 : α → Int) (n : LNode α) (v : α) : Bool :=
  if (n.missingNan && isNaN v) || (n.missingZero && v == 0) then n.defaultLeft
  else if n.categorical then decide (toU32 v = toU32 n.threshold)
  else decide (v ≤ n.threshold)

/-- one round of `predictLeavesTreeLeaf` (`sklearn/lightgbm/predictor_extended.go:285-354`) -/
def LTree.leafStep (toU32 : α → Int) (t : LTree α) (x : List α) (s : Nat × Seen) : Outcome (Move (Nat × Seen) Nat) :=
  match t.nodes[s.1]? with
  | none => .panic "index out of range"
  | some n =>
    let seen := (s.2.meet n.leftLeaf n.left).meet n.rightLeaf n.right
    match x[n.feature]? with
    | none => .panic "index out of range"
    | some v =>
      if n.leafLeft toU32 v then
        if n.leftLeaf then .ok (.stop (seen.number n.left)) else .ok (.go (n.left, seen))
      else
        if n.rightLeaf then .ok (.stop (seen.number n.right)) else .ok (.go (s.1 + 1, seen))

/-- `predictLeavesTreeLeaf` (`sklearn/lightgbm/predictor_extended.go:274-355`). A run of more rounds than there are nodes
never ends, which is reported as a panic. -/
def LTree.predictLeaf (toU32 : α → Int) (t : LTree α) (x : List α) : Outcome Nat :=
  if t.nodes.isEmpty then .ok 0
  else (loop (t.leafStep toU32 x) (t.nodes.length + 1) (0, [])).getD (.panic "does not terminate")

end

end Scigo.LGB
