import Verif.Base.Outcome
import Verif.Base.Mat
import Verif.Base.Loop

/-!
# LightGBM trees

Model of the tree type and of the four traversals of `sklearn/lightgbm`: `Tree.Predict` (`model.go`),
`Predictor.predictTree` (`predictor.go`), `SimplePredictor.predictTree` (`simple_predictor.go`) and the
leaf numbering of `predictor_extended.go`.

Carrier `α` stands for `float64`. NaN is recognised as in the code, by `x ≠ x`, so `α` has a boolean
equality. A Go `for` loop that may run for ever is a step function iterated by `loop`.
-/

set_option linter.unusedSectionVars false

namespace Scigo.LGB

variable {α : Type _} {σ β : Type _}

/-- what one round of a `for` loop does: leave it with a value or continue in another state
(the loops of `sklearn/lightgbm/model.go:82-128`, `sklearn/lightgbm/predictor.go:217-305`) -/
inductive Move (σ β : Type _)
  | stop (v : β)
  | go (s : σ)

/-- run a loop for at most `n` rounds; `none`: still running
(the loops of `sklearn/lightgbm/model.go:82-128`, `sklearn/lightgbm/predictor.go:217-305`) -/
def loop (step : σ → Outcome (Move σ β)) : Nat → σ → Option (Outcome β)
  | 0, _ => none
  | n + 1, s =>
    match step s with
    | .ok (.stop v) => some (.ok v)
    | .ok (.go s') => loop step n s'
    | .err e => some (.err e)
    | .panic p => some (.panic p)

/-- `NodeType` (`sklearn/lightgbm/model.go:11-21`); `other` is any further integer -/
inductive NodeKind
  | leaf
  | numerical
  | categorical
  | other
  deriving DecidableEq

/-- `Node` (`sklearn/lightgbm/model.go:25-48`). Simplified: without `NodeID`, `ParentID` and
`LeafValues`, which no prediction reads. -/
structure Node (α : Type _) where
  left : Int
  right : Int
  kind : NodeKind
  feature : Int
  threshold : α
  categories : List Int
  defaultLeft : Bool
  gain : α
  leafValue : α
  leafCount : Int
  internalValue : α
  internalCount : Int

/-- `IsLeaf` (`sklearn/lightgbm/model.go:51-53`) -/
def Node.isLeaf (n : Node α) : Bool := n.left == -1 && n.right == -1

/-- `Tree` (`sklearn/lightgbm/model.go:56-76`). Simplified: without `TreeIndex`, `NumNodes`, `MaxDepth`,
`FeatureNames` and `FeatureImportance`, which no prediction reads. -/
structure Tree (α : Type _) where
  nodes : List (Node α)
  leafValues : List α
  numLeaves : Int
  shrinkage : α
  internalValue : α

/-- `0 <= id && id < len(t.Nodes)` and the access `t.Nodes[id]` (`sklearn/lightgbm/model.go:82-83`) -/
def Tree.nodeAt (t : Tree α) (id : Int) : Option (Node α) :=
  if id < 0 then none else t.nodes[id.toNat]?

/-- reading `features[f]`: out of range panics (`sklearn/lightgbm/model.go:91`) -/
def featureAt (x : List α) (f : Int) : Option α :=
  if f < 0 then none else x[f.toNat]?

section

variable [BEq α] [LE α] [DecidableLE α] [Zero α]

/-- `isNaN` (`sklearn/lightgbm/model.go:467-469`) -/
def isNaN (x : α) : Bool := !(x == x)

/-- the child in the default direction (`sklearn/lightgbm/model.go:93-98`) -/
def Node.default (n : Node α) : Int := if n.defaultLeft then n.left else n.right

/-- one round of `Tree.Predict` (`sklearn/lightgbm/model.go:79-131`); `toInt` is the conversion
`int(x)` -/
def Tree.step (toInt : α → Int) (t : Tree α) (x : List α) (id : Int) : Outcome (Move Int α) :=
  match t.nodeAt id with
  | none => .ok (.stop 0)
  | some n =>
    if n.isLeaf then .ok (.stop n.leafValue)
    else match featureAt x n.feature with
      | none => .panic "index out of range"
      | some v =>
        if isNaN v then .ok (.go n.default)
        else match n.kind with
          | .numerical => .ok (.go (if v ≤ n.threshold then n.left else n.right))
          | .categorical => .ok (.go (if n.categories.contains (toInt v) then n.left else n.right))
          | _ => .ok (.stop 0)

/-- `Tree.Predict` (`sklearn/lightgbm/model.go:79-131`). A run of more rounds than there are nodes
visits a node twice and never ends (`predict_diverges`), which is reported as a panic. -/
def Tree.predict (toInt : α → Int) (t : Tree α) (x : List α) : Outcome α :=
  (loop (t.step toInt x) (t.nodes.length + 1) 0).getD (.panic "does not terminate")

/-! ## Leaf numbers -/

/-- `leafMap` of `predictTreeLeaf`: association list, latest entry first
(`sklearn/lightgbm/predictor_extended.go:144`) -/
abbrev LeafMap := List (Int × Nat)

/-- `buildLeafMap` (`sklearn/lightgbm/predictor_extended.go:147-179`) with bounded recursion depth:
`none` means deeper; a Go run on a cyclic tree overflows the stack -/
def Tree.buildLeafMap (t : Tree α) : Nat → Int → LeafMap × Nat → Option (LeafMap × Nat)
  | 0, _, _ => none
  | d + 1, id, (m, c) =>
    match t.nodeAt id with
    | none => some (m, c)
    | some n =>
      if n.isLeaf then some ((id, c) :: m, c + 1)
      else
        match (if n.left ≥ 0 then t.buildLeafMap d n.left (m, c) else some ((n.left, c) :: m, c + 1)) with
        | none => none
        | some s =>
          if n.right ≥ 0 then t.buildLeafMap d n.right s else some ((n.right, s.2) :: s.1, s.2 + 1)

/-- one round of the second loop of `predictTreeLeaf` (`sklearn/lightgbm/predictor_extended.go:185-231`);
the result is the node (or negative leaf reference) at which the loop ends, with `true` for a leaf node -/
def Tree.leafStep (toInt : α → Int) (t : Tree α) (x : List α) (id : Int) : Outcome (Move Int (Int × Bool)) :=
  match t.nodeAt id with
  | none => .ok (.stop (id, false))
  | some n =>
    if n.isLeaf then .ok (.stop (id, true))
    else match featureAt x n.feature with
      | none => .panic "index out of range"
      | some v =>
        if isNaN v then .ok (.go n.default)
        else match n.kind with
          | .numerical => .ok (.go (if v ≤ n.threshold then n.left else n.right))
          | .categorical => .ok (.go (if n.categories.contains (toInt v) then n.left else n.right))
          | _ => .ok (.go n.left)

/-- `predictTreeLeaf` (`sklearn/lightgbm/predictor_extended.go:141-239`) -/
def Tree.predictLeaf (toInt : α → Int) (t : Tree α) (x : List α) : Outcome Nat :=
  match t.buildLeafMap (t.nodes.length + 1) 0 ([], 0) with
  | none => .panic "stack overflow"
  | some (m, _) =>
    match (loop (t.leafStep toInt x) (t.nodes.length + 1) 0).getD (.panic "does not terminate") with
    | .ok (id, atLeaf) => .ok (if atLeaf ∨ id < 0 then (m.lookup id).getD 0 else 0)
    | .err e => .err e
    | .panic s => .panic s

/-! ## Predictor -/

variable [Sub α] [Neg α] [Mul α] [LT α] [DecidableLT α]

/-- what `Predictor` needs of the `math` package (`sklearn/lightgbm/predictor.go:268,346-375`):
`isInf`, rounding to an integer, and its `epsilon` -/
structure PNum (α : Type _) where
  isInf : α → Bool
  round : α → Int
  epsilon : α

/-- `math.Abs` (`sklearn/lightgbm/predictor.go:353`) -/
def absV (x : α) : α := if x < 0 then -x else x

/-- `ensurePrecision` (`sklearn/lightgbm/predictor.go:346-360`) -/
def PNum.ensure (P : PNum α) (x : α) : α :=
  if isNaN x || P.isInf x then x else if absV x < P.epsilon then 0 else x

/-- `compareWithPrecision(a, b) <= 0` (`sklearn/lightgbm/predictor.go:363-375`) -/
def PNum.leq (P : PNum α) (a b : α) : Bool :=
  let diff := a - b
  if absV diff < P.epsilon then true else if diff < 0 then true else false

/-- one round of `predictTree` (`sklearn/lightgbm/predictor.go:217-305`); state: node and `iteration` -/
def Tree.pStep (P : PNum α) (t : Tree α) (x : List α) (s : Int × Nat) : Outcome (Move (Int × Nat) α) :=
  match t.nodeAt s.1 with
  | none => .ok (.stop 0)
  | some n =>
    if ¬ s.2 < t.nodes.length * 2 then .ok (.stop 0)
    else if n.isLeaf then .ok (.stop (P.ensure n.leafValue))
    else if n.feature < 0 then .panic "index out of range"
    else match x[n.feature.toNat]? with
      | none => .ok (.go (n.default, s.2))
      | some v =>
        if isNaN v then .ok (.go (n.default, s.2))
        else
          let follow (next : Int) : Outcome (Move (Int × Nat) α) :=
            if next < 0 then
              .ok (.stop (match t.leafValues[(-next - 1).toNat]? with
                | some w => P.ensure w
                | none => 0))
            else .ok (.go (next, s.2 + 1))
          match n.kind with
          | .numerical => follow (if P.leq v n.threshold then n.left else n.right)
          | .categorical => follow (if n.categories.contains (P.round v) then n.left else n.right)
          | .leaf => .ok (.stop (P.ensure n.leafValue))
          | .other => follow n.left

/-- `predictTree` (`sklearn/lightgbm/predictor.go:208-314`). Rounds that follow a default direction do
not count in `iteration`; more of them in a row than there are nodes never end. -/
def Tree.pPredict (P : PNum α) (t : Tree α) (x : List α) : Outcome α :=
  (loop (t.pStep P x) ((t.nodes.length * 2 + 1) * (t.nodes.length + 1) + 1) (0, 0)).getD
    (.panic "does not terminate")

/-! ## SimplePredictor -/

/-- the value with the tree's shrinkage (`sklearn/lightgbm/simple_predictor.go:88-91,132-135`) -/
def Tree.shrunk (t : Tree α) (v : α) : α := if 0 < t.shrinkage then v * t.shrinkage else v

/-- one round of `SimplePredictor.predictTree` (`sklearn/lightgbm/simple_predictor.go:78-139`) -/
def Tree.sStep (t : Tree α) (x : List α) (id : Int) : Outcome (Move Int α) :=
  match t.nodeAt id with
  | none => .ok (.stop 0)
  | some n =>
    if n.kind = .leaf then .ok (.stop (t.shrunk n.leafValue))
    else if n.feature < 0 then .panic "index out of range"
    else match x[n.feature.toNat]? with
      | none => .ok (.go n.default)
      | some v =>
        if isNaN v then .ok (.go n.default)
        else
          let next := if v ≤ n.threshold then n.left else n.right
          if next < 0 then
            .ok (.stop (match t.leafValues[(-(next + 1)).toNat]? with
              | some w => t.shrunk w
              | none => 0))
          else .ok (.go next)

/-- `SimplePredictor.predictTree` (`sklearn/lightgbm/simple_predictor.go:66-140`) -/
def Tree.sPredict (t : Tree α) (x : List α) : Outcome α :=
  if t.nodes.isEmpty then .ok (t.leafValues.headD 0)
  else (loop (t.sStep x) (t.nodes.length + 1) 0).getD (.panic "does not terminate")

end

end Scigo.LGB
