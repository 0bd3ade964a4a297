import Verif.LGB.Ensemble

/-!
# JSON export and import

Model of `ToJSON` / `LoadFromJSON` (`sklearn/lightgbm/loader.go:258-555`).

Simplified: the bytes are not modelled. `encoding/json` writes a `float64` so that reading gives it back, fails
for NaN and infinities, and leaves out a field with `omitempty` that equals zero, which is read back as zero;
so a document is represented by the structure that reading it gives (`J`, `JModel`).
-/

set_option linter.unusedSectionVars false

namespace Scigo.LGB

variable {α : Type _}

/-- the fields of `NodeJSON` that reading uses (`sklearn/lightgbm/loader.go:315-332`) -/
structure JData (α : Type _) where
  feature : Int
  gain : α
  threshold : α
  defaultLeft : Bool
  internalValue : α
  internalCount : Int
  leafValue : α
  leafCount : Int

/-- `*NodeJSON` with its children (`sklearn/lightgbm/loader.go:315-332`) -/
inductive J (α : Type _)
  | nil
  | node (d : JData α) (l r : J α)

/-- `nodeJSON == nil` (`sklearn/lightgbm/loader.go:413`) -/
def J.isNil : J α → Bool
  | .nil => true
  | .node .. => false

/-- one entry of `tree_info` together with the entry of `tree_structure`
(`sklearn/lightgbm/loader.go:297-312`) -/
structure JTree (α : Type _) where
  numLeaves : Int
  shrinkage : α
  root : J α

/-- `LightGBMJSON` (`sklearn/lightgbm/loader.go:283-295`), the fields that matter for predictions -/
structure JModel (α : Type _) where
  numClass : Int
  maxFeatureIdx : Int
  objective : String
  trees : List (JTree α)

section

variable [Zero α] [BEq α]

/-- a leaf's data (`sklearn/lightgbm/loader.go:525-531`) -/
def leafData (n : Node α) : JData α := ⟨0, 0, 0, false, 0, 0, n.leafValue, n.leafCount⟩

/-- a split's data (`sklearn/lightgbm/loader.go:533-544`) -/
def splitData (n : Node α) : JData α :=
  ⟨n.feature, n.gain, n.threshold, n.defaultLeft, n.internalValue, n.internalCount, 0, 0⟩

/-- `treeToNodeJSON` (`sklearn/lightgbm/loader.go:518-555`) with bounded recursion depth; `none`: deeper (a Go
run on a cyclic tree overflows the stack) -/
def Tree.toJ (t : Tree α) : Nat → Int → Option (J α)
  | 0, _ => none
  | fuel + 1, id =>
    match t.nodeAt id with
    | none => some .nil
    | some n =>
      if n.kind = .leaf then some (.node (leafData n) .nil .nil)
      else
        match (if n.left ≥ 0 then t.toJ fuel n.left else some .nil) with
        | none => none
        | some l =>
          match (if n.right ≥ 0 then t.toJ fuel n.right else some .nil) with
          | none => none
          | some r => some (.node (splitData n) l r)

/-- writing and reading a field with `omitempty` (`sklearn/lightgbm/loader.go:315-332`): −0 comes back as 0 -/
def canon (x : α) : α := if x == 0 then 0 else x

/-- writing and reading a node (`sklearn/lightgbm/loader.go:398-404`) -/
def J.reread : J α → J α
  | .nil => .nil
  | .node d l r => .node ⟨d.feature, canon d.gain, canon d.threshold, d.defaultLeft, canon d.internalValue,
      d.internalCount, canon d.leafValue, d.leafCount⟩ l.reread r.reread

/-- `encoding/json` accepts the numbers of a node and its children (`sklearn/lightgbm/loader.go:477`) -/
def J.finite (fin : α → Bool) : J α → Bool
  | .nil => true
  | .node d l r => fin d.gain && fin d.threshold && fin d.internalValue && fin d.leafValue
      && l.finite fin && r.finite fin

/-- a tree (`sklearn/lightgbm/loader.go:497-512`) -/
def Tree.toJTree (t : Tree α) : Option (JTree α) :=
  match t.toJ (t.nodes.length + 1) 0 with
  | none => none
  | some j => some ⟨t.numLeaves, t.shrinkage, j⟩

/-- all trees (`sklearn/lightgbm/loader.go:497-512`) -/
def toJTrees : List (Tree α) → Option (List (JTree α))
  | [] => some []
  | t :: ts =>
    match t.toJTree with
    | none => none
    | some j => match toJTrees ts with
      | none => none
      | some js => some (j :: js)

/-- `ToJSON` (`sklearn/lightgbm/loader.go:475-515`): the document as it will be read. `fin` tells the finite
numbers; a negative number of features panics in `make` -/
def Model.toJSON (fin : α → Bool) (m : Model α) : Outcome (JModel α) :=
  if m.numFeatures < 0 then .panic "makeslice: len out of range"
  else match toJTrees m.trees with
    | none => .panic "stack overflow"
    | some js =>
      if js.all (fun j => fin j.shrinkage && j.root.finite fin) then
        .ok ⟨m.numClass, m.numFeatures - 1, m.objective,
          js.map (fun j => ⟨j.numLeaves, j.shrinkage, j.root.reread⟩)⟩
      else .err (.other "json: unsupported value")

/-! ## reading -/

/-- the leaf node of `flattenTree` (`sklearn/lightgbm/loader.go:412-423`) -/
def JData.leafNode (d : JData α) : Node α :=
  ⟨-1, -1, .leaf, 0, 0, [], false, 0, d.leafValue, d.leafCount, 0, 0⟩

/-- the split node of `flattenTree`, children still 0 (`sklearn/lightgbm/loader.go:425-436`) -/
def JData.splitNode (d : JData α) : Node α :=
  ⟨0, 0, .numerical, d.feature, d.threshold, [], d.defaultLeft, d.gain, 0, 0, d.internalValue, d.internalCount⟩

/-- `flattenTree` (`sklearn/lightgbm/loader.go:407-454`): the new node array and the index; for a missing child
−1 -/
def flatten : J α → List (Node α) → List (Node α) × Int
  | .nil, ns => (ns, -1)
  | .node d l r, ns =>
    if l.isNil && r.isNil then (ns ++ [d.leafNode], ns.length)
    else
      let a := flatten l (ns ++ [d.splitNode])
      let b := flatten r (a.1.modify ns.length (fun n => { n with left := a.2 }))
      (b.1.modify ns.length (fun n => { n with right := b.2 }), ns.length)

/-- the objective's name (`sklearn/lightgbm/loader.go:343-354`) -/
def readObjective (s : String) : String :=
  if s = "binary" ∨ s = "binary sigmoid" ∨ s = "binary_logloss" then "binary"
  else if s = "regression" ∨ s = "regression_l2" ∨ s = "l2" ∨ s = "mean_squared_error" then "regression"
  else if s = "regression_l1" ∨ s = "l1" ∨ s = "mean_absolute_error" then "regression_l1"
  else if s = "multiclass" ∨ s = "softmax" ∨ s = "multiclassova" then "multiclass"
  else s

/-- one tree of `ToModel` (`sklearn/lightgbm/loader.go:357-390`) -/
def JTree.toTree (j : JTree α) : Tree α :=
  let nodes := (flatten j.root []).1
  ⟨nodes, [], if j.numLeaves = 0 then (nodes.filter (fun n => n.kind = .leaf)).length else j.numLeaves,
    j.shrinkage, 0⟩

/-- `ToModel` (`sklearn/lightgbm/loader.go:335-395`); `tenth` is the default learning rate of `NewModel`
(`sklearn/lightgbm/model.go:206-214`) -/
def JModel.toModel (tenth : α) (j : JModel α) : Model α :=
  ⟨readObjective j.objective, j.numClass, j.trees.length, tenth, j.trees.map JTree.toTree, j.maxFeatureIdx + 1, 0, 0,
    false⟩

end

end Scigo.LGB
