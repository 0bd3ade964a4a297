import Verif.LGB.Leaves

/-!
# Text files of models

Model of `Model.SaveToText` (`sklearn/lightgbm/model.go`) and `LoadFromReader` (`sklearn/lightgbm/loader.go`).
A file is its header fields and the arrays of each `Tree=` block; printing and parsing of the individual
lines is not modelled. Numbers are printed with `%g`, which `strconv.ParseFloat` reads back exactly.
-/

set_option linter.unusedSectionVars false

namespace Scigo.LGB

variable {α : Type _}

/-- a text file (`sklearn/lightgbm/model.go:329-464`) -/
structure TextFile (α : Type _) where
  numClass : Int
  maxFeatureIdx : Int
  objective : String
  trees : List (TextArrays α × α)

section

variable [Zero α]

/-- `leaf_value` (`sklearn/lightgbm/model.go:430-453`) -/
def Tree.textLeaves (t : Tree α) : List α :=
  if t.leafValues.isEmpty then t.nodes.map fun n => if n.isLeaf then n.leafValue else 0
  else t.leafValues

/-- one `Tree=` block (`sklearn/lightgbm/model.go:366-458`). Split features are natural numbers here.
`internal_value` is not written. -/
def Tree.toText (t : Tree α) : TextArrays α where
  numLeaves := t.nodes.length
  leafValue := t.textLeaves
  left := t.nodes.map (·.left)
  right := t.nodes.map (·.right)
  decisionType := t.nodes.map fun n => if n.isLeaf then 0 else if n.kind = .categorical then 1 else 2
  splitFeature := t.nodes.map fun n => if n.isLeaf then 0 else n.feature.toNat
  threshold := t.nodes.map fun n => if n.isLeaf then 0 else n.threshold
  internalValue := []

/-- `SaveToText` (`sklearn/lightgbm/model.go:329-463`) -/
def Model.toText (m : Model α) : TextFile α :=
  ⟨m.numClass, m.numFeatures - 1, m.objective, m.trees.map fun t => (t.toText, t.shrinkage)⟩

/-- an internal node as loaded (`sklearn/lightgbm/loader.go:197-215`); all other fields have their zero
value -/
def textNode (l r : Int) (f : Nat) (thr : α) (dl : Bool) : Node α :=
  ⟨l, r, .numerical, f, thr, [], dl, 0, 0, 0, 0, 0⟩

/-- the loop building the nodes (`sklearn/lightgbm/loader.go:197-216`): an index outside the child or
threshold arrays panics, one outside `decision_type` gives no default direction -/
def TextArrays.loadNodes (a : TextArrays α) : Nat → Outcome (List (Node α))
  | 0 => .ok []
  | i + 1 =>
    (a.loadNodes i).bind fun ns =>
      match a.left[i]?, a.right[i]?, a.splitFeature[i]?, a.threshold[i]? with
      | some l, some r, some f, some t =>
        .ok (ns ++ [textNode l r f t ((a.decisionType[i]?.getD 0) / 2 % 2 == 1)])
      | _, _, _, _ => .panic "index out of range"

/-- `finalizeTree` (`sklearn/lightgbm/loader.go:157-226`) -/
def TextArrays.load (a : TextArrays α) (shrinkage : α) (treeIndex : Nat) : Outcome (Tree α) :=
  if a.numLeaves = 1 then .ok ⟨[], a.leafValue, a.numLeaves, shrinkage, 0⟩
  else (a.loadNodes a.splitFeature.length).map fun ns =>
    ⟨ns, a.leafValue, a.numLeaves, shrinkage, a.firstInternal treeIndex⟩

/-- the trees of a file in order (`sklearn/lightgbm/loader.go:47-58,120-126`) -/
def loadTrees : List (TextArrays α × α) → Nat → Outcome (List (Tree α))
  | [], _ => .ok []
  | (a, s) :: rest, i => (a.load s i).bind fun t => (loadTrees rest (i + 1)).map fun ts => t :: ts

/-- the initial score after loading (`sklearn/lightgbm/loader.go:138-144`) -/
def loadedInit : List (Tree α) → α
  | [] => 0
  | t :: _ => t.internalValue

/-- `LoadFromReader` (`sklearn/lightgbm/loader.go:34-147`). Simplified: objective names are taken over
unchanged, which they are for every name without white space; `tenth` is the default learning rate. -/
def TextFile.load (tenth : α) (f : TextFile α) : Outcome (Model α) :=
  (loadTrees f.trees 0).map fun ts =>
    ⟨f.objective, if f.numClass = 0 then 1 else f.numClass, ts.length, tenth, ts, f.maxFeatureIdx + 1, 0,
      loadedInit ts, false⟩

end

end Scigo.LGB
