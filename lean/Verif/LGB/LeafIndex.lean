import Verif.LGB.Tree

/-!
# `Predictor.PredictLeafIndex`
-/

set_option linter.unusedSectionVars false

namespace Scigo.LGB

variable {α : Type _} [BEq α] [LE α] [DecidableLE α] [Zero α] [Sub α] [Neg α] [Mul α] [LT α] [DecidableLT α]

/-- one round of `traverseToLeaf` (`sklearn/lightgbm/predictor.go:562-619`); the result is the index at which the walk ends -/
def Tree.iStep (P : PNum α) (t : Tree α) (x : List α) (id : Int) : Outcome (Move Int Int) :=
  match t.nodeAt id with
  | none => .ok (.stop id)
  | some n =>
    if n.isLeaf then .ok (.stop id)
    else if n.feature < 0 then .panic "index out of range"
    else match x[n.feature.toNat]? with
      | none => .ok (.go n.default)
      | some v =>
        if isNaN v then .ok (.go n.default)
        else match n.kind with
          | .numerical => .ok (.go (if P.leq v n.threshold then n.left else n.right))
          | .categorical => .ok (.go (if n.categories.contains (P.round v) then n.left else n.right))
          | _ => .ok (.stop id)

/-- `traverseToLeaf` from the root (`sklearn/lightgbm/predictor.go:562-619`); more rounds than nodes never end -/
def Tree.walk (P : PNum α) (t : Tree α) (x : List α) : Outcome Int :=
  (loop (t.iStep P x) (t.nodes.length + 1) 0).getD (.panic "does not terminate")

/-- one entry of `getLeafIndices`: the number of leaf nodes before the node reached; counting past the array panics
(`sklearn/lightgbm/predictor.go:535-556`) -/
def Tree.leafIndex (P : PNum α) (t : Tree α) (x : List α) : Outcome Nat :=
  (t.walk P x).bind fun j =>
    if j.toNat ≤ t.nodes.length then .ok ((t.nodes.take j.toNat).countP (fun n => n.isLeaf)) else .panic "index out of range"

end Scigo.LGB
