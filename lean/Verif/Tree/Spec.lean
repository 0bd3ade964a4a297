import Verif.Tree.Model
import Mathlib.Order.Defs.LinearOrder

/-!
# Specification for the decision tree
-/

namespace Scigo.Tree

variable {α : Type _}

/-- what the leaves record, left to right -/
def DTree.leaves : DTree α → List (Info α)
  | .leaf i => [i]
  | .split _ _ _ l r => l.leaves ++ r.leaves

/-- what the split nodes record -/
def DTree.splits : DTree α → List (Info α)
  | .leaf _ => []
  | .split i _ _ l r => i :: (l.splits ++ r.splits)

/-- features tested in the tree -/
def DTree.features : DTree α → List Nat
  | .leaf _ => []
  | .split _ f _ l r => f :: (l.features ++ r.features)

/-- the leaf a sample belongs to: the turns taken (`true` for left), and what the leaf records -/
def DTree.route [LE α] [DecidableLE α] (x : Nat → α) : DTree α → List Bool × Info α
  | .leaf i => ([], i)
  | .split _ f thr l r =>
    if x f ≤ thr then let p := l.route x; (true :: p.1, p.2)
    else let p := r.route x; (false :: p.1, p.2)

/-- `k` is the first index of a largest entry -/
def FirstMaxNat (c : List Nat) (k : Nat) : Prop :=
  k < c.length ∧ (∀ j < c.length, c.getD j 0 ≤ c.getD k 0) ∧ ∀ j < k, c.getD j 0 < c.getD k 0

/-- all samples have one class -/
def OneClass (S : List (Sample α)) : Prop := ∀ s ∈ S, ∀ s' ∈ S, s.2 = s'.2

/-- class indices are in range -/
def InRange (nClasses : Nat) (S : List (Sample α)) : Prop := ∀ s ∈ S, s.2 < nClasses

/-- the rows of a table in another order -/
def reorder (σ : Nat → Nat) (X : Mat α) : Mat α := ⟨X.r, X.c, fun i => X.at' (σ i)⟩

section
variable [LinearOrder α] [Add α] [Sub α] [Mul α] [Div α] [Zero α] [One α] [NatCast α]

/-- a candidate: feature and two different values whose midpoint leaves both sides large enough -/
def Admissible (P : Params α) (S : List (Sample α)) (f : Nat) (v : α × α) : Prop :=
  v.1 ≠ v.2 ∧ P.minSamplesLeaf ≤ (leftOf S f ((v.1 + v.2) / ((2 : Nat) : α))).length ∧
  P.minSamplesLeaf ≤ (rightOf S f ((v.1 + v.2) / ((2 : Nat) : α))).length

/-- impurity decrease of splitting at a threshold -/
def gain (log2 : α → α) (P : Params α) (nC : Nat) (S : List (Sample α)) (parent : α) (f : Nat)
    (thr : α) : α :=
  parent - (((leftOf S f thr).length : α) * impurity log2 P.criterion (classCounts nC (leftOf S f thr))
    + ((rightOf S f thr).length : α) * impurity log2 P.criterion (classCounts nC (rightOf S f thr)))
      / (S.length : α)

/-- two values of a feature with no other value in between -/
def Neighbours (S : List (Sample α)) (f : Nat) (v : α × α) : Prop :=
  v.1 < v.2 ∧ (∃ s ∈ S, s.1 f = v.1) ∧ (∃ s ∈ S, s.1 f = v.2) ∧
    ∀ s ∈ S, ¬ (v.1 < s.1 f ∧ s.1 f < v.2)

end

end Scigo.Tree
