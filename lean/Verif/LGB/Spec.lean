import Verif.LGB.Tree

/-!
# Specification vocabulary for LightGBM trees

Mathematical decision trees, independent of how the code stores them, and what it means for a node
array to store one.
-/

namespace Scigo.LGB

variable {α : Type _}

/-- a question about one feature -/
inductive Test (α : Type _)
  | le (threshold : α)
  | mem (categories : List Int)

/-- a split: the feature asked about, the question and where a missing value goes -/
structure Split (α : Type _) where
  feature : Nat
  test : Test α
  missingLeft : Bool

/-- a decision tree -/
inductive DTree (α : Type _)
  | leaf (v : α)
  | node (s : Split α) (l r : DTree α)

section

variable [BEq α] [LE α] [DecidableLE α] [Zero α]

/-- does the sample go left? Missing values go the default way; `x ≤ threshold` goes left; a category of
the list goes left -/
def Split.left (toInt : α → Int) (s : Split α) (x : List α) : Bool :=
  let v := x.getD s.feature 0
  if !(v == v) then s.missingLeft
  else match s.test with
    | .le t => decide (v ≤ t)
    | .mem cs => decide (toInt v ∈ cs)

/-- the value of the leaf the sample falls into -/
def DTree.eval (toInt : α → Int) (x : List α) : DTree α → α
  | .leaf v => v
  | .node s l r => if s.left toInt x then l.eval toInt x else r.eval toInt x

/-- the leaves with the answers leading to them, from left to right -/
def DTree.paths : DTree α → List (List (Split α × Bool) × α)
  | .leaf v => [([], v)]
  | .node s l r =>
    l.paths.map (fun p => ((s, true) :: p.1, p.2)) ++ r.paths.map (fun p => ((s, false) :: p.1, p.2))

/-- the sample gives all the answers of a path -/
def Follows (toInt : α → Int) (x : List α) (p : List (Split α × Bool)) : Prop :=
  ∀ e ∈ p, e.1.left toInt x = e.2

/-- the number (from the left) of the leaf the sample falls into -/
def DTree.leafNo (toInt : α → Int) (x : List α) : DTree α → Nat
  | .leaf _ => 0
  | .node s l r => if s.left toInt x then l.leafNo toInt x else l.paths.length + r.leafNo toInt x

end

/-- all features asked about are below `k` -/
def DTree.Features (k : Nat) : DTree α → Prop
  | .leaf _ => True
  | .node s l r => s.feature < k ∧ l.Features k ∧ r.Features k

/-- only numerical questions -/
def DTree.Numerical : DTree α → Prop
  | .leaf _ => True
  | .node s l r => (∃ t, s.test = .le t) ∧ l.Numerical ∧ r.Numerical

/-- number of nodes, leaves included -/
def DTree.size : DTree α → Nat
  | .leaf _ => 1
  | .node _ l r => l.size + r.size + 1

/-- the question stored in a node -/
inductive Asks : Node α → Split α → Prop
  | num (n : Node α) (f : Nat) : n.kind = .numerical → n.feature = f →
      Asks n ⟨f, .le n.threshold, n.defaultLeft⟩
  | cat (n : Node α) (f : Nat) : n.kind = .categorical → n.feature = f →
      Asks n ⟨f, .mem n.categories, n.defaultLeft⟩

/-- the node array stores the tree `d` at index `id`; an index outside the array counts as a leaf of
value 0 -/
inductive Stores [Zero α] (t : Tree α) : Int → DTree α → Prop
  | outside (id : Int) : t.nodeAt id = none → Stores t id (.leaf 0)
  | leaf (id : Int) (n : Node α) : t.nodeAt id = some n → n.isLeaf = true → Stores t id (.leaf n.leafValue)
  | split (id : Int) (n : Node α) (s : Split α) (l r : DTree α) : t.nodeAt id = some n →
      n.isLeaf = false → Asks n s → Stores t n.left l → Stores t n.right r → Stores t id (.node s l r)

/-- the node arrays the trainer and the JSON loader produce: children come after their parent or lie
outside the array, and split nodes ask about one of the first `k` features -/
def WellFormed (k : Nat) (t : Tree α) : Prop :=
  ∀ (i : Nat) (n : Node α), t.nodes[i]? = some n → n.isLeaf = false →
    (n.kind = .numerical ∨ n.kind = .categorical) ∧ 0 ≤ n.feature ∧ n.feature < k ∧
    (n.left < 0 ∨ (i : Int) < n.left) ∧ (n.right < 0 ∨ (i : Int) < n.right)

/-- the node arrays the trainer and the JSON loader produce, stricter: nodes are numerical splits whose two
children come later in the array, or leaves marked as such -/
def Proper (k : Nat) (t : Tree α) : Prop :=
  t.nodes ≠ [] ∧ ∀ (i : Nat) (n : Node α), t.nodes[i]? = some n →
    (n.isLeaf = true ∧ n.kind = .leaf) ∨
    (n.kind = .numerical ∧ 0 ≤ n.feature ∧ n.feature < k ∧
      (i : Int) < n.left ∧ n.left < t.nodes.length ∧ (i : Int) < n.right ∧ n.right < t.nodes.length)

/-- a loop ends with a result -/
def Returns {σ β : Type _} (step : σ → Outcome (Move σ β)) (s : σ) (r : Outcome β) : Prop :=
  ∃ n, loop step n s = some r

end Scigo.LGB
