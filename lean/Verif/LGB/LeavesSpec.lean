import Verif.LGB.Leaves

/-!
# Specification of LightGBM's own tree files

The meaning LightGBM gives to a tree with numerical splits, and what it means for the arrays of a text
file or for a JSON object to hold such a tree. Independent of the compiled format.
-/

namespace Scigo.LGB

variable {α : Type _}

/-- LightGBM's `missing_type` -/
inductive Missing
  | none
  | zero
  | nan
  deriving DecidableEq

/-- a LightGBM tree with numerical splits -/
inductive FTree (α : Type _)
  | leaf (v : α)
  | node (feature : Nat) (threshold : α) (missing : Missing) (missingLeft : Bool) (l r : FTree α)

section

variable [BEq α] [LE α] [DecidableLE α] [LT α] [DecidableLT α] [Zero α] [Neg α]

/-- does a value go left? With `missing_type` NaN a NaN goes the default way. Otherwise NaN counts as 0.
With `missing_type` Zero a value in `(-z, z]` goes the default way. All other values go left if they are
at most the threshold. -/
def goesLeft (z : α) (m : Missing) (dl : Bool) (thr v : α) : Bool :=
  match m with
  | .nan => if !(v == v) then dl else decide (v ≤ thr)
  | .none => decide ((if !(v == v) then 0 else v) ≤ thr)
  | .zero =>
    let w := if !(v == v) then 0 else v
    if -z < w ∧ w ≤ z then dl else decide (w ≤ thr)

/-- the value of the leaf the sample falls into -/
def FTree.eval (z : α) (x : List α) : FTree α → α
  | .leaf v => v
  | .node f thr m dl l r => if goesLeft z m dl thr (x.getD f 0) then l.eval z x else r.eval z x

end

/-- all features asked about are below `k` -/
def FTree.Features (k : Nat) : FTree α → Prop
  | .leaf _ => True
  | .node f _ _ _ l r => f < k ∧ l.Features k ∧ r.Features k

/-- `missing_type` from its two bits -/
def Missing.ofBits : Nat → Missing
  | 1 => .zero
  | 2 => .nan
  | _ => .none

/-- the arrays of a text file hold the tree `t` at the child reference `c`: a negative reference `-k-1` is
leaf `k`, another one a split. `used` lists the splits met. -/
inductive TextHolds (a : TextArrays α) : Int → FTree α → List Nat → Prop
  | leaf (k : Nat) (v : α) : a.leafValue[k]? = some v → TextHolds a (-(k : Int) - 1) (.leaf v) []
  | node (i : Nat) (cl cr : Int) (d f : Nat) (thr : α) (l r : FTree α) (ul ur : List Nat) :
      (i : Int) < a.numLeaves - 1 →
      a.left[i]? = some cl → a.right[i]? = some cr → a.decisionType[i]? = some d →
      a.splitFeature[i]? = some f → a.threshold[i]? = some thr → d % 2 = 0 →
      TextHolds a cl l ul → TextHolds a cr r ur →
      TextHolds a i (.node f thr (Missing.ofBits (d / 4 % 4)) (d / 2 % 2 == 1) l r) (i :: (ul ++ ur))

/-- the file block describes the tree: a constant, or a tree of splits rooted at split 0 in which no
split is shared -/
inductive TextTree (a : TextArrays α) : FTree α → Prop
  | constant (v : α) : a.numLeaves = 1 → a.leafValue.head? = some v → TextTree a (.leaf v)
  | splits (t : FTree α) (used : List Nat) : TextHolds a (0 : Nat) t used → used.Nodup → TextTree a t

/-- the JSON object describes the tree -/
inductive JsonTree : LJson α → FTree α → Prop
  | leaf (f : Nat) (t : α) (c : Bool) (si : List Int) (m : Nat) (dl : Bool) (v : α) :
      JsonTree (.node f t c si m dl v .nil .nil) (.leaf v)
  | node (f : Nat) (t : α) (si : List Int) (m : Nat) (dl : Bool) (v : α) (jl jr : LJson α) (l r : FTree α) :
      JsonTree jl l → JsonTree jr r →
      JsonTree (.node f t false si m dl v jl jr) (.node f t (Missing.ofBits m) dl l r)

end Scigo.LGB
