import Verif.Base.Outcome
import Verif.Base.Mat

/-!
# Cross-validation splitters

Model of `sklearn/lightgbm/cross_validation.go`. The random generator is a parameter: `rand.Shuffle` performs
some sequence of swaps. The iteration order of the map of classes is a parameter as well.
-/

namespace Scigo.CV

/-- `CVFold` (`sklearn/lightgbm/cross_validation.go:20-23`) -/
structure Fold where
  train : List Nat
  test : List Nat
  deriving DecidableEq

/-- the swap passed to `Shuffle` (`sklearn/lightgbm/cross_validation.go:62-64,149-151`). Simplified: the
library calls it only with indices in range. -/
def swap (l : List Nat) (p : Nat × Nat) : List Nat :=
  if h : p.1 < l.length ∧ p.2 < l.length then (l.set p.1 l[p.2]).set p.2 l[p.1] else l

/-- `rand.Shuffle` as the sequence of its swaps (`sklearn/lightgbm/cross_validation.go:62,149`) -/
def shuffle (swaps : List (Nat × Nat)) (l : List Nat) : List Nat := swaps.foldl swap l

/-- the size of test set `i` of `k` over `m` samples (`sklearn/lightgbm/cross_validation.go:69-77,167-175`) -/
def testSize (m k i : Nat) : Nat := if i < m % k then m / k + 1 else m / k

/-- the training indices (`sklearn/lightgbm/cross_validation.go:84-96`) -/
def trainOf (indices test : List Nat) : List Nat := indices.filter fun x => !(test.any fun t => x == t)

/-- one round of the fold loop: the position in the indices and the folds so far
(`sklearn/lightgbm/cross_validation.go:73-104`); slicing beyond the indices panics -/
def kfoldStep (indices : List Nat) (n k : Nat) (st : Outcome (Nat × List Fold)) (i : Nat) :
    Outcome (Nat × List Fold) :=
  st.bind fun s =>
    if s.1 + testSize n k i ≤ indices.length then
      .ok (s.1 + testSize n k i, s.2 ++ [⟨trainOf indices ((indices.drop s.1).take (testSize n k i)),
        (indices.drop s.1).take (testSize n k i)⟩])
    else .panic "slice bounds out of range"

/-- the indices, shuffled if requested (`sklearn/lightgbm/cross_validation.go:54-65`) -/
def kfoldIndices (n : Nat) : Option (List (Nat × Nat)) → List Nat
  | none => List.range n
  | some s => shuffle s (List.range n)

/-- `KFold.Split` on `n` samples (`sklearn/lightgbm/cross_validation.go:50-107`); `swaps` is `none` without
shuffling -/
def kfold (n : Nat) (k : Int) (swaps : Option (List (Nat × Nat))) : Outcome (List Fold) :=
  if k < 0 then .panic "makeslice: len out of range"
  else if k = 0 then .panic "integer divide by zero"
  else
    ((List.range k.toNat).foldl (kfoldStep (kfoldIndices n swaps) n k.toNat) (.ok (0, []))).map fun s => s.2

section

variable {α : Type _} [BEq α]

/-- `classIndices[label] = append(classIndices[label], i)` (`sklearn/lightgbm/cross_validation.go:141`): the
map as a list of entries; a label that is not equal to itself (NaN) always makes a new entry -/
def addTo (label : α) (i : Nat) : List (α × List Nat) → List (α × List Nat)
  | [] => [(label, [i])]
  | g :: gs => if g.1 == label then (g.1, g.2 ++ [i]) :: gs else g :: addTo label i gs

/-- grouping by class (`sklearn/lightgbm/cross_validation.go:138-142`) -/
def groups (y : Nat → α) (n : Nat) : List (α × List Nat) :=
  (List.range n).foldl (fun gs i => addTo (y i) i gs) []

/-- shuffling within each class (`sklearn/lightgbm/cross_validation.go:145-153`); an entry whose key is NaN is
not found by its key -/
def shuffleGroups (sw : Option (α → List (Nat × Nat))) (gs : List (α × List Nat)) : List (α × List Nat) :=
  match sw with
  | none => gs
  | some f => gs.map fun g => if g.1 == g.1 then (g.1, shuffle (f g.1) g.2) else g

/-- the inner loop for one fold: the position in the class and the test sets
(`sklearn/lightgbm/cross_validation.go:171-182`) -/
def distStep (idx : List Nat) (k : Nat) (st : Nat × (Nat → List Nat)) (i : Nat) : Nat × (Nat → List Nat) :=
  (st.1 + ((idx.drop st.1).take (testSize idx.length k i)).length,
    fun f => if f = i then st.2 f ++ (idx.drop st.1).take (testSize idx.length k i) else st.2 f)

/-- distributing one class (`sklearn/lightgbm/cross_validation.go:165-183`) -/
def distClass (k : Nat) (tests : Nat → List Nat) (idx : List Nat) : Nat → List Nat :=
  ((List.range k).foldl (distStep idx k) (0, tests)).2

/-- `StratifiedKFold.Split` (`sklearn/lightgbm/cross_validation.go:134-200`); `order` is the order in which
the last loop over the map meets the entries -/
def stratified (n : Nat) (k : Int) (order : List (α × List Nat)) : Outcome (List Fold) :=
  if k < 0 then .panic "makeslice: len out of range"
  else if k = 0 ∧ order ≠ [] then .panic "integer divide by zero"
  else
    let tests := order.foldl (fun t g => distClass k.toNat t g.2) fun _ => []
    .ok ((List.range k.toNat).map fun i => ⟨(List.range n).filter fun j => !((tests i).any fun t => j == t), tests i⟩)

end

end Scigo.CV
