import Verif.CV.Model
import Verif.Base.Rand

/-!
# The splitters with their random seed

`KFold.Split` and `StratifiedKFold.Split` create a generator from `RandomSeed` on every call
(`sklearn/lightgbm/cross_validation.go`). The stratified splitter shares it between the classes, in the order in which it meets them in a map.
-/

namespace Scigo.CV

variable {α β : Type _}

/-- `rand.New(rand.NewPCG(uint64(RandomSeed), uint64(RandomSeed)))` (`sklearn/lightgbm/cross_validation.go:61,146`) -/
def seedState (G : Rng β) (seed : Int) : Nat := G.pcg (toU64 seed) (toU64 seed)

/-- `KFold.Split` (`sklearn/lightgbm/cross_validation.go:50-107`) -/
def kfoldSeeded (G : Rng β) (n : Nat) (k : Int) (shuffled : Bool) (seed : Int) : Outcome (List Fold) :=
  kfold n k (if shuffled then some (G.swaps n (seedState G seed)).1 else none)

/-- the loop that shuffles the classes, in the order of the list: one generator for all of them; a NaN key finds a nil slice, of which
nothing is drawn (`sklearn/lightgbm/cross_validation.go:145-153`) -/
def shuffleClasses [BEq α] (G : Rng β) : Nat → List (α × List Nat) → List (α × List Nat)
  | _, [] => []
  | s, g :: gs =>
    if g.1 == g.1 then (g.1, shuffle (G.swaps g.2.length s).1 g.2) :: shuffleClasses G (G.swaps g.2.length s).2 gs
    else g :: shuffleClasses G s gs

/-- `StratifiedKFold.Split`; `first` and `second` are the orders in which the two loops over the map of classes meet its entries
(`sklearn/lightgbm/cross_validation.go:134-200`) -/
def stratifiedSeeded [BEq α] (G : Rng β) (y : Nat → α) (n : Nat) (k : Int) (shuffled : Bool) (seed : Int)
    (first second : List (α × List Nat) → List (α × List Nat)) : Outcome (List Fold) :=
  let gs := groups y n
  stratified n k (second (if shuffled then shuffleClasses G (seedState G seed) (first gs) else gs))

end Scigo.CV
