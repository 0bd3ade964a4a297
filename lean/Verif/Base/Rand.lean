import Verif.Base.Outcome

/-!
# Pseudo-random generators

`math/rand/v2` as a state machine. The state of `rand.PCG` is 128 bits, here a number; the functions of the library that compute
values and next states are parameters, so that theorems hold for every generator. One call may consume several outputs
(`IntN` rejects, `NormFloat64` rejects), which the next state reflects.
-/

namespace Scigo

/-- the calls of `math/rand/v2` that the code makes (sklearn/linear_model/sgd_regressor.go:88,190,204,
sklearn/cluster/minibatch_kmeans.go:465,510,545, sklearn/lightgbm/trainer_params.go:21,57): `pcg a b` is the state of
`rand.New(rand.NewPCG(a, b))`, the others return a value and the next state; `int s n` is the value behind `IntN(n)`, taken modulo `n` where
it is used -/
structure Rng (α : Type _) where
  pcg : Nat → Nat → Nat
  u64 : Nat → Nat × Nat
  int : Nat → Nat → Nat × Nat
  norm : Nat → α × Nat
  flt : Nat → α × Nat

variable {α : Type _}

/-- `uint64(seed)` (sklearn/linear_model/sgd_regressor.go:88) -/
def toU64 (seed : Int) : Nat := (seed % 18446744073709551616).toNat

/-- the generator of a constructor (sklearn/linear_model/sgd_regressor.go:87-91, sklearn/linear_model/sgd_classifier.go:91-95,
sklearn/cluster/minibatch_kmeans.go:81-85); `clock` are the two readings of the clock, `salted` is `^0xdeadbeef` -/
def Rng.forSeed (G : Rng α) (salted : Nat → Nat) (seed : Int) (clock : Nat × Nat) : Nat :=
  if 0 ≤ seed then G.pcg (toU64 seed) (toU64 seed) else G.pcg clock.1 (salted clock.2)

/-- the field `randomState` after the options: each `WithRandomState(seed)` sets it; the default is -1. The generator these options also
create is replaced by the constructor (sklearn/linear_model/sgd_regressor.go:73,83-91,163-169) -/
def randomState (options : List Int) : Int := options.foldl (fun _ s => s) (-1)

/-- `rng.Shuffle(n, swap)`: swaps `(i, j)` for `i = n-1 … 1` and `j ≤ i` (sklearn/lightgbm/cross_validation.go:62,149,
sklearn/linear_model/sgd_regressor.go:204); the library's loop, outside the repository -/
def Rng.swaps (G : Rng α) : Nat → Nat → List (Nat × Nat) × Nat
  | 0, s => ([], s)
  | 1, s => ([], s)
  | n + 2, s =>
    let d := G.int s (n + 2)
    let r := G.swaps (n + 1) d.2
    ((n + 1, d.1 % (n + 2)) :: r.1, r.2)

end Scigo
