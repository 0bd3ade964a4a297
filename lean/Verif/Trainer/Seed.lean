import Verif.Trainer.Fit
import Verif.Base.Rand

/-!
# Where the random numbers of LightGBM training come from

Model of the generators of `NewSamplingStrategy`, `SampleFeatures`, `SampleInstances` (`sklearn/lightgbm/trainer_params.go`) and
`gosssampling` (`sklearn/lightgbm/trainer.go`): their seeds, when they are seeded again and how many numbers each call draws. The numbers
drawn are then handed to the training loop of `Verif.Trainer.Fit`.

Not modelled: sampling of features draws from the same generator, but the features drawn are not read by training (see `Verif.Trainer.Fit`).
-/

set_option linter.unusedSectionVars false

namespace Scigo.Trainer

variable {α : Type}

/-- what differs from run to run of the same program: `rand.Uint32()` of the global generator, the clock (`UnixNano`) read in each iteration
and the order of maps (sklearn/lightgbm/trainer_params.go:21, sklearn/lightgbm/trainer.go:967, sklearn/lightgbm/histogram_optimization.go:190,
sklearn/lightgbm/categorical.go:80) -/
structure World (α : Type) where
  uint32 : Nat
  clock : Nat → Int
  iter : List (Hist.Cat α) → List (Hist.Cat α)

/-- the parameters that decide about the random numbers: `Seed`, `Deterministic` and `FeatureFraction`
(sklearn/lightgbm/trainer_params.go:18-31) -/
structure Seeding (α : Type) where
  seed : Int
  deterministic : Bool
  featureFraction : α

/-- the generator of a new sampler: sklearn/lightgbm/trainer_params.go:19-25 -/
def Seeding.start (S : Seeding α) (G : Rng α) (uint32 : Nat) : Nat :=
  let seed : Int := if S.seed = 0 ∧ S.deterministic = false then uint32 else S.seed
  G.pcg (toU64 seed) (toU64 seed)

/-- `m` draws `IntN(n), IntN(n-1), …`: sklearn/lightgbm/trainer_params.go:66-69, 117-120, sklearn/lightgbm/trainer.go:968-969 -/
def drawValues (G : Rng α) : Nat → Nat → Nat → List Nat × Nat
  | 0, _, s => ([], s)
  | m + 1, n, s =>
    let d := G.int s n
    let r := drawValues G m (n - 1) d.2
    (d.1 :: r.1, r.2)

/-- seeding again in the deterministic mode, from a number drawn and the iteration: sklearn/lightgbm/trainer_params.go:54-58, 105-109;
`uint64` addition wraps around -/
def Seeding.reseed (S : Seeding α) (G : Rng α) (iteration s : Nat) : Nat :=
  if S.deterministic then G.pcg (((G.u64 s).1 + iteration) % 18446744073709551616) iteration else s

section
variable [LT α] [DecidableLT α] [LE α] [DecidableLE α] [Zero α] [One α] [Add α] [Sub α] [Mul α] [Div α] [Neg α]

/-- the generator after `SampleFeatures`: sklearn/lightgbm/trainer_params.go:34-72 -/
def Seeding.afterFeatures (S : Seeding α) (G : Rng α) (scale : Int → α → Int) (cols iteration s : Nat) : Nat :=
  if 1 ≤ S.featureFraction ∨ S.featureFraction ≤ 0 then s
  else (drawValues G (sampleSize scale cols S.featureFraction) cols (S.reseed G iteration s)).2

/-- the numbers `SampleInstances` draws and the generator afterwards: sklearn/lightgbm/trainer_params.go:75-123 -/
def Seeding.instanceValues (S : Seeding α) (G : Rng α) (scale : Int → α → Int) (fraction : α) (freq : Int) (rows iteration s : Nat) :
    List Nat × Nat :=
  if freq ≤ 0 ∨ (iteration : Int) % freq ≠ 0 then ([], s)
  else if 1 ≤ fraction ∨ fraction ≤ 0 then ([], s)
  else drawValues G (sampleSize scale rows fraction) rows (S.reseed G iteration s)

/-- the numbers `gosssampling` draws, from a generator of its own seeded anew in each iteration: sklearn/lightgbm/trainer.go:961-970 -/
def Seeding.gossValues (S : Seeding α) (G : Rng α) (scale : Int → α → Int) (topRate otherRate : α) (rows : Nat) (now : Int) : List Nat :=
  let top := topCount scale rows topRate
  let seed := if S.seed = 0 then now else S.seed
  (drawValues G (min (otherCount scale rows topRate otherRate) (rows - top)) (rows - top) (G.pcg (toU64 seed) (toU64 seed))).1

/-- the numbers drawn in iterations `iteration, …` for the rows, `n` of them, from the state `s` of the sampler:
sklearn/lightgbm/trainer.go:472-488 -/
def Config.values (C : Config α) (S : Seeding α) (G : Rng α) (scale : Int → α → Int) (P : Problem α) (w : World α) :
    Nat → Nat → Nat → List (List Nat)
  | 0, _, _ => []
  | n + 1, iteration, s =>
    let s1 := S.afterFeatures G scale P.cols iteration s
    if C.boosting = "goss" then
      S.gossValues G scale C.topRate C.otherRate P.rows (w.clock iteration) :: C.values S G scale P w n (iteration + 1) s1
    else
      let d := S.instanceValues G scale C.baggingFraction C.baggingFreq P.rows iteration s1
      d.1 :: C.values S G scale P w n (iteration + 1) d.2

end

section
variable [DecidableEq α] [LT α] [DecidableLT α] [LE α] [DecidableLE α] [Zero α] [One α] [Add α] [Sub α] [Neg α] [Mul α] [Div α]

/-- `NewTrainer(params)` and `Fit` with the generators: sklearn/lightgbm/trainer.go:187-237, 388-553; the trainer is new, as in the estimators, which
create one for every `Fit` (sklearn/lightgbm/lgbm_regressor.go:218,304,392, sklearn/lightgbm/lgbm_classifier.go:201,294,391) -/
def Config.fitSeeded (C : Config α) (S : Seeding α) (G : Rng α) (lib : Lib α) (w : World α) (byGrad : (Nat → α) → List Nat → List Nat) (fuel : Nat)
    (P : Problem α) (before after : Nat → St α → CB) : Outcome (St α) :=
  let vs := C.values S G lib.scale P w C.iterations 0 (S.start G w.uint32)
  C.fit { lib with iter := w.iter } byGrad (fun k i => (vs.getD k []).getD i 0) fuel P before after St.new

end
end Scigo.Trainer
