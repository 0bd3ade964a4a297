import Verif.Hist.Merge

/-!
# The parallel histogram builder as a whole

`ParallelHistogramBuilder` (`sklearn/lightgbm/parallel_histogram.go`): its settings, and `BuildHistogramsParallel` with the choice between a pool of
workers over the features and one goroutine per chunk of rows. What a call may return is a relation, because the goroutines may interleave in any
way; a call that never returns (`NaN` sums, see `Verif.Hist.MergeProps`) is related to nothing.

Not modelled: indices outside the matrix, which panic in a goroutine; `maxBins` below 1.
-/

set_option linter.unusedSectionVars false

namespace Scigo.Hist

variable {α : Type}

/-- `ParallelHistogramBuilder`: sklearn/lightgbm/parallel_histogram.go:12-16 -/
structure PBuilder where
  maxBins : Nat
  workers : Int
  chunkSize : Int
  deriving DecidableEq

/-- `NewParallelHistogramBuilder` on a machine with `cpus` processors: sklearn/lightgbm/parallel_histogram.go:19-32 -/
def PBuilder.new (cpus : Nat) (maxBins : Nat) : PBuilder := ⟨maxBins, cpus, if 8 < cpus then 500 else 1000⟩

/-- `SetNumWorkers`: sklearn/lightgbm/parallel_histogram.go:360-364 -/
def PBuilder.setNumWorkers (B : PBuilder) (n : Int) : PBuilder := if 0 < n then { B with workers := n } else B

/-- `SetChunkSize`: sklearn/lightgbm/parallel_histogram.go:367-371 -/
def PBuilder.setChunkSize (B : PBuilder) (n : Int) : PBuilder := if 0 < n then { B with chunkSize := n } else B

/-- a builder a program can have: one made by the constructor (`runtime.NumCPU` is at least 1) and then set any number of times
(sklearn/lightgbm/parallel_histogram.go:19-32, 360-371) -/
inductive PBuilder.Made : PBuilder → Prop
  | new (cpus maxBins : Nat) (h : 1 ≤ cpus) : PBuilder.Made (PBuilder.new cpus maxBins)
  | workers (B : PBuilder) (n : Int) (h : B.Made) : PBuilder.Made (B.setNumWorkers n)
  | chunk (B : PBuilder) (n : Int) (h : B.Made) : PBuilder.Made (B.setChunkSize n)

/-- what a call is given: the matrix, the rows, the derivatives and the categorical features, and the library: float literals, the index computation
and the sorting of the bounds, conversions, map order and sorting of the categories (sklearn/lightgbm/parallel_histogram.go:35-37) -/
structure PInput (α : Type) where
  cols : Nat
  x : Nat → Nat → α
  g : Nat → α
  h : Nat → α
  indices : List Nat
  categorical : List Int
  lits : Lits α
  trunc : Nat → Nat → Nat → Nat
  srt : List α → List α
  toInt : α → Int
  ofInt : Int → α
  iter : List (Cat α) → List (Cat α)
  byCategory : List (Cat α) → List (Cat α)

/-- `isCategoricalFeature`: sklearn/lightgbm/histogram_optimization.go:71-78 -/
def isCategorical (f : Nat) (categorical : List Int) : Bool := categorical.any fun c => c = (f : Int)

/-- the choice of the strategy: sklearn/lightgbm/parallel_histogram.go:42 -/
def bySamples (n cols : Nat) : Prop := 10000 < n ∧ cols < 100

instance (n cols : Nat) : Decidable (bySamples n cols) := by unfold bySamples; infer_instance

/-- an element of a new slice of histograms: sklearn/lightgbm/parallel_histogram.go:39 -/
def Hist.empty : Hist α := ⟨0, [], []⟩

variable [DecidableEq α] [LT α] [DecidableLT α] [LE α] [DecidableLE α] [Zero α] [One α] [Add α] [Sub α]

/-- the histogram of a categorical feature: sklearn/lightgbm/parallel_histogram.go:76-79, 113-116 -/
def PInput.cat (I : PInput α) (f : Nat) : Hist α :=
  buildCategorical I.toInt I.ofInt I.iter I.byCategory f (fun i => I.x i f) I.g I.h I.indices

/-- what a worker of the pool computes for a feature: sklearn/lightgbm/parallel_histogram.go:75-84 -/
def PInput.build (I : PInput α) (maxBins f : Nat) : Hist α :=
  if isCategorical f I.categorical then I.cat f
  else buildContinuousOpt I.lits I.trunc I.srt maxBins f (fun i => I.x i f) I.g I.h I.indices

/-- the bounds of a feature: sklearn/lightgbm/parallel_histogram.go:174 -/
def PInput.bounds (I : PInput α) (maxBins f : Nat) : List α := findBinBoundariesOpt I.lits I.trunc I.srt maxBins (I.indices.map fun i => I.x i f)

/-- `out` is what a call of `BuildHistogramsParallel` may return; `eqv` is Go's `==`: sklearn/lightgbm/parallel_histogram.go:35-121. The features are
processed one after the other if the rows are cut into chunks, so that each has its own goroutines. -/
inductive PBuilder.Builds (eqv : α → α → Bool) (B : PBuilder) (I : PInput α) : (Nat → Hist α) → Prop
  | samples (h : bySamples I.indices.length I.cols) (out : Nat → Hist α) (hout : ∀ f, I.cols ≤ f → out f = .empty)
      (hcat : ∀ f < I.cols, isCategorical f I.categorical = true → out f = I.cat f)
      (hcont : ∀ f < I.cols, isCategorical f I.categorical = false → 0 < B.chunkSize ∧ ∃ s, Relation.ReflTransGen (MergeStep eqv)
        (Merge.start B.chunkSize.toNat (I.bounds B.maxBins f) (fun i => I.x i f) I.g I.h I.indices) s ∧ s.finished ∧
        out f = s.result f (I.bounds B.maxBins f)) : PBuilder.Builds eqv B I out
  | features (h : ¬ bySamples I.indices.length I.cols) (p : Pool (Hist α))
      (hrun : Relation.ReflTransGen (PoolStep I.cols (I.build B.maxBins)) (Pool.start B.workers.toNat fun _ => .empty) p) (hret : p.returned) :
      PBuilder.Builds eqv B I p.out

end Scigo.Hist
