import Verif.Hist.Model
import Mathlib.Logic.Relation

/-!
# The parallel parts of histogram construction

`sklearn/lightgbm/parallel_histogram.go` and the worker pool of `BuildHistograms`, as transition systems.

* `Pool`: workers take feature numbers from a buffered channel and write the histogram of the feature to its own slot.
* `Merge`: one goroutine per chunk of rows adds its local sums to shared cells, with `atomic.AddInt64` for the counts and a
  load / compare-and-swap loop on an `atomic.Value` for the two sums. `atomic.Value.CompareAndSwap` compares the stored value with
  the old one by Go's `==`, then swaps if the stored pointer has not changed since (or has the same value again).
-/

set_option linter.unusedSectionVars false

namespace Scigo.Hist

variable {α β : Type}

/-! ### Features over a worker pool -/

/-- what a worker is doing (sklearn/lightgbm/histogram_optimization.go:86-114) -/
inductive PoolWorker
  | idle
  | busy (feature : Nat)
  | done
  deriving DecidableEq

/-- the main goroutine has sent features `0 .. next-1`; `out` is the slice of histograms (sklearn/lightgbm/histogram_optimization.go:86-114) -/
structure Pool (β : Type) where
  next : Nat
  queue : List Nat
  closed : Bool
  ws : List PoolWorker
  out : Nat → β

/-- writing slot `f` (sklearn/lightgbm/histogram_optimization.go:86-114) -/
def Pool.write (p : Pool β) (f : Nat) (v : β) : Nat → β := fun i => if i = f then v else p.out i

/-- one step of some goroutine of `BuildHistograms` or `buildWithFeatureParallelization`: sklearn/lightgbm/histogram_optimization.go:86-114,
sklearn/lightgbm/parallel_histogram.go:54-92. `build f` is the histogram of feature `f`. -/
inductive PoolStep (cols : Nat) (build : Nat → β) : Pool β → Pool β → Prop
  /-- `ch <- j`: the buffer has room for `cols` features -/
  | send (p : Pool β) (h : p.next < cols) (hcap : p.queue.length < cols) (ho : p.closed = false) :
      PoolStep cols build p ⟨p.next + 1, p.queue ++ [p.next], p.closed, p.ws, p.out⟩
  /-- `close(ch)` -/
  | close (p : Pool β) (h : p.next = cols) (ho : p.closed = false) :
      PoolStep cols build p ⟨p.next, p.queue, true, p.ws, p.out⟩
  /-- a worker receives a feature -/
  | take (p : Pool β) (l r : List PoolWorker) (f : Nat) (q : List Nat) (hw : p.ws = l ++ .idle :: r) (hq : p.queue = f :: q) :
      PoolStep cols build p ⟨p.next, q, p.closed, l ++ .busy f :: r, p.out⟩
  /-- a worker writes the histogram of its feature -/
  | write (p : Pool β) (l r : List PoolWorker) (f : Nat) (hw : p.ws = l ++ .busy f :: r) :
      PoolStep cols build p ⟨p.next, p.queue, p.closed, l ++ .idle :: r, p.write f (build f)⟩
  /-- a worker finds the channel closed and empty: `wg.Done()` -/
  | finish (p : Pool β) (l r : List PoolWorker) (hw : p.ws = l ++ .idle :: r) (hc : p.closed = true) (hq : p.queue = []) :
      PoolStep cols build p ⟨p.next, p.queue, p.closed, l ++ .done :: r, p.out⟩

/-- the state when the workers have been started: sklearn/lightgbm/histogram_optimization.go:86-92 -/
def Pool.start (workers : Nat) (init : Nat → β) : Pool β := ⟨0, [], false, List.replicate workers .idle, init⟩

/-- `wg.Wait()` returns: every worker is done and the main goroutine has closed the channel: sklearn/lightgbm/histogram_optimization.go:111-113 -/
def Pool.returned (p : Pool β) : Prop := p.closed = true ∧ ∀ w ∈ p.ws, w = .done

/-! ### Chunks merged by compare-and-swap -/

/-- one shared update of a goroutine: the count of a bin, or the sum of gradients (`false`) or hessians (`true`) of a bin:
sklearn/lightgbm/parallel_histogram.go:216-236 -/
inductive Op (α : Type)
  | count (bin : Nat) (n : Int)
  | add (cell : Bool × Nat) (v : α)
  deriving DecidableEq

/-- an `atomic.Value`: its value and how often it was stored to; two stores of equal values have different numbers (sklearn/lightgbm/parallel_histogram.go:176-240) -/
structure Cell (α : Type) where
  val : α
  ver : Nat

/-- where a goroutine is in its current compare-and-swap loop. The number in `loaded` is not part of the program; it records
which store was read. (sklearn/lightgbm/parallel_histogram.go:176-240) -/
inductive Phase (α : Type)
  | fresh
  | loaded (old : α) (ver : Nat)
  | checked (old : α) (ver : Nat)

/-- a goroutine: the updates left and its phase in the first of them (sklearn/lightgbm/parallel_histogram.go:176-240) -/
structure Merger (α : Type) where
  ops : List (Op α)
  ph : Phase α

/-- the shared cells and the goroutines (sklearn/lightgbm/parallel_histogram.go:176-240) -/
structure Merge (α : Type) where
  counts : Nat → Int
  cells : Bool × Nat → Cell α
  ws : List (Merger α)

/-- storing to a cell (sklearn/lightgbm/parallel_histogram.go:176-240) -/
def setCell (cells : Bool × Nat → Cell α) (k : Bool × Nat) (v : α) : Bool × Nat → Cell α :=
  fun j => if j = k then ⟨v, (cells k).ver + 1⟩ else cells j

/-- adding to a counter (sklearn/lightgbm/parallel_histogram.go:176-240) -/
def addCount (counts : Nat → Int) (b : Nat) (n : Int) : Nat → Int := fun j => if j = b then counts b + n else counts j

/-- one atomic action of a goroutine: sklearn/lightgbm/parallel_histogram.go:217-235. `eqv` is Go's `==` on `float64`. -/
inductive Act [Add α] (eqv : α → α → Bool) (counts : Nat → Int) (cells : Bool × Nat → Cell α) :
    Merger α → (Nat → Int) → (Bool × Nat → Cell α) → Merger α → Prop
  /-- `atomic.AddInt64` -/
  | count (b : Nat) (n : Int) (r : List (Op α)) (ph : Phase α) :
      Act eqv counts cells ⟨.count b n :: r, ph⟩ (addCount counts b n) cells ⟨r, .fresh⟩
  /-- `Load` -/
  | load (k : Bool × Nat) (v : α) (r : List (Op α)) :
      Act eqv counts cells ⟨.add k v :: r, .fresh⟩ counts cells ⟨.add k v :: r, .loaded (cells k).val (cells k).ver⟩
  /-- `CompareAndSwap`: the values compare equal -/
  | same (k : Bool × Nat) (v : α) (r : List (Op α)) (o : α) (n : Nat) (h : eqv (cells k).val o = true) :
      Act eqv counts cells ⟨.add k v :: r, .loaded o n⟩ counts cells ⟨.add k v :: r, .checked o (cells k).ver⟩
  /-- `CompareAndSwap`: they do not, so it returns false and the loop starts again -/
  | differ (k : Bool × Nat) (v : α) (r : List (Op α)) (o : α) (n : Nat) (h : eqv (cells k).val o = false) :
      Act eqv counts cells ⟨.add k v :: r, .loaded o n⟩ counts cells ⟨.add k v :: r, .fresh⟩
  /-- `CompareAndSwap`: the pointer is unchanged, or again one to the same value, and is swapped -/
  | swap (k : Bool × Nat) (v : α) (r : List (Op α)) (o : α) (n : Nat) (h : (cells k).ver = n ∨ (cells k).val = o) :
      Act eqv counts cells ⟨.add k v :: r, .checked o n⟩ counts (setCell cells k (o + v)) ⟨r, .fresh⟩
  /-- `CompareAndSwap`: the pointer has changed -/
  | lost (k : Bool × Nat) (v : α) (r : List (Op α)) (o : α) (n : Nat) (h : (cells k).ver ≠ n) :
      Act eqv counts cells ⟨.add k v :: r, .checked o n⟩ counts cells ⟨.add k v :: r, .fresh⟩

/-- one step of some goroutine (sklearn/lightgbm/parallel_histogram.go:176-240) -/
def MergeStep [Add α] (eqv : α → α → Bool) (s s' : Merge α) : Prop :=
  ∃ l w r w', s.ws = l ++ w :: r ∧ Act eqv s.counts s.cells w s'.counts s'.cells w' ∧ s'.ws = l ++ w' :: r

/-- `wg.Wait()` returns: no goroutine has anything left to do: sklearn/lightgbm/parallel_histogram.go:242 -/
def Merge.finished (s : Merge α) : Prop := ∀ w ∈ s.ws, w.ops = []

section local'
variable [DecidableEq α] [LT α] [DecidableLT α] [LE α] [DecidableLE α] [Zero α] [One α] [Add α] [Sub α]

/-- the rows of chunk `c`: sklearn/lightgbm/parallel_histogram.go:187-195 -/
def chunk (size : Nat) (indices : List Nat) (c : Nat) : List Nat := (indices.drop (c * size)).take size

/-- `numChunks`: sklearn/lightgbm/parallel_histogram.go:187 -/
def numChunks (size n : Nat) : Nat := (n + size - 1) / size

/-- the updates of the goroutine of a chunk: local accumulation over its rows, then one group of updates for each bin with
rows: sklearn/lightgbm/parallel_histogram.go:198-238 -/
def localOps (b : List α) (x g h : Nat → α) (rows : List Nat) : List (Op α) :=
  let bins := fill findBinIndexOpt b x g h rows
  (List.range (b.length - 1)).flatMap fun k => match bins[k]? with
    | none => []
    | some v => if 0 < v.count then [.count k v.count, .add (false, k) v.grad, .add (true, k) v.hess] else []

/-- the state before the goroutines run: sklearn/lightgbm/parallel_histogram.go:175-196 -/
def Merge.start (size : Nat) (b : List α) (x g h : Nat → α) (indices : List Nat) : Merge α :=
  ⟨fun _ => 0, fun _ => ⟨0, 0⟩,
    (List.range (numChunks size indices.length)).map fun c => ⟨localOps b x g h (chunk size indices c), .fresh⟩⟩

/-- the histogram read from the cells: sklearn/lightgbm/parallel_histogram.go:244-261 -/
def Merge.result (s : Merge α) (feature : Nat) (b : List α) : Hist α :=
  ⟨feature, (List.range (b.length - 1)).map fun k =>
    ⟨b.getD k 0, b.getD (k + 1) 0, s.counts k, (s.cells (false, k)).val, (s.cells (true, k)).val⟩, b⟩

end local'

end Scigo.Hist
