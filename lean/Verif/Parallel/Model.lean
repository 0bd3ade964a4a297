import Verif.Base.Outcome
import Mathlib.Logic.Relation

/-!
# `core/parallel`: splitting a loop over CPU cores
-/

namespace Scigo.Parallel

/-- Number of workers: `runtime.NumCPU()`, but no more than items.
Models `core/parallel/parallel.go:16-19`. -/
def numWorkers (items cpus : Nat) : Nat :=
  if cpus > items then items else cpus

/-- Items per worker, ceiling division. Models `core/parallel/parallel.go:22`. -/
def chunkSize (items cpus : Nat) : Nat :=
  (items + numWorkers items cpus - 1) / numWorkers items cpus

/-- The range handled by worker `i`, or nothing when it is skipped.
Models `core/parallel/parallel.go:28-38`. -/
def workerRange (items cpus i : Nat) : Option (Nat × Nat) :=
  let start := i * chunkSize items cpus
  let stop := if start + chunkSize items cpus > items then items else start + chunkSize items cpus
  if start ≥ stop then none else some (start, stop)

/-- All ranges passed to `fn` by `Parallelize`, in the order the goroutines are started.
Models `core/parallel/parallel.go:10-49`. Simplified: `items : Nat` (callers pass row
counts; for a negative count the Go loop starts no worker). -/
def parallelRanges (items cpus : Nat) : List (Nat × Nat) :=
  if items = 0 then []
  else (List.range (numWorkers items cpus)).filterMap (workerRange items cpus)

/-- All ranges passed to `fn` by `ParallelizeWithThreshold`.
Models `core/parallel/parallel.go:53-61`. -/
def thresholdRanges (items threshold cpus : Nat) : List (Nat × Nat) :=
  if items ≤ threshold then [(0, items)] else parallelRanges items cpus

/-! ### The goroutines -/

/-- One atomic memory action of the callback: apply `f` to the cell of index `k`. (core/parallel/parallel.go:10-61) -/
structure Action (β : Type _) where
  idx : Nat
  f : β → β

/-- Shared memory: one cell per item index. (core/parallel/parallel.go:10-61) -/
abbrev Memory (β : Type _) := Nat → β

variable {β : Type _}

/-- Perform one atomic action on the memory. (core/parallel/parallel.go:10-61) -/
def Action.run (a : Action β) (m : Memory β) : Memory β :=
  fun k => if k = a.idx then a.f (m k) else m k

/-- The atomic actions of the call `fn(start, end)` for a callback whose loop body on
index `k` performs the atomic actions `body k` on the cell of `k`
(the callback shape used at `sklearn/linear_model`/`linear`: `for i := start; i < end; i++
{ … out[i] = … }`). Models `core/parallel/parallel.go:41-44` (`fn(s, e)`). -/
def callActions (body : Nat → List (β → β)) (r : Nat × Nat) : List (Action β) :=
  (List.range' r.1 (r.2 - r.1)).flatMap (fun k => (body k).map (fun f => ⟨k, f⟩))

/-- State of a running `Parallelize`: ranges the main goroutine has still to spawn, the
remaining actions of each live worker, the `WaitGroup` counter, the memory, and whether
`Parallelize` has returned.  Models `core/parallel/parallel.go:24-49`. -/
structure Config (β : Type _) where
  pending : List (Nat × Nat)
  workers : List (List (Action β))
  wg : Nat
  mem : Memory β
  returned : Bool

/-- One step of some goroutine.  Models `core/parallel/parallel.go:40-48`:
`wg.Add(1); go …`, a memory action of a worker, `wg.Done()` of a finished worker, and
`wg.Wait()` returning once everything was spawned and the counter is zero. -/
inductive Step (body : Nat → List (β → β)) : Config β → Config β → Prop
  | spawn (r rest ws n m) :
      Step body ⟨r :: rest, ws, n, m, false⟩ ⟨rest, ws ++ [callActions body r], n + 1, m, false⟩
  | work (pend A a p B n m) :
      Step body ⟨pend, A ++ (a :: p) :: B, n, m, false⟩ ⟨pend, A ++ p :: B, n, a.run m, false⟩
  | done (pend A B n m) :
      Step body ⟨pend, A ++ [] :: B, n + 1, m, false⟩ ⟨pend, A ++ B, n, m, false⟩
  | wait (m) :
      Step body ⟨[], [], 0, m, false⟩ ⟨[], [], 0, m, true⟩

/-- Start of `Parallelize(items, fn)` on memory `m`. Models `core/parallel/parallel.go:10-25`. -/
def Config.start (items cpus : Nat) (m : Memory β) : Config β :=
  ⟨parallelRanges items cpus, [], 0, m, false⟩

/-- Reachability under an arbitrary scheduler. (core/parallel/parallel.go:10-61) -/
def Reaches (body : Nat → List (β → β)) : Config β → Config β → Prop :=
  Relation.ReflTransGen (Step body)

/-- The plain loop `for k := 0; k < items; k++ { body(k) }`: the behaviour a user expects
(specification, not taken from the code). (core/parallel/parallel.go:10-61) -/
def sequential (body : Nat → List (β → β)) (items : Nat) (m : Memory β) : Memory β :=
  (List.range items).foldl
    (fun m k => (body k).foldl (fun m f => fun i => if i = k then f (m i) else m i) m) m

end Scigo.Parallel
