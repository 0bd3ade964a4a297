import Verif.Base.Outcome

/-!
# The streaming pipeline (`performance/large_scale.go`)

`Run` chains the stages and starts one goroutine that counts every matrix of the last channel and forwards it. The stages are
user code, so what comes out of the last stage is an arbitrary sequence. Any number of runs of one pipeline may be going at
once; they share the counters. A state machine step is one channel operation or one locked update. The consumer of a run
may stop receiving at any time. A nil matrix makes `Dims` panic in the goroutine, which ends the whole process.
-/

namespace Scigo.StreamPipe

/-- a matrix: the dimensions its `Dims` reports (they may be anything for a user-defined matrix) and its identity
(`performance/large_scale.go:289-318`) -/
structure Item where
  rows : Int
  cols : Int
  id : Nat
  deriving DecidableEq

/-- `StreamMetrics`; `Throughput` and `Latency` are never written (`performance/large_scale.go:264-270`) -/
structure Metrics where
  samples : Nat
  bytes : Nat
  deriving DecidableEq

/-- 2^64 (`performance/large_scale.go:265`) -/
def two64 : Nat := 2 ^ 64

/-- `int64(x)` of a product: reduction to `[-2^63, 2^63)` (`performance/large_scale.go:321`) -/
def wrap64 (x : Int) : Int := (x + 2 ^ 63) % 2 ^ 64 - 2 ^ 63

/-- the bytes added for a matrix (`performance/large_scale.go:320-327`); the test `bytes > int64(^uint64(0)>>1)` is never true -/
def bytesOf (m : Item) : Nat :=
  let b := wrap64 (wrap64 (m.rows * m.cols) * 8)
  if b < 0 then 2 ^ 63 - 1 else b.toNat

/-- `updateMetrics` of a matrix that is not nil (`performance/large_scale.go:309-328`) -/
def Metrics.update (s : Metrics) (m : Item) : Metrics :=
  if m.rows < 0 ∨ m.cols < 0 then s
  else ⟨(s.samples + m.rows.toNat) % two64, (s.bytes + bytesOf m) % two64⟩

/-- what the goroutine of a run is doing (`performance/large_scale.go:298-304`) -/
inductive Pc
  | receiving
  | sending (m : Item)
  | finished
  deriving DecidableEq

/-- one call to `Run`: the channel of the last stage, the output channel, what the consumer has received.
`given` is not in the program; it records everything the last stage has sent (`performance/large_scale.go:289-307`) -/
structure RunSt where
  cap : Nat
  src : List (Option Item)
  srcClosed : Bool
  pc : Pc
  out : List Item
  got : List Item
  given : List (Option Item)
  deriving DecidableEq

/-- the goroutine has closed the output channel (`performance/large_scale.go:299`) -/
def RunSt.closed (r : RunSt) : Bool := decide (r.pc = .finished)

/-- a run that has just started (`performance/large_scale.go:289-298`) -/
def RunSt.start (cap : Nat) : RunSt := ⟨cap, [], false, .receiving, [], [], []⟩

/-- the whole program: counters, the runs, whether the process has died; `taken` is not in the program, it records which
matrices were counted and for which run (`performance/large_scale.go:250-328`) -/
structure St where
  metrics : Metrics
  runs : List RunSt
  dead : Bool
  taken : List (Nat × Item)

/-- a new pipeline (`performance/large_scale.go:273-281`) -/
def St.new : St := ⟨⟨0, 0⟩, [], false, []⟩

/-- one step of the process (`performance/large_scale.go:289-328`) -/
inductive Step : St → St → Prop
  /-- `Run` is called; a negative buffer size panics in `make` and starts nothing -/
  | call (s : St) (cap : Nat) : s.dead = false → Step s { s with runs := s.runs ++ [.start cap] }
  /-- the last stage sends a matrix, possibly nil -/
  | feed (s : St) (i : Nat) (r : RunSt) (x : Option Item) : s.dead = false → s.runs[i]? = some r → r.srcClosed = false →
      Step s { s with runs := s.runs.set i { r with src := r.src ++ [x], given := r.given ++ [x] } }
  /-- the last stage closes its channel -/
  | close (s : St) (i : Nat) (r : RunSt) : s.dead = false → s.runs[i]? = some r → r.srcClosed = false →
      Step s { s with runs := s.runs.set i { r with srcClosed := true } }
  /-- the goroutine receives a matrix and counts it -/
  | take (s : St) (i : Nat) (r : RunSt) (m : Item) (q : List (Option Item)) : s.dead = false → s.runs[i]? = some r →
      r.pc = .receiving → r.src = some m :: q →
      Step s { s with metrics := s.metrics.update m, runs := s.runs.set i { r with src := q, pc := .sending m },
                      taken := s.taken ++ [(i, m)] }
  /-- the goroutine receives a nil matrix -/
  | crash (s : St) (i : Nat) (r : RunSt) (q : List (Option Item)) : s.dead = false → s.runs[i]? = some r →
      r.pc = .receiving → r.src = none :: q → Step s { s with dead := true }
  /-- the goroutine puts the matrix into the output buffer -/
  | send (s : St) (i : Nat) (r : RunSt) (m : Item) : s.dead = false → s.runs[i]? = some r → r.pc = .sending m →
      r.out.length < r.cap → Step s { s with runs := s.runs.set i { r with pc := .receiving, out := r.out ++ [m] } }
  /-- the goroutine hands the matrix to a waiting consumer -/
  | hand (s : St) (i : Nat) (r : RunSt) (m : Item) : s.dead = false → s.runs[i]? = some r → r.pc = .sending m →
      r.out = [] → Step s { s with runs := s.runs.set i { r with pc := .receiving, got := r.got ++ [m] } }
  /-- the goroutine sees the closed channel and closes the output -/
  | finish (s : St) (i : Nat) (r : RunSt) : s.dead = false → s.runs[i]? = some r → r.pc = .receiving → r.src = [] →
      r.srcClosed = true → Step s { s with runs := s.runs.set i { r with pc := .finished } }
  /-- the consumer receives from the buffer -/
  | recv (s : St) (i : Nat) (r : RunSt) (m : Item) (q : List Item) : s.dead = false → s.runs[i]? = some r →
      r.out = m :: q → Step s { s with runs := s.runs.set i { r with out := q, got := r.got ++ [m] } }

/-- the states a process can get into (`performance/large_scale.go:289-328`) -/
inductive Reach : St → Prop
  | new : Reach .new
  | step {s s' : St} : Reach s → Step s s' → Reach s'

/-- `AddStage` (`performance/large_scale.go:284-286`); a stage is any function from channels to channels -/
def addStage {C : Type} (stages : List (C → C)) (f : C → C) : List (C → C) := stages ++ [f]

/-- the channel the collecting goroutine reads (`performance/large_scale.go:290-294`) -/
def lastChannel {C : Type} (stages : List (C → C)) (input : C) : C := stages.foldl (fun c f => f c) input

end Scigo.StreamPipe
