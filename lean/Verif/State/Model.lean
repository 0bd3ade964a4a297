import Mathlib.Logic.Relation
import Mathlib.Data.List.Basic

/-!
# `core/model/state_manager.go`: the shared fitted state under a `sync.RWMutex`
-/

namespace Scigo.State

/-- The guarded fields. Models `core/model/state_manager.go:11-18`. -/
structure Fields where
  fitted : Bool
  nFeatures : Int
  nSamples : Int
  deriving DecidableEq, Repr

/-- A value read from a field. (core/model/state_manager.go:28-100) -/
inductive Val
  | b (v : Bool)
  | n (v : Int)
  deriving DecidableEq, Repr

/-- The methods of `StateManager`. Models `core/model/state_manager.go:28-99`.
`RequireFitted` (65-70) is `isFitted` followed by local computation; `WithState` and
`WithStateMut` run caller code under the lock: `State/Nested.lean`. -/
inductive Op
  | isFitted
  | setFitted
  | reset
  | setDimensions (nf ns : Int)
  | getDimensions
  | getState
  | setState (s : Fields)
  deriving DecidableEq, Repr

/-- One memory access to one field: the granularity at which goroutines interleave. (core/model/state_manager.go:28-100) -/
inductive Micro
  | rdFitted
  | rdFeatures
  | rdSamples
  | wrFitted (v : Bool)
  | wrFeatures (v : Int)
  | wrSamples (v : Int)
  deriving DecidableEq, Repr

/-- Does the method take `mu.RLock` (rather than `mu.Lock`)?
Models `core/model/state_manager.go:29,36,43,52,60,83,95`. -/
def Op.reads : Op → Bool
  | .isFitted => true
  | .getDimensions => true
  | .getState => true
  | .setFitted => false
  | .reset => false
  | .setDimensions _ _ => false
  | .setState _ => false

/-- The field accesses of the method body, in program order.
Models `core/model/state_manager.go:31,38,45-47,54-55,62,86-90,98-100`. -/
def Op.body : Op → List Micro
  | .isFitted => [.rdFitted]
  | .setFitted => [.wrFitted true]
  | .reset => [.wrFitted false, .wrFeatures 0, .wrSamples 0]
  | .setDimensions nf ns => [.wrFeatures nf, .wrSamples ns]
  | .getDimensions => [.rdFeatures, .rdSamples]
  | .getState => [.rdFitted, .rdFeatures, .rdSamples]
  | .setState s => [.wrFitted s.fitted, .wrFeatures s.nFeatures, .wrSamples s.nSamples]

/-- Effect of one access on the fields and on the values read so far. (core/model/state_manager.go:28-100) -/
def Micro.exec : Micro → Fields × List Val → Fields × List Val
  | .rdFitted, (m, r) => (m, r ++ [.b m.fitted])
  | .rdFeatures, (m, r) => (m, r ++ [.n m.nFeatures])
  | .rdSamples, (m, r) => (m, r ++ [.n m.nSamples])
  | .wrFitted v, (m, r) => ({ m with fitted := v }, r)
  | .wrFeatures v, (m, r) => ({ m with nFeatures := v }, r)
  | .wrSamples v, (m, r) => ({ m with nSamples := v }, r)

/-- A method call holding the lock: the method, accesses still to do, values read. (core/model/state_manager.go:28-100) -/
structure Active where
  op : Op
  rem : List Micro
  regs : List Val

/-- A goroutine: finished calls with the values they read, the call in progress (holding
the lock), the calls still to make. (core/model/state_manager.go:28-100) -/
structure Gor where
  done : List (Op × List Val)
  active : Option Active
  pending : List Op

/-- The whole system: `sync.RWMutex` state (number of readers, writer flag), the fields, the
goroutines and the log of finished calls in the order of their unlock. (core/model/state_manager.go:28-100) -/
structure Config where
  readers : Nat
  writer : Bool
  mem : Fields
  gors : List Gor
  log : List (Op × List Val)

/-- One step of some goroutine. Models the `Lock/RLock … defer Unlock/RUnlock` bracket of every
method in `core/model/state_manager.go:28-100` and the `sync.RWMutex` contract: a reader
enters when there is no writer, a writer when there is neither reader nor writer.
Simplified: Go additionally holds back new readers while a writer waits, which only
removes schedules. -/
inductive Step : Config → Config → Prop
  | rlock (n m A d op ops B log) : op.reads = true →
      Step ⟨n, false, m, A ++ ⟨d, none, op :: ops⟩ :: B, log⟩
        ⟨n + 1, false, m, A ++ ⟨d, some ⟨op, op.body, []⟩, ops⟩ :: B, log⟩
  | lock (m A d op ops B log) : op.reads = false →
      Step ⟨0, false, m, A ++ ⟨d, none, op :: ops⟩ :: B, log⟩
        ⟨0, true, m, A ++ ⟨d, some ⟨op, op.body, []⟩, ops⟩ :: B, log⟩
  | access (n w m A d op a rem regs ops B log) :
      Step ⟨n, w, m, A ++ ⟨d, some ⟨op, a :: rem, regs⟩, ops⟩ :: B, log⟩
        ⟨n, w, (a.exec (m, regs)).1,
          A ++ ⟨d, some ⟨op, rem, (a.exec (m, regs)).2⟩, ops⟩ :: B, log⟩
  | runlock (n w m A d op regs ops B log) : op.reads = true →
      Step ⟨n + 1, w, m, A ++ ⟨d, some ⟨op, [], regs⟩, ops⟩ :: B, log⟩
        ⟨n, w, m, A ++ ⟨d ++ [(op, regs)], none, ops⟩ :: B, log ++ [(op, regs)]⟩
  | unlock (n m A d op regs ops B log) : op.reads = false →
      Step ⟨n, true, m, A ++ ⟨d, some ⟨op, [], regs⟩, ops⟩ :: B, log⟩
        ⟨n, false, m, A ++ ⟨d ++ [(op, regs)], none, ops⟩ :: B, log ++ [(op, regs)]⟩

/-- Goroutines with the given call sequences, lock free. (core/model/state_manager.go:28-100) -/
def Config.start (m : Fields) (progs : List (List Op)) : Config :=
  ⟨0, false, m, progs.map (fun ops => ⟨[], none, ops⟩), []⟩

/-- Reachability under an arbitrary scheduler. (core/model/state_manager.go:28-100) -/
def Reaches : Config → Config → Prop := Relation.ReflTransGen Step

end Scigo.State
