import Mathlib.Logic.Relation
import Mathlib.Data.List.Basic

/-!
# `WithState` and `WithStateMut`: callbacks that run while the lock is held

Model of the lock operations of `core/model/state_manager.go`, with the rule of `sync.RWMutex` that a `Lock` that waits holds
back new readers. The fields themselves are modelled in `Verif.State.Model`; here an access to a field, like any other
computation of a callback, is `act`.
-/

namespace Scigo.State.Nested

/-- what a goroutine does with a state manager (core/model/state_manager.go:28-116): its own computation, a method that takes `RLock`
(`IsFitted`, `GetDimensions`, `GetState`, and `WithState` with what its callback does), or one that takes `Lock` (`SetFitted`,
`Reset`, `SetDimensions`, `SetState`, and `WithStateMut`) -/
inductive Call
  | act
  | read (body : List Call)
  | write (body : List Call)

/-- the operations of `sync.RWMutex` and others (core/model/state_manager.go:28-116) -/
inductive Instr
  | act
  | rlock
  | runlock
  | lock
  | unlock
  deriving DecidableEq

mutual
/-- `mu.RLock(); defer mu.RUnlock(); …` and `mu.Lock(); defer mu.Unlock(); …` (core/model/state_manager.go:105-116) -/
def Call.code : Call → List Instr
  | .act => [.act]
  | .read body => .rlock :: (codes body ++ [.runlock])
  | .write body => .lock :: (codes body ++ [.unlock])
/-- one call after the other (core/model/state_manager.go:105-116) -/
def codes : List Call → List Instr
  | [] => []
  | c :: cs => c.code ++ codes cs
end

/-- `IsFitted`, `GetDimensions` (one or two field accesses) (core/model/state_manager.go:28-32, 59-63) -/
def getter (n : Nat) : Call := .read (List.replicate n .act)
/-- `SetFitted`, `Reset`, `SetDimensions`, `SetState` (core/model/state_manager.go:35-56, 94-101) -/
def setter (n : Nat) : Call := .write (List.replicate n .act)
/-- `WithState(fn)` (core/model/state_manager.go:105-109) -/
def withState (fn : List Call) : Call := .read fn
/-- `WithStateMut(fn)` (core/model/state_manager.go:112-116) -/
def withStateMut (fn : List Call) : Call := .write fn

/-- a goroutine: read locks held, is its `Lock` call waiting, does it hold the write lock, what is left to do (core/model/state_manager.go:28-116) -/
structure Gor where
  r : Nat
  waiting : Bool
  w : Bool
  todo : List Instr

/-- a `Lock` call of the goroutine waits or holds the lock (core/model/state_manager.go:28-116) -/
def Gor.busy (g : Gor) : Bool := g.waiting || g.w

/-- no `Lock` call waits or holds the lock, so `RLock` returns and a `Lock` may start to wait (core/model/state_manager.go:28-116) -/
def open' (c : List Gor) : Prop := ∀ g ∈ c, g.busy = false

/-- one step of a goroutine among `c`: the contract of `sync.RWMutex`. `RLock` returns when no `Lock` waits or holds; `Lock` first
announces itself (one at a time) and returns when no reader is left; `RUnlock` without a read lock and `Unlock` without the write
lock are fatal errors in Go and do not occur here (core/model/state_manager.go:28-116) -/
inductive Move (c : List Gor) : Gor → Gor → Prop
  | act (r q w t) : Move c ⟨r, q, w, .act :: t⟩ ⟨r, q, w, t⟩
  | rlock (r q w t) : open' c → Move c ⟨r, q, w, .rlock :: t⟩ ⟨r + 1, q, w, t⟩
  | runlock (r q w t) : Move c ⟨r + 1, q, w, .runlock :: t⟩ ⟨r, q, w, t⟩
  | announce (r w t) : open' c → Move c ⟨r, false, w, .lock :: t⟩ ⟨r, true, w, .lock :: t⟩
  | lock (r w t) : (∀ g ∈ c, g.r = 0) → Move c ⟨r, true, w, .lock :: t⟩ ⟨r, false, true, t⟩
  | unlock (r q t) : Move c ⟨r, q, true, .unlock :: t⟩ ⟨r, q, false, t⟩

/-- some goroutine makes a step (core/model/state_manager.go:28-116) -/
def Step (c c' : List Gor) : Prop := ∃ i g g', c[i]? = some g ∧ Move c g g' ∧ c' = c.set i g'

/-- any number of goroutines about to make their calls (core/model/state_manager.go:28-116) -/
def start (progs : List (List Call)) : List Gor := progs.map fun p => ⟨0, false, false, codes p⟩

/-- any schedule (core/model/state_manager.go:28-116) -/
def Reaches : List Gor → List Gor → Prop := Relation.ReflTransGen Step

end Scigo.State.Nested
