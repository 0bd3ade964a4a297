/-!
# Warnings

Model of the global warning handlers (`pkg/errors/errors.go:15-70`): `SetWarningHandler`, `SetZerologWarnFunc` and `Warn` called from any
number of goroutines. A handler is an arbitrary function of the client; what matters here is which of these three functions it calls itself.
The critical sections are those of `warningMutex`, which is not reentrant. Simplification: a handler that panics is not modelled.
-/

namespace Scigo.Warn

/-- a call of this package: `warn w`, `SetWarningHandler(h)` or `SetZerologWarnFunc(h)`; `none` is a nil function
(`pkg/errors/errors.go:37-65`) -/
inductive Op (H W : Type)
  | warn (w : W)
  | setHandler (h : Option H)
  | setZerolog (h : Option H)

/-- what a goroutine is doing: outside the package, with its calls to come, or inside the handler called by its `Warn`, with the calls of this
package the handler still makes (`pkg/errors/errors.go:52-65`) -/
structure Thread (H W : Type) where
  todo : List (Op H W)
  inside : Option (List (Op H W))

/-- the variables of the package (`pkg/errors/errors.go:19-27`), with the goroutine holding the mutex, the goroutines, and two records for the
theorems: the calls in the order in which they got the mutex, and the handlers called with their warnings -/
structure St (H W : Type) where
  handler : Option H
  zerolog : Option H
  owner : Option Nat
  threads : List (Thread H W)
  calls : List (Nat × Op H W)
  delivered : List (H × W)

variable {H W : Type}

/-- which handler a warning goes to (`pkg/errors/errors.go:57-65`) -/
def St.target (s : St H W) : Option H := match s.zerolog with
  | some z => some z
  | none => s.handler

/-- the start: the default handler, no goroutine inside (`pkg/errors/errors.go:21-24`) -/
def St.start (dflt : H) (progs : List (List (Op H W))) : St H W :=
  ⟨some dflt, none, none, progs.map (fun p => ⟨p, none⟩), [], []⟩

/-- one step of a goroutine; `acts h w` are the calls of this package that handler `h` makes when given `w`. A goroutine inside a handler that wants
the mutex waits for it like any other, since the mutex is not reentrant (`pkg/errors/errors.go:37-65`). -/
inductive Step (acts : H → W → List (Op H W)) : St H W → St H W → Prop
  | setHandler (s : St H W) (i : Nat) (t : Thread H W) (h : Option H) (q : List (Op H W)) : s.owner = none → s.threads[i]? = some t → t.inside = none →
      t.todo = .setHandler h :: q →
      Step acts s { s with handler := h, threads := s.threads.set i ⟨q, none⟩, calls := s.calls ++ [(i, .setHandler h)] }
  | setZerolog (s : St H W) (i : Nat) (t : Thread H W) (h : Option H) (q : List (Op H W)) : s.owner = none → s.threads[i]? = some t → t.inside = none →
      t.todo = .setZerolog h :: q →
      Step acts s { s with zerolog := h, threads := s.threads.set i ⟨q, none⟩, calls := s.calls ++ [(i, .setZerolog h)] }
  | warnNone (s : St H W) (i : Nat) (t : Thread H W) (w : W) (q : List (Op H W)) : s.owner = none → s.threads[i]? = some t → t.inside = none →
      t.todo = .warn w :: q → s.target = none →
      Step acts s { s with threads := s.threads.set i ⟨q, none⟩, calls := s.calls ++ [(i, .warn w)] }
  | warn (s : St H W) (i : Nat) (t : Thread H W) (w : W) (q : List (Op H W)) (h : H) : s.owner = none → s.threads[i]? = some t → t.inside = none →
      t.todo = .warn w :: q → s.target = some h →
      Step acts s { s with owner := some i, threads := s.threads.set i ⟨q, some (acts h w)⟩, calls := s.calls ++ [(i, .warn w)],
                           delivered := s.delivered ++ [(h, w)] }
  | leave (s : St H W) (i : Nat) (t : Thread H W) : s.owner = some i → s.threads[i]? = some t → t.inside = some [] →
      Step acts s { s with owner := none, threads := s.threads.set i ⟨t.todo, none⟩ }

/-- any number of steps -/
inductive Steps (acts : H → W → List (Op H W)) : St H W → St H W → Prop
  | refl (s : St H W) : Steps acts s s
  | tail {a b c : St H W} : Steps acts a b → Step acts b c → Steps acts a c

end Scigo.Warn
