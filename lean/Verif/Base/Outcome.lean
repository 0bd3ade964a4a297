/-!
# Outcomes of Go calls

A Go call that returns `(T, error)` either returns a value with a nil error, returns a
non-nil error, or panics.  The three cases are kept apart as data.
-/

namespace Scigo

/-- The error classes of `pkg/errors` that the model distinguishes.
Models `pkg/errors/errors.go:150-330` (`NotFittedError`, `DimensionError`,
`ValidationError`, `ValueError`, `ModelError`, `NumericalInstabilityError`) and
`pkg/errors/recovery.go:14-24` (`PanicError`).
Simplified: message strings are dropped where no caller can branch on them; `other`
stands for `fmt.Errorf` values, `wrapped` for the `fmt.Errorf("… %w", err)` in `Recover`. -/
inductive GoErr : Type
  | notFitted
  | dimension (expected got : Int) (axis : Nat)
  | value
  | validation
  | model
  | numerical
  | panicError (op : String) (val : String)
  | wrapped (op : String) (val : String) (original : GoErr)
  | other (msg : String)
  deriving DecidableEq, Repr, Inhabited

/-- Result of a Go call: value with nil error, non-nil error, or panic.
Models the calling convention `(T, error)` used throughout `/repo`. (calling convention, e.g. metrics/regression.go:160-165) -/
inductive Outcome (α : Type _) : Type _
  | ok (a : α)
  | err (e : GoErr)
  | panic (val : String)
  deriving DecidableEq, Repr

namespace Outcome

variable {α β : Type _}

/-- Sequencing with early return on error: the Go idiom `x, err := f(); if err != nil
{ return …, err }` used throughout `/repo` (e.g. `metrics/regression.go:160-165`);
a panic propagates. -/
def bind (x : Outcome α) (f : α → Outcome β) : Outcome β :=
  match x with
  | ok a => f a
  | err e => err e
  | panic v => panic v

/-- Apply a function to a successful value (`metrics/regression.go:160-165`). -/
def map (f : α → β) (x : Outcome α) : Outcome β := x.bind (fun a => ok (f a))

instance : Monad Outcome where
  pure := ok
  bind := bind

@[simp] theorem bind_ok (a : α) (f : α → Outcome β) : (ok a).bind f = f a := rfl
@[simp] theorem bind_err (e : GoErr) (f : α → Outcome β) : (err e : Outcome α).bind f = err e := rfl
@[simp] theorem bind_panic (v : String) (f : α → Outcome β) :
    (panic v : Outcome α).bind f = panic v := rfl
@[simp] theorem map_ok (a : α) (f : α → β) : (ok a).map f = ok (f a) := rfl
@[simp] theorem map_err (e : GoErr) (f : α → β) : (err e : Outcome α).map f = err e := rfl
@[simp] theorem map_panic (v : String) (f : α → β) : (panic v : Outcome α).map f = panic v := rfl

/-- A method body under `defer errors.Recover(&err, op)` whose named error is nil while it runs:
a panic becomes a `PanicError`, everything else is unchanged.
Models `pkg/errors/recovery.go:66-79` (the general form is `Scigo.Errors.recover`). -/
def recovered (op : String) : Outcome α → Outcome α
  | panic v => err (.panicError op v)
  | x => x

@[simp] theorem recovered_ok (op : String) (a : α) : recovered op (ok a) = ok a := rfl
@[simp] theorem recovered_err (op : String) (e : GoErr) :
    recovered op (err e : Outcome α) = err e := rfl
@[simp] theorem recovered_panic (op : String) (v : String) :
    recovered op (panic v : Outcome α) = err (.panicError op v) := rfl

/-- The call returned a value and a nil error. (calling convention, e.g. metrics/regression.go:160-165) -/
def isOk : Outcome α → Bool
  | ok _ => true
  | _ => false

end Outcome

end Scigo
