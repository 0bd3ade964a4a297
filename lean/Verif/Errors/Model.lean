import Verif.Base.Loop
import Verif.Base.Mat
import Verif.Base.Outcome

/-!
# `pkg/errors`: panic recovery and numerical guards
-/

namespace Scigo.Errors

/-! ### Panic recovery (`pkg/errors/recovery.go`) -/

/-- Error values: `base` stands for any error made elsewhere, `panicErr` for `*PanicError`
(`pkg/errors/recovery.go:15-24`), `wrapped` for the
`fmt.Errorf("panic in %s: %v (original error: %w)", …)` of `pkg/errors/recovery.go:72-73`.
`V` is the type of panic values.  Simplified: the stack trace string is dropped. -/
inductive Err (V : Type _) : Type _
  | base (id : Nat)
  | panicErr (op : String) (v : V)
  | wrapped (op : String) (v : V) (orig : Err V)

/-- `errors.Unwrap`: `PanicError.Unwrap` returns nil (`pkg/errors/recovery.go:32-34`), the `%w` wrapper
returns the original error (`pkg/errors/recovery.go:72-73`). -/
def Err.unwrap {V : Type _} : Err V → Option (Err V)
  | .base _ => none
  | .panicErr _ _ => none
  | .wrapped _ _ o => some o

/-- How a Go function with one named error result ends: a normal return with that result, or
an unwinding panic.  When it panics the named result still holds what was last stored. (callers of pkg/errors/recovery.go:66-79) -/
inductive Ending (V : Type _) : Type _
  | returned (e : Option (Err V))
  | panicked (stored : Option (Err V)) (v : V)

/-- The deferred call `defer Recover(&err, operation)`.
Models `pkg/errors/recovery.go:66-79`.  `recover()` is nil exactly when no panic is
unwinding (Go ≥ 1.21 turns `panic(nil)` into a non-nil `*runtime.PanicNilError`, and
`go.mod` says 1.24).  Not recoverable by Go and not modelled: stack exhaustion,
concurrent map writes, `os.Exit`, `runtime.Goexit`. -/
def recover {V : Type _} (op : String) : Ending V → Ending V
  | .returned e => .returned e
  | .panicked (some o) v => .returned (some (.wrapped op v o))
  | .panicked none v => .returned (some (.panicErr op v))

/-- Function bodies, as far as errors and panics go: return an error value, panic, assign the
named result and go on, call another function which itself defers `Recover` under
operation name `op`, or call a function that does not (panics go through). (callers of pkg/errors/recovery.go:66-79) -/
inductive Prog (V : Type _) : Type _
  | ret (e : Option (Err V))
  | panic (v : V)
  | assign (e : Option (Err V)) (k : Prog V)
  | callSafe (op : String) (callee : Prog V) (k : Option (Err V) → Prog V)
  | callRaw (callee : Prog V) (k : Option (Err V) → Prog V)

/-- Run a body whose named result currently holds `stored` (initially nil).
Go semantics of the statements in `Prog`; the callee of `callSafe` is run under
`recover` (`pkg/errors/recovery.go:66-79`), as in every estimator method starting with
`defer errors.Recover(&err, …)` (e.g. `linear/regression.go:95-96`). -/
def Prog.run {V : Type _} : Prog V → Option (Err V) → Ending V
  | .ret e, _ => .returned e
  | .panic v, stored => .panicked stored v
  | .assign e k, _ => k.run e
  | .callSafe op c k, stored =>
    match recover op (c.run none) with
    | .returned e => (k e).run stored
    | .panicked _ v => .panicked stored v
  | .callRaw c k, stored =>
    match c.run none with
    | .returned e => (k e).run stored
    | .panicked _ v => .panicked stored v

/-- A method starting with `defer Recover(&err, op)`. Models `pkg/errors/recovery.go:66-79`
together with its use at the top of a method. -/
def method {V : Type _} (op : String) (body : Prog V) : Ending V := recover op (body.run none)

/-- `SafeExecute(operation, fn)`: defers `Recover` and does `return fn()`; while `fn` runs the
named result is still nil. Models `pkg/errors/recovery.go:98-101`. -/
def safeExecute {V : Type _} (op : String) (fn : Prog V) : Ending V :=
  recover op ((Prog.callRaw fn (fun e => .ret e)).run none)

/-! ### Numerical guards (`pkg/errors/numerical.go`) -/

section Numerical

variable {α : Type _}

/-- `CheckNumericalStability`: nil, or an error carrying the whole slice.
Models `pkg/errors/numerical.go:9-16`; `bad v` is `math.IsNaN(v) || math.IsInf(v,0)`.
Simplified: operation and iteration are dropped, they are only stored. -/
def checkSlice (bad : α → Bool) (values : List α) : Option (List α) :=
  if values.any bad then some values else none

/-- `CheckScalar`. Models `pkg/errors/numerical.go:19-24`. -/
def checkScalar (bad : α → Bool) (v : α) : Option (List α) :=
  if bad v then some [v] else none

/-- Inner column loop of `CheckMatrix`: append unstable values of one row, stop after ten.
Models `pkg/errors/numerical.go:31-40`. -/
def scanRow (bad : α → Bool) : List α → List α → List α
  | [], acc => acc
  | v :: vs, acc =>
    if bad v then
      if (acc ++ [v]).length ≥ 10 then acc ++ [v] else scanRow bad vs (acc ++ [v])
    else scanRow bad vs acc

/-- Outer row loop of `CheckMatrix`: stop after the first row with an unstable value.
Models `pkg/errors/numerical.go:30-44`. -/
def scanRows (bad : α → Bool) (m : Mat α) (cols : Nat) : List Nat → List α → List α
  | [], acc => acc
  | i :: is, acc =>
    let acc' := scanRow bad ((List.range cols).map (m.at' i)) acc
    if acc'.length > 0 then acc' else scanRows bad m cols is acc'

/-- `CheckMatrix(op, matrix, rows, cols, iter)`. Models `pkg/errors/numerical.go:27-51`.
Result: the `Values` of the error, or `none` for nil. -/
def checkMatrix (bad : α → Bool) (m : Mat α) (rows cols : Nat) : Option (List α) :=
  let u := scanRows bad m cols (List.range rows) []
  if u.length > 0 then some u else none

/-- `SafeDivide`. Models `pkg/errors/numerical.go:55-60`. `tiny` is the literal `1e-10`,
`abs` is `math.Abs`. -/
def safeDivide [Div α] [LT α] [DecidableLT α] [Zero α] (abs : α → α) (tiny : α)
    (num den : α) : α :=
  if abs den < tiny then 0 else num / den

/-- `ClipValue`. Models `pkg/errors/numerical.go:63-71`. -/
def clipValue [LT α] [DecidableLT α] (v lo hi : α) : α :=
  if v < lo then lo else if v > hi then hi else v

/-- The L2 norm computed by `ClipGradient`. Models `pkg/errors/numerical.go:76-80`. -/
def gradNorm [Add α] [Mul α] [Zero α] (sqrt : α → α) (g : List α) : α :=
  sqrt (sumOver g (fun x => x * x))

/-- `ClipGradient`. Models `pkg/errors/numerical.go:74-93`. -/
def clipGradient [Add α] [Mul α] [Div α] [Zero α] [LT α] [DecidableLT α] (sqrt : α → α)
    (g : List α) (maxNorm : α) : List α :=
  let norm := gradNorm sqrt g
  if norm > maxNorm then
    let scale := maxNorm / norm
    g.map (fun x => x * scale)
  else g

/-- `StabilizeLog`. Models `pkg/errors/numerical.go:97-103`; `eps` is `1e-10`. -/
def stabilizeLog [LT α] [DecidableLT α] (log : α → α) (eps v : α) : α :=
  if v < eps then log eps else log v

/-- `StabilizeExp`. Models `pkg/errors/numerical.go:107-116`; `maxExp` is `700`. -/
def stabilizeExp [LT α] [DecidableLT α] [Neg α] [Zero α] (exp : α → α) (maxExp v : α) : α :=
  if v > maxExp then exp maxExp else if v < -maxExp then 0 else exp v

/-- Running maximum `maxVal := values[0]; for v in values[1:] { if v > maxVal … }`.
Models `pkg/errors/numerical.go:125-130`. -/
def runMax [LT α] [DecidableLT α] (v0 : α) (vs : List α) : α :=
  vs.foldl (fun m v => if v > m then v else m) v0

/-- `LogSumExp`. Models `pkg/errors/numerical.go:119-144`.  The arithmetic is passed in so
that it can be run on reals extended by `-Inf`; `isNegInf` is `math.IsInf(·, -1)`. -/
def logSumExp [LT α] [DecidableLT α] (add sub : α → α → α) (zero negInf : α)
    (isNegInf : α → Bool) (exp log : α → α) : List α → α
  | [] => negInf
  | v0 :: vs =>
    let maxVal := runMax v0 vs
    if isNegInf maxVal then negInf
    else add maxVal (log ((v0 :: vs).foldl (fun s v => add s (exp (sub v maxVal))) zero))

end Numerical

end Scigo.Errors
