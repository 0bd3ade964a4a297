/-!
# Error values and what wraps them

Model of the structured errors of `pkg/errors/errors.go:140-450` and `pkg/errors/recovery.go:11-101` as chains: an error made by the package,
and the layers put around it by `Wrap`, `WithStack`, `fmt.Errorf` with `%w`, `NewModelError` and `Recover`.

`Is` and `As` are those of `github.com/cockroachdb/errors` v1.12.0 (`go.mod:8`), which the package only passes on (`pkg/errors/errors.go:280-288`).  Its source
is not part of `/repo`; what is modelled is its documented behaviour: `As` takes the first error of the chain of the type asked for, `Is` looks
for the same pointer in the chain and, if there is none, for an error with the same text and the same types down the chain.  Simplified: stack
traces, `Is`/`As` methods of foreign errors and errors with several causes are left out; numbers and values are given as the text `fmt` makes of them.
-/

namespace Scigo.ErrChain

/-- An error that wraps nothing: the structured errors (`pkg/errors/errors.go:149-152,172-177,209-213,235-238,251-255` with `Err = nil`,
`323-328,359-364`), a recovered panic (`pkg/errors/recovery.go:15-24`), the error of `errors.New` (`pkg/errors/errors.go:301-303`) and an
error of another package. -/
inductive Base
  | notFitted (model method : String)
  | dimension (op : String) (expected got axis : Int)
  | validation (param reason value : String)
  | value (op message : String)
  | modelNoCause (op kind : String)
  | numerical (operation : String) (values : List String) (iteration : Int)
  | inputShape (phase : String) (expected got : List Int) (feature : String)
  | panicked (operation value : String)
  | new (message : String)
  | foreign (type message : String)
  deriving DecidableEq, Repr

/-- A layer around an error: `WithStack` (`pkg/errors/errors.go:311-313`), the prefix of `Wrap` and `Wrapf` (`291-298`), `fmt.Errorf` with `%w`
(`pkg/errors/recovery.go:72-73` and all over `/repo`) and `ModelError` (`pkg/errors/errors.go:251-266`) -/
inductive Layer
  | stack
  | message (msg : String)
  | errorf (before after : String)
  | model (op kind : String)
  deriving DecidableEq, Repr

/-- An error value with the addresses of its structs (`pkg/errors/errors.go:149-364`, `pkg/errors/recovery.go:67-80`) -/
inductive Err
  | base (addr : Nat) (b : Base)
  | over (addr : Nat) (l : Layer) (cause : Err)
  deriving DecidableEq, Repr

/-- The dynamic type of an error (`pkg/errors/errors.go:149,172,209,235,251,323,359`, `pkg/errors/recovery.go:15`) -/
inductive Kind
  | notFitted | dimension | validation | value | model | numerical | inputShape | panicked | new | stack | message | errorf
  | foreign (type : String)
  deriving DecidableEq, Repr

/-- type of an error without cause (`pkg/errors/errors.go:149-364`) -/
def Base.kind : Base → Kind
  | .notFitted .. => .notFitted
  | .dimension .. => .dimension
  | .validation .. => .validation
  | .value .. => .value
  | .modelNoCause .. => .model
  | .numerical .. => .numerical
  | .inputShape .. => .inputShape
  | .panicked .. => .panicked
  | .new _ => .new
  | .foreign t _ => .foreign t

/-- type of a layer (`pkg/errors/errors.go:251-313`) -/
def Layer.kind : Layer → Kind
  | .stack => .stack
  | .message _ => .message
  | .errorf .. => .errorf
  | .model .. => .model

/-- the loop over the values in the text of a `NumericalInstabilityError` (`pkg/errors/errors.go:330-341`), from index `i` -/
def valuesFrom : Nat → List String → String
  | _, [] => ""
  | i, v :: vs =>
    (if 0 < i then ", " else "") ++ (if 5 ≤ i then "..." else v ++ valuesFrom (i + 1) vs)

/-- `fmt.Sprintf("%v", []int)` (`pkg/errors/errors.go:367-368`) -/
def shapeText (l : List Int) : String := "[" ++ " ".intercalate (l.map toString) ++ "]"

/-- `Error()` of an error without cause (`pkg/errors/errors.go:154-156,179-185,215-217,240-242,257-262,330-344,366-375`, `pkg/errors/recovery.go:27-29`) -/
def Base.text : Base → String
  | .notFitted m f => "goml: " ++ m ++ ": this model is not fitted yet. Call Fit() before using " ++ f ++ "()"
  | .dimension op e g a => "goml: " ++ op ++ ": dimension mismatch on axis " ++ toString a ++ " (" ++ (if a = 0 then "rows" else "features") ++
      "). Expected " ++ toString e ++ ", got " ++ toString g
  | .validation p r v => "goml: validation failed for parameter '" ++ p ++ "': " ++ r ++ " (got: " ++ v ++ ")"
  | .value op m => "goml: " ++ op ++ ": " ++ m
  | .modelNoCause op k => "goml: " ++ op ++ ": " ++ k
  | .numerical op vs it => "goml: numerical instability detected in " ++ op ++ " at iteration " ++ toString it ++ ". Values: [" ++
      valuesFrom 0 vs ++ "]"
  | .inputShape ph e g f =>
      if f ≠ "" then "goml: input shape mismatch in " ++ ph ++ " phase for feature '" ++ f ++ "'. Expected shape " ++ shapeText e ++ ", got " ++ shapeText g
      else "goml: input shape mismatch in " ++ ph ++ " phase. Expected shape " ++ shapeText e ++ ", got " ++ shapeText g
  | .panicked op v => "panic in " ++ op ++ ": " ++ v
  | .new m => m
  | .foreign _ m => m

/-- `Error()` of a layer around an error with the text `t` (`pkg/errors/errors.go:257-262,291-313`, `pkg/errors/recovery.go:72-73`) -/
def Layer.text (t : String) : Layer → String
  | .stack => t
  | .message m => m ++ ": " ++ t
  | .errorf b a => b ++ t ++ a
  | .model op k => "goml: " ++ op ++ ": " ++ k ++ ": " ++ t

/-- `Error()` (`pkg/errors/errors.go:154-375`) -/
def Err.text : Err → String
  | .base _ b => b.text
  | .over _ l e => l.text e.text

/-- the address of the outermost struct (comparing errors with `==`, `pkg/errors/errors.go:281-283`) -/
def Err.addr : Err → Nat
  | .base a _ => a
  | .over a _ _ => a

/-- the dynamic type (`pkg/errors/errors.go:286-288`) -/
def Err.kind : Err → Kind
  | .base _ b => b.kind
  | .over _ l _ => l.kind

/-- the error and what `Unwrap` gives, one after the other (`pkg/errors/errors.go:264-266`, `pkg/errors/recovery.go:32-34`) -/
def Err.chain : Err → List Err
  | .base a b => [.base a b]
  | .over a l e => .over a l e :: e.chain

/-- `As` for one of the struct types (`pkg/errors/errors.go:286-288`): the first error of the chain of that type -/
def as (k : Kind) (e : Err) : Option Err := e.chain.find? fun c => decide (c.kind = k)

/-- text and types of an error, what the library compares when no pointer is the same (`pkg/errors/errors.go:281-283`) -/
def Err.mark (e : Err) : String × List Kind := (e.text, e.chain.map Err.kind)

/-- `Is` (`pkg/errors/errors.go:281-283`); `none` is a nil error -/
def is : Option Err → Option Err → Bool
  | e, none => e.isNone
  | none, some _ => false
  | some e, some r => e.chain.any (fun c => decide (c.addr = r.addr)) || e.chain.any (fun c => decide (c.mark = r.mark))

/-- `WithStack` (`pkg/errors/errors.go:311-313`): nil stays nil -/
def withStack (a : Nat) (e : Option Err) : Option Err := e.map (.over a .stack)

/-- `Wrap` and `Wrapf` (`pkg/errors/errors.go:291-298`): nil stays nil, an empty message adds the stack trace only -/
def wrap (a a' : Nat) (e : Option Err) (msg : String) : Option Err :=
  withStack a (if msg = "" then e else e.map (.over a' (.message msg)))

/-- `New` (`pkg/errors/errors.go:301-303`): the library puts a stack trace around its own error -/
def new (a a' : Nat) (msg : String) : Err := .over a .stack (.base a' (.new msg))

/-- the constructors of errors without cause (`pkg/errors/errors.go:166-169,202-205,228-231,245-248,347-355,378-385`): each adds a stack trace -/
def make (a a' : Nat) (b : Base) : Err := .over a .stack (.base a' b)

/-- `NewModelError` (`pkg/errors/errors.go:269-272`) -/
def newModelError (a a' : Nat) (op kind : String) : Option Err → Err
  | none => .over a .stack (.base a' (.modelNoCause op kind))
  | some e => .over a .stack (.over a' (.model op kind) e)

/-- `Recover` (`pkg/errors/recovery.go:67-80`) of a function that is about to return `prev` and panics with a value printed as `v`; the value
itself, even if it is an error, is kept only as text and in a field that `Unwrap` does not give (`pkg/errors/recovery.go:32-34`) -/
def recovered (a : Nat) (op v : String) : Option Err → Err
  | none => .base a (.panicked op v)
  | some e => .over a (.errorf ("panic in " ++ op ++ ": " ++ v ++ " (original error: ") ")") e

/-- What a caller further up can do with an error that is not nil before giving it on (`pkg/errors/errors.go:269-313`, `pkg/errors/recovery.go:67-80`) -/
inductive Step
  | wrap (a a' : Nat) (msg : String)
  | stack (a : Nat)
  | errorf (a : Nat) (before after : String)
  | model (a a' : Nat) (op kind : String)
  | recover (a : Nat) (op v : String)
  deriving DecidableEq, Repr

/-- one step (`pkg/errors/errors.go:269-313`, `pkg/errors/recovery.go:67-80`) -/
def Step.apply (e : Option Err) : Step → Option Err
  | .wrap a a' m => ErrChain.wrap a a' e m
  | .stack a => withStack a e
  | .errorf a b c => e.map (.over a (.errorf b c))
  | .model a a' op k => e.map fun e => newModelError a a' op k (some e)
  | .recover a op v => e.map fun e => recovered a op v (some e)

/-- the steps one after the other (`pkg/errors/errors.go:269-313`, `pkg/errors/recovery.go:67-80`) -/
def applyAll (ss : List Step) (e : Option Err) : Option Err := ss.foldl Step.apply e

/-- the address of the struct put outermost by a step, and of the one below it (`pkg/errors/errors.go:269-313`, `pkg/errors/recovery.go:67-80`) -/
def Step.addrs : Step → List Nat
  | .wrap a a' _ => [a, a']
  | .stack a => [a]
  | .errorf a _ _ => [a]
  | .model a a' _ _ => [a, a']
  | .recover a _ _ => [a]

/-- `DropRate` of `NewCatastrophicForgettingWarning` (`pkg/errors/errors.go:426-434`) -/
def dropRate {α : Type _} [Sub α] [Div α] (oldPerf newPerf : α) : α := (oldPerf - newPerf) / oldPerf

end Scigo.ErrChain
