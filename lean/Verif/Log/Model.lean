import Mathlib.Logic.Function.Basic
import Mathlib.Logic.Relation
import Verif.Base.Outcome

/-!
# Logging

Model of `pkg/log`. zerolog itself is a dependency: what is used of it (levels, the test whether an event is written, value semantics of
`Context`) is modelled from its documentation.
-/

namespace Scigo.Log

/-- A log value: the cases `addFields` distinguishes, floats split into finite and not (NaN or infinite, which JSON cannot hold):
pkg/log/logger.go:193-215. Simplified: `int` and `int64` are one case, other types are left out. -/
inductive Val
  | str (s : String)
  | int (i : Int)
  | flt (q : Rat)
  | nonFinite
  | bool (b : Bool)
  | err (msg : String)
  deriving DecidableEq, Repr

/-- The text `fmt.Sprintf("%v", v)` used for keys: pkg/log/logger.go:195, pkg/log/testing.go:92,129. Simplified: only strings and errors, which print as
themselves, get a text; others print by `shown`. -/
def keyOf (shown : Val → String) : Val → String
  | .str s => s
  | .err m => m
  | v => shown v

/-- The key/value pairs of a variadic argument list; the loop bound `i < len(fields)-1` drops an odd last argument: pkg/log/logger.go:194, pkg/log/testing.go:91,128 -/
def pairs : List Val → List (Val × Val)
  | k :: v :: rest => (k, v) :: pairs rest
  | _ => []

/-! ### the zerolog backend -/

/-- `LevelDebug` … `LevelError`: pkg/log/interface.go:147-152 -/
def levelDebug : Int := -4
@[inherit_doc levelDebug] def levelInfo : Int := 0
@[inherit_doc levelDebug] def levelWarn : Int := 4
@[inherit_doc levelDebug] def levelError : Int := 8

/-- the four levels a user can name: pkg/log/interface.go:147-152 -/
def standard : List Int := [levelDebug, levelInfo, levelWarn, levelError]

/-- zerolog's levels are Trace -1, Debug 0, Info 1, Warn 2, Error 3, Fatal 4, Panic 5, NoLevel 6, Disabled 7; `convertLevel`: pkg/log/logger.go:243-256 -/
def convertLevel (l : Int) : Int :=
  if l = levelDebug then 0
  else if l = levelInfo then 1
  else if l = levelWarn then 2
  else if l = levelError then 3
  else 1

/-- `ToLogLevel` on the lower-cased string: pkg/log/logger.go:41-60 -/
def toLogLevel (s : String) : Outcome Int :=
  if s = "info" then .ok 1
  else if s = "debug" then .ok 0
  else if s = "warn" ∨ s = "warning" then .ok 2
  else if s = "error" then .ok 3
  else if s = "fatal" then .ok 4
  else if s = "panic" then .ok 5
  else if s = "disabled" then .ok 7
  else .panic "invalid log level"

/-- `zerologLogger` with the parts of `zerolog.Logger` that matter: its level and its context fields: pkg/log/logger.go:129-131.
The timestamp and caller hooks are not modelled. -/
structure ZLogger where
  level : Int
  context : List (String × Val)
  deriving DecidableEq, Repr

/-- a written record: level, fields in writing order (zerolog writes repeated keys), message (pkg/log/logger.go:134-177) -/
structure Record where
  level : Int
  fields : List (String × Val)
  msg : String
  deriving DecidableEq, Repr

/-- one pair as `addFields` writes it; an error value goes under the key "error" whatever its key was: pkg/log/logger.go:193-215 -/
def zField (shown : Val → String) (p : Val × Val) : String × Val :=
  match p.2 with
  | .err m => ("error", .err m)
  | v => (keyOf shown p.1, v)

/-- `addFields`: pkg/log/logger.go:193-215 -/
def zFields (shown : Val → String) (args : List Val) : List (String × Val) := (pairs args).map (zField shown)

/-- the argument fields of `Error`: an error in first position is taken out first: pkg/log/logger.go:155-177. The stack trace field is not modelled. -/
def zErrorFields (shown : Val → String) : List Val → List (String × Val)
  | .err m :: rest => ("error", .err m) :: zFields shown rest
  | args => zFields shown args

/-- zerolog's `should`: an event is written if its level is neither below the logger's nor below the global level
(used by `z.logger.Debug()` and so on: pkg/log/logger.go:134-158) -/
def ZLogger.writes (z : ZLogger) (global lvl : Int) : Bool := z.level ≤ lvl && global ≤ lvl

/-- `Debug`, `Info`, `Warn`, `Error` of `zerologLogger`, selected by the level of the interface; a record or nothing: pkg/log/logger.go:134-177 -/
def ZLogger.log (shown : Val → String) (z : ZLogger) (global l : Int) (msg : String) (args : List Val) : Option Record :=
  if z.writes global (convertLevel l) then
    some ⟨convertLevel l, z.context ++ (if l = levelError then zErrorFields shown args else zFields shown args), msg⟩
  else none

/-- `zerologLogger.With`: `addFieldsToContext` receives the `zerolog.Context` by value and its result is not returned, so the logger is
built from the context before the additions: pkg/log/logger.go:180-184,218-240 -/
def ZLogger.with (shown : Val → String) (z : ZLogger) (args : List Val) : ZLogger :=
  let ctx := z.context
  let _lost := ctx ++ zFields shown args
  { z with context := ctx }

/-- `zerologLogger.Enabled`: pkg/log/logger.go:187-190 -/
def ZLogger.enabled (z : ZLogger) (l : Int) : Bool := z.level ≤ convertLevel l

/-- `SetLevel`: the level number clamped: pkg/log/logger.go:285-295 -/
def clampLevel (l : Int) : Int := if l < -1 ∨ l > 7 then 1 else l

/-- the process: zerolog's global level, the providers and the loggers handed out. The `level` field of a provider always equals that of
its logger and is left out: pkg/log/logger.go:259-262 -/
structure World where
  global : Int
  provs : List ZLogger
  handles : List ZLogger
  deriving DecidableEq, Repr

/-- calls that obtain loggers or change levels (pkg/log/logger.go:21-38,180-184,259-295) -/
inductive Op
  | newProvider (z : Int)
  | setup (s : String)
  | setLevel (p : Nat) (l : Int)
  | getLogger (p : Nat)
  | getNamed (p : Nat) (name : String)
  | withFields (h : Nat) (args : List Val)

/-- one call; `setup` with an unknown level panics before any change; a provider or handle that does not exist cannot be called (pkg/log/logger.go:21-38,180-184,259-295) -/
def World.step (shown : Val → String) (w : World) : Op → World
  | .newProvider z => { w with provs := w.provs ++ [⟨z, []⟩] }                       -- pkg/log/logger.go:265-271
  | .setup s => match toLogLevel s with                                              -- pkg/log/logger.go:21-38
    | .ok z => { w with global := z, provs := w.provs ++ [⟨z, []⟩] }
    | _ => w
  | .setLevel p l => match w.provs[p]? with                                          -- pkg/log/logger.go:285-295
    | some z => { w with global := clampLevel l, provs := w.provs.set p { z with level := clampLevel l } }
    | none => w
  | .getLogger p => match w.provs[p]? with                                           -- pkg/log/logger.go:274-276
    | some z => { w with handles := w.handles ++ [z] }
    | none => w
  | .getNamed p name => match w.provs[p]? with                                       -- pkg/log/logger.go:279-282
    | some z => { w with handles := w.handles ++ [{ z with context := z.context ++ [("component", .str name)] }] }
    | none => w
  | .withFields h args => match w.handles[h]? with                                   -- pkg/log/logger.go:180-184
    | some z => { w with handles := w.handles ++ [z.with shown args] }
    | none => w

/-- a sequence of calls (pkg/log/logger.go:21-38,180-184,259-295) -/
def World.run (shown : Val → String) (w : World) (ops : List Op) : World := ops.foldl (World.step shown) w

/-! ### the test logger -/

/-- a JSON object (pkg/log/testing.go:117-120) -/
abbrev Entry := String → Option Val

/-- `TestLogger` without its buffer: pkg/log/testing.go:21-26 -/
structure TLogger where
  level : Int
  fields : Entry

/-- the value stored for a field: errors become their text: pkg/log/testing.go:96-100,133-137 -/
def tVal : Val → Val
  | .err m => .str m
  | v => v

/-- the loop that adds pairs to a map: pkg/log/testing.go:91-101,128-138 -/
def addPairs (shown : Val → String) (m : Entry) (args : List Val) : Entry :=
  (pairs args).foldl (fun m p => Function.update m (keyOf shown p.1) (some (tVal p.2))) m

/-- `TestLogger.With`; the buffer is shared, the mutex is not: pkg/log/testing.go:82-108 -/
def TLogger.with (shown : Val → String) (t : TLogger) (args : List Val) : TLogger :=
  { t with fields := addPairs shown t.fields args }

/-- `TestLogger.Enabled`: pkg/log/testing.go:111-113 -/
def TLogger.enabled (t : TLogger) (l : Int) : Bool := t.level ≤ l

/-- the level texts: pkg/log/testing.go:56,63,70,77 -/
def levelText (l : Int) : String :=
  if l = levelDebug then "DEBUG" else if l = levelInfo then "INFO" else if l = levelWarn then "WARN" else "ERROR"

/-- the map `writeLog` builds: level and message, then the logger's fields, then the arguments: pkg/log/testing.go:117-138 -/
def TLogger.entry (shown : Val → String) (t : TLogger) (l : Int) (msg : String) (args : List Val) : Entry :=
  let base : Entry := fun k => if k = "level" then some (.str (levelText l)) else if k = "message" then some (.str msg) else none
  let merged : Entry := fun k => match t.fields k with
    | some v => some v
    | none => base k
  addPairs shown merged args

/-- a line of the buffer: the JSON text of an entry, or empty when `json.Marshal` failed, whose error is discarded: pkg/log/testing.go:141-143 -/
abbrev Line := Option Entry

open Classical in
/-- `json.Marshal` fails on a NaN or infinite number: pkg/log/testing.go:141. An integer is written as a number without a type; see `decodeVal`. -/
noncomputable def marshal (e : Entry) : Line := if ∃ k, e k = some .nonFinite then none else some e

/-- `Debug`, `Info`, `Warn`, `Error` of `TestLogger`: the lines appended to the buffer: pkg/log/testing.go:54-80,116-145 -/
noncomputable def TLogger.log (shown : Val → String) (t : TLogger) (l : Int) (msg : String) (args : List Val) (buf : List Line) : List Line :=
  if t.level ≤ l then buf ++ [marshal (t.entry shown l msg args)] else buf

/-- reading a JSON value into `interface{}`: every number is a `float64`: pkg/log/testing.go:178. Simplified: integers are taken to be exact. -/
def decodeVal : Val → Val
  | .int i => .flt i
  | v => v

/-- `GetLogEntries`: empty lines are skipped: pkg/log/testing.go:168-185 -/
def getEntries (buf : List Line) : List Entry := buf.filterMap (fun l => l.map (fun e k => (e k).map decodeVal))

/-- `ContainsField`: pkg/log/testing.go:219-234. Go's `==` on interfaces compares dynamic types too. -/
def containsField (buf : List Line) (key : String) (v : Val) : Prop := ∃ e ∈ getEntries buf, e key = some v

/-! ### concurrent use of the test logger -/

/-- where a goroutine is in `writeLog`: before `mu.Lock`, holding the mutex, or inside `WriteString` having read the end of the buffer:
pkg/log/testing.go:142-144. Simplified: `bytes.Buffer.WriteString` is a load of the contents and a store. -/
inductive Pc (E : Type)
  | idle
  | locked
  | loaded (snap : List E)

/-- a goroutine with the entries it still has to write (pkg/log/testing.go:116-145) -/
structure Thread (E : Type) where
  todo : List E
  pc : Pc E

/-- the shared state: buffer, mutexes, goroutines (pkg/log/testing.go:116-145) -/
structure St (E : Type) where
  buf : List E
  held : Nat → Bool
  ths : Nat → Thread E

/-- one step of goroutine `i`, which logs through the logger with mutex `lockOf i`: pkg/log/testing.go:142-144 -/
inductive Step {E : Type} (lockOf : Nat → Nat) : St E → St E → Prop
  | lock (s : St E) (i : Nat) (e : E) (rest : List E) : s.ths i = ⟨e :: rest, .idle⟩ → s.held (lockOf i) = false →
      Step lockOf s ⟨s.buf, Function.update s.held (lockOf i) true, Function.update s.ths i ⟨e :: rest, .locked⟩⟩
  | load (s : St E) (i : Nat) (e : E) (rest : List E) : s.ths i = ⟨e :: rest, .locked⟩ →
      Step lockOf s ⟨s.buf, s.held, Function.update s.ths i ⟨e :: rest, .loaded s.buf⟩⟩
  | store (s : St E) (i : Nat) (e : E) (rest snap : List E) : s.ths i = ⟨e :: rest, .loaded snap⟩ →
      Step lockOf s ⟨snap ++ [e], Function.update s.held (lockOf i) false, Function.update s.ths i ⟨rest, .idle⟩⟩

/-- goroutine `i` is about to log the entries `prog i`; the buffer is empty, no mutex is held: pkg/log/testing.go:44-51 -/
def start {E : Type} (prog : Nat → List E) : St E := ⟨[], fun _ => false, fun i => ⟨prog i, .idle⟩⟩

/-- all goroutines have finished (pkg/log/testing.go:116-145) -/
def Finished {E : Type} (s : St E) : Prop := ∀ i, (s.ths i).todo = []

end Scigo.Log
