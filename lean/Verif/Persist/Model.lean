import Mathlib.Data.Nat.Digits.Defs
import Mathlib.Logic.Relation
import Verif.Base.Outcome

/-!
# Saving and loading models

Model of `core/model/persistence.go` with the framing of `encoding/gob`: a stream of messages, each preceded by its length. The file system
is one file whose content is a byte list. A process may stop at any moment; power loss, which may also undo writes that were not
synced, is not modelled (`SaveModel` never calls `Sync`).
-/

namespace Scigo.Persist

/-- bytes, as numbers below 256 (`encoding/gob` as called in core/model/persistence.go:31-34,59-62) -/
abbrev Bytes := List Nat

/-- gob's unsigned integers: one byte up to 127, else the negated number of bytes and the big-endian bytes
(used for message lengths by the encoder of core/model/persistence.go:31) -/
def putUint (x : Nat) : Bytes :=
  if x ≤ 127 then [x]
  else (256 - (Nat.digits 256 x).length) :: (Nat.digits 256 x).reverse

/-- gob's `decodeUintReader`: `none` on end of input or more than eight bytes (decoder of core/model/persistence.go:59-60) -/
def readUint : Bytes → Option (Nat × Bytes)
  | [] => none
  | b :: r =>
    if b ≤ 127 then some (b, r)
    else if 256 - b > 8 then none
    else if r.length < 256 - b then none
    else some ((r.take (256 - b)).foldl (fun a x => a * 256 + x) 0, r.drop (256 - b))

/-- gob's limit on message lengths, `tooBig` (`encoding/gob` as called in core/model/persistence.go:31-34,59-62) -/
def tooBig : Nat := 2 ^ 33

/-- a message as written: length and payload (`encoding/gob` as called in core/model/persistence.go:31-34,59-62) -/
def frame (p : Bytes) : Bytes := putUint p.length ++ p

/-- gob's `recvMessage`: `none` on end of input, short input, or a length that is too big (`encoding/gob` as called in core/model/persistence.go:31-34,59-62) -/
def readFrame (bs : Bytes) : Option (Bytes × Bytes) :=
  match readUint bs with
  | none => none
  | some (n, r) => if tooBig ≤ n then none else if r.length < n then none else some (r.take n, r.drop n)

/-- How gob turns values into payloads. A struct is sent as type definitions followed by one value message, which holds the numbered
fields that are not zero; `value` is `none` where `Encode` reports an error (an unsupported or unregistered type inside). Payload bytes
are left abstract: core/model/persistence.go:31-34,59-62. -/
structure Codec (V : Type) where
  types : List Bytes
  value : List (Nat × V) → Option Bytes
  isDef : Bytes → Bool
  decodeValue : List Bytes → Bytes → Option (List (Nat × V))

/-- a struct value: its numbered exported fields (`encoding/gob` as called in core/model/persistence.go:31-34,59-62) -/
abbrev Struct (V : Type) := Nat → V

section
variable {V : Type} [DecidableEq V] [Zero V]

/-- the fields gob sends: those that are not zero (of a struct with `n` exported fields) (`encoding/gob` as called in core/model/persistence.go:31-34,59-62) -/
def sent (n : Nat) (m : Struct V) : List (Nat × V) := ((List.range n).map (fun i => (i, m i))).filter (fun p => p.2 ≠ 0)

/-- `Encoder.Encode`: the bytes that reach the writer and whether `Encode` succeeds: core/model/persistence.go:31-34 -/
def encodeOut (c : Codec V) (n : Nat) (m : Struct V) : Bytes × Bool :=
  match c.value (sent n m) with
  | some p => if p.length < tooBig then ((c.types ++ [p]).flatMap frame, true) else (c.types.flatMap frame, false)
  | none => (c.types.flatMap frame, false)

/-- the loop of `Decoder.Decode`: type definitions are collected until a value message comes: core/model/persistence.go:59-62.
Each message takes at least one byte, so `length + 1` rounds suffice. -/
def decodeLoop (c : Codec V) : Nat → List Bytes → Bytes → Option (List (Nat × V))
  | 0, _, _ => none
  | k + 1, defs, bs =>
    match readFrame bs with
    | none => none
    | some (p, rest) => if c.isDef p then decodeLoop c k (defs ++ [p]) rest else c.decodeValue defs p

/-- storing the received fields in the target; a field that was not sent keeps what the target held: core/model/persistence.go:60 -/
def storeFields (target : Struct V) (fs : List (Nat × V)) : Struct V :=
  fs.foldl (fun t p => Function.update t p.1 p.2) target

/-- `LoadModel` of a file (or no file) into a target: core/model/persistence.go:52-65 -/
def load (c : Codec V) (file : Option Bytes) (target : Struct V) : Outcome (Struct V) :=
  match file with
  | none => .err (.other "failed to open file")
  | some bs => match decodeLoop c (bs.length + 1) [] bs with
    | none => .err (.other "failed to decode model")
    | some fs => .ok (storeFields target fs)

/-- `LoadModelFromReader` of a byte stream: core/model/persistence.go:91-97 -/
def loadFrom (c : Codec V) (bs : Bytes) (target : Struct V) : Outcome (Struct V) := load c (some bs) target

/-- where a call of `SaveModel` is (core/model/persistence.go:24-37) -/
inductive Pc
  | start
  | writing (rest : Bytes)
  | failed
  | saved
  deriving DecidableEq

/-- the file and the call (core/model/persistence.go:24-37) -/
structure St where
  file : Option Bytes
  pc : Pc

/-- one step of `SaveModel`: core/model/persistence.go:24-37. A crash is a run that stops. Writing is byte by byte: a write call may be cut short. -/
inductive Step (c : Codec V) (n : Nat) (m : Struct V) : St → St → Prop
  | openFails (f) : Step c n m ⟨f, .start⟩ ⟨f, .failed⟩                                               -- core/model/persistence.go:25-28
  | create (f) : Step c n m ⟨f, .start⟩ ⟨some [], .writing (encodeOut c n m).1⟩                        -- core/model/persistence.go:25: os.Create truncates
  | put (w b r) : Step c n m ⟨some w, .writing (b :: r)⟩ ⟨some (w ++ [b]), .writing r⟩                 -- core/model/persistence.go:32
  | writeFails (w b r) : Step c n m ⟨some w, .writing (b :: r)⟩ ⟨some w, .failed⟩                      -- core/model/persistence.go:33
  | finish (w) : Step c n m ⟨some w, .writing []⟩ ⟨some w, if (encodeOut c n m).2 then .saved else .failed⟩  -- core/model/persistence.go:33,36

end

end Scigo.Persist
