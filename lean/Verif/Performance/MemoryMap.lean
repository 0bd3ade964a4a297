import Verif.Base.Outcome
import Verif.Base.Mat
import Verif.Performance.Memory

/-!
# Memory-mapped datasets

Model of the first part of `performance/large_scale.go`. The mapped file is a list of bytes (numbers below
256). The reinterpretation of a `float64` as 64 bits and the conversions to the other element types are
parameters. Index arithmetic after the constructor is unbounded. The lock makes each call atomic.
-/

namespace Scigo.Performance

/-- `DataType` (`performance/large_scale.go:26-33`) -/
inductive DType
  | float64 | float32 | int64 | int32 | other
  deriving DecidableEq

/-- `getElementSize` (`performance/large_scale.go:345-356`) -/
def DType.size : DType → Nat
  | .float64 => 8
  | .float32 => 4
  | .int32 => 4
  | .int64 => 8
  | .other => 8

/-- the conversions of `readElement` and `writeElement`: each type of element has its bit pattern as a number
(`performance/large_scale.go:361-370,380-391`) -/
structure Codec (α : Type _) where
  zero : α
  bits64 : α → Nat
  ofBits64 : Nat → α
  bits32 : α → Nat
  ofBits32 : Nat → α
  int64 : α → Nat
  ofInt64 : Nat → α
  int32 : α → Nat
  ofInt32 : Nat → α

/-- `binary.LittleEndian.PutUint64/PutUint32` (`performance/large_scale.go:381,385,388,391`) -/
def leBytes : Nat → Nat → List Nat
  | 0, _ => []
  | k + 1, n => n % 256 :: leBytes k (n / 256)

/-- `binary.LittleEndian.Uint64/Uint32` (`performance/large_scale.go:361,364,367,370`) -/
def leValue : List Nat → Nat
  | [] => 0
  | b :: bs => b + 256 * leValue bs

/-- `MemoryMappedDataset` (`performance/large_scale.go:16-23`) -/
structure Dataset where
  mmap : List Nat
  rows : Int
  cols : Int
  dtype : DType

/-- `NewMemoryMappedDataset` on a file with contents `file` (`performance/large_scale.go:36-64`): the size
wraps around; resizing to a negative size and mapping an empty file fail. Errors of the file system are left
out. -/
def Dataset.new (file : List Nat) (rows cols : Int) (dtype : DType) : Outcome Dataset :=
  let size := wrap64 (rows * cols * dtype.size)
  if size < 0 then .err (.other "failed to resize file")
  else if size = 0 then .err (.other "failed to mmap")
  else .ok ⟨file.take size.toNat ++ List.replicate (size.toNat - file.length) 0, rows, cols, dtype⟩

/-- the contents of the file after `Close` (`performance/large_scale.go:137-142`): the mapping is shared -/
def Dataset.close (d : Dataset) : List Nat := d.mmap

/-- overwrite bytes (`performance/large_scale.go:381,385,388,391`) -/
def putBytes (mem : List Nat) (off : Nat) (bs : List Nat) : List Nat :=
  mem.take off ++ bs ++ mem.drop (off + bs.length)

/-- the bytes `[off, off+n)` (`performance/large_scale.go:361`) -/
def getBytes (mem : List Nat) (off n : Nat) : List Nat := (mem.drop off).take n

section

variable {α : Type _}

/-- the number read as a value of the dtype (`performance/large_scale.go:359-374`) -/
def Codec.dec (k : Codec α) : DType → Nat → α
  | .float64, n => k.ofBits64 n
  | .float32, n => k.ofBits32 n
  | .int64, n => k.ofInt64 n
  | .int32, n => k.ofInt32 n
  | .other, _ => k.zero

/-- the number written for a value (`performance/large_scale.go:378-391`) -/
def Codec.enc (k : Codec α) : DType → α → Nat
  | .float64, x => k.bits64 x
  | .float32, x => k.bits32 x
  | .int64, x => k.int64 x
  | .int32, x => k.int32 x
  | .other, _ => 0

/-- `readElement` (`performance/large_scale.go:358-375`) -/
def Dataset.readElement (k : Codec α) (d : Dataset) (off : Nat) : Outcome α :=
  if d.dtype = .other then .ok k.zero
  else if d.mmap.length < off + d.dtype.size then .panic "slice bounds out of range"
  else .ok (k.dec d.dtype (leValue (getBytes d.mmap off d.dtype.size)))

/-- `writeElement` (`performance/large_scale.go:377-393`) -/
def Dataset.writeElement (k : Codec α) (d : Dataset) (off : Nat) (x : α) : Outcome Dataset :=
  if d.dtype = .other then .ok d
  else if d.mmap.length < off + d.dtype.size then .panic "slice bounds out of range"
  else .ok { d with mmap := putBytes d.mmap off (leBytes d.dtype.size (k.enc d.dtype x)) }

/-- the order of the double loops (`performance/large_scale.go:81-82,105-106`) -/
def cells (r c : Nat) : List (Nat × Nat) := (List.range r).flatMap fun i => (List.range c).map fun j => (i, j)

/-- the byte offset of entry `(i, j)` of a chunk (`performance/large_scale.go:79,83`) -/
def Dataset.offset (d : Dataset) (start i j : Nat) : Nat :=
  start * d.cols.toNat * d.dtype.size + (i * d.cols.toNat + j) * d.dtype.size

/-- a dense matrix with its data in row-major order (`performance/large_scale.go:89`) -/
structure Chunk (α : Type _) where
  r : Nat
  c : Nat
  data : List α

/-- the loop of `GetChunk` (`performance/large_scale.go:81-87`) -/
def Dataset.readAll (k : Codec α) (d : Dataset) : List Nat → Outcome (List α)
  | [] => .ok []
  | o :: os => (d.readElement k o).bind fun x => (d.readAll k os).map fun xs => x :: xs

/-- `GetChunk` (`performance/large_scale.go:67-90`) -/
def Dataset.getChunk (k : Codec α) (d : Dataset) (a b : Int) : Outcome (Chunk α) :=
  if a < 0 ∨ d.rows < b ∨ b ≤ a then .err (.other "invalid row range")
  else if d.cols ≤ 0 then .panic "mat: zero length in matrix dimension"
  else
    (d.readAll k ((cells (b - a).toNat d.cols.toNat).map fun p => d.offset a.toNat p.1 p.2)).map
      fun data => ⟨(b - a).toNat, d.cols.toNat, data⟩

/-- one assignment of `SetChunk` (`performance/large_scale.go:107-109`) -/
def Dataset.setStep (k : Codec α) (start : Nat) (M : Mat α) (acc : Outcome Dataset) (p : Nat × Nat) : Outcome Dataset :=
  acc.bind fun d => d.writeElement k (d.offset start p.1 p.2) (M.at' p.1 p.2)

/-- `SetChunk` (`performance/large_scale.go:93-114`) -/
def Dataset.setChunk (k : Codec α) (d : Dataset) (start : Int) (M : Mat α) : Outcome Dataset :=
  if start < 0 ∨ d.rows < start + M.r ∨ (M.c : Int) ≠ d.cols then .err (.other "invalid chunk dimensions")
  else (cells M.r M.c).foldl (Dataset.setStep k start.toNat M) (.ok d)

variable {σ : Type _}

/-- the end of a chunk (`performance/large_scale.go:119-122`) -/
def Dataset.chunkEnd (d : Dataset) (chunkSize start : Int) : Int :=
  if d.rows < start + chunkSize then d.rows else start + chunkSize

/-- the loop of `IterateChunks` with a callback that carries a state; at most `fuel` rounds, `none` if more
are needed (`performance/large_scale.go:118-133`) -/
def Dataset.iterLoop (k : Codec α) (d : Dataset) (chunkSize : Int) (fn : σ → Chunk α → Int → Outcome σ) :
    Nat → Int → σ → Option (Outcome σ)
  | 0, _, _ => none
  | fuel + 1, start, s =>
    if start < d.rows then
      match (d.getChunk k start (d.chunkEnd chunkSize start)).bind fun chunk => fn s chunk start with
      | .ok s' => d.iterLoop k chunkSize fn fuel (start + chunkSize) s'
      | .err e => some (.err e)
      | .panic v => some (.panic v)
    else some (.ok s)

end

end Scigo.Performance
