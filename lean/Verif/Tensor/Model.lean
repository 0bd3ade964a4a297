import Verif.Base.Outcome

/-!
# `core/tensor`: two-dimensional tensors over shared slices

Go slices are references: `NewTensor` keeps the caller's `data` and (for a spread argument) `shape` slices, `Slice` shares the
elements of the original. The model has a heap of float slices and a heap of int slices; `nf`/`ns` are the first unused
addresses. Integers are unbounded (the product of dimensions does not wrap).
-/

namespace Scigo.Tensor

/-- the slices in memory (memory behind core/tensor/tensor.go:10-42) -/
structure Heap (α : Type) where
  floats : Nat → List α
  nf : Nat
  ints : Nat → List Int
  ns : Nat

/-- `mat.Dense`: a window of a float slice (gonum `blas64.General`: rows, columns, stride, data) (memory behind core/tensor/tensor.go:10-42) -/
structure Dense where
  buf : Nat
  off : Nat
  r : Nat
  c : Nat
  stride : Nat
  deriving DecidableEq

/-- `Tensor` (`core/tensor/tensor.go:10-13`); `shape` is the address of its shape slice -/
structure Tensor where
  data : Dense
  shape : Nat
  deriving DecidableEq

variable {α : Type} [Zero α] [One α]

/-- a new float slice (memory behind core/tensor/tensor.go:10-42) -/
def Heap.allocF (h : Heap α) (l : List α) : Heap α × Nat :=
  ({ h with floats := fun a => if a = h.nf then l else h.floats a, nf := h.nf + 1 }, h.nf)

/-- a new int slice (memory behind core/tensor/tensor.go:10-42) -/
def Heap.allocI (h : Heap α) (l : List Int) : Heap α × Nat :=
  ({ h with ints := fun a => if a = h.ns then l else h.ints a, ns := h.ns + 1 }, h.ns)

/-- assignment to one element of a float slice (memory behind core/tensor/tensor.go:10-42) -/
def Heap.write (h : Heap α) (b i : Nat) (v : α) : Heap α :=
  { h with floats := fun a => if a = b then (h.floats a).set i v else h.floats a }

/-- assignment to one element of an int slice, by the caller that still holds it (memory behind core/tensor/tensor.go:10-42) -/
def Heap.writeInt (h : Heap α) (b i : Nat) (v : Int) : Heap α :=
  { h with ints := fun a => if a = b then (h.ints a).set i v else h.ints a }

/-- `mat.NewDense` on an existing slice: gonum panics on dimensions that are not positive and on a slice of another length
(used at `core/tensor/tensor.go:39,147`) -/
def newDense (h : Heap α) (r c : Int) (b : Nat) : Outcome Dense :=
  if r ≤ 0 ∨ c ≤ 0 then .panic "mat: dimension"
  else if r * c ≠ ((h.floats b).length : Int) then .panic "mat: dimension mismatch"
  else .ok ⟨b, 0, r.toNat, c.toNat, c.toNat⟩

/-- `NewTensor` (`core/tensor/tensor.go:16-42`); `data` and `shape` are the addresses of the caller's slices -/
def newTensor (h : Heap α) (data shape : Nat) : Outcome Tensor :=
  let s := h.ints shape
  if s.length = 0 then .err .value
  else if s.any (fun d => decide (d ≤ 0)) then .err .value
  else if ((h.floats data).length : Int) ≠ s.foldl (· * ·) 1 then .err (.dimension (s.foldl (· * ·) 1).toNat (h.floats data).length 0)
  else if s.length ≠ 2 then .err .value
  else (newDense h (s.getD 0 0) (s.getD 1 0) data).bind fun d => .ok ⟨d, shape⟩

/-- `NewTensorFromDense` (`core/tensor/tensor.go:45-51`) -/
def fromDense (h : Heap α) (d : Dense) : Heap α × Tensor :=
  let a := h.allocI [(d.r : Int), (d.c : Int)]
  (a.1, ⟨d, a.2⟩)

/-- `NewZeros` and `NewOnes` (`core/tensor/tensor.go:54-77`) with the value to fill in -/
def filled (v : α) (h : Heap α) (shape : Nat) : Heap α × Outcome Tensor :=
  let s := h.ints shape
  if s.length ≠ 2 then (h, .err .value)
  else if s.getD 0 0 * s.getD 1 0 < 0 then (h, .panic "makeslice: len out of range")
  else
    let a := h.allocF (List.replicate (s.getD 0 0 * s.getD 1 0).toNat v)
    (a.1, newTensor a.1 a.2 shape)

/-- `Shape` (`core/tensor/tensor.go:79-81`): a copy of the shape slice -/
def Tensor.shapeOf (h : Heap α) (t : Tensor) : List Int := h.ints t.shape

/-- position of an element in the slice (memory behind core/tensor/tensor.go:10-42) -/
def Dense.pos (d : Dense) (i j : Nat) : Nat := d.off + (i * d.stride + j)

/-- the element read without bounds check (memory behind core/tensor/tensor.go:10-42) -/
def Dense.get (h : Heap α) (d : Dense) (i j : Nat) : α := (h.floats d.buf).getD (d.pos i j) 0

/-- `At` (`core/tensor/tensor.go:89-91`); gonum panics outside the dimensions -/
def Tensor.at' (h : Heap α) (t : Tensor) (i j : Int) : Outcome α :=
  if i < 0 ∨ (t.data.r : Int) ≤ i ∨ j < 0 ∨ (t.data.c : Int) ≤ j then .panic "mat: index out of range"
  else .ok (t.data.get h i.toNat j.toNat)

/-- `Set` (`core/tensor/tensor.go:94-96`) -/
def Tensor.set (h : Heap α) (t : Tensor) (i j : Int) (v : α) : Outcome (Heap α) :=
  if i < 0 ∨ (t.data.r : Int) ≤ i ∨ j < 0 ∨ (t.data.c : Int) ≤ j then .panic "mat: index out of range"
  else .ok (h.write t.data.buf (t.data.pos i.toNat j.toNat) v)

/-- the elements of a dense matrix row by row (memory behind core/tensor/tensor.go:10-42) -/
def Dense.rows (h : Heap α) (d : Dense) : List α :=
  (List.range d.r).flatMap fun i => (List.range d.c).map fun j => d.get h i j

/-- the loops of `RawData` (`core/tensor/tensor.go:105-114`): `data[i*c+j] = At(i, j)` into a zeroed slice -/
def Tensor.rawData (h : Heap α) (t : Tensor) : List α :=
  (List.range t.data.r).foldl (fun l i => (List.range t.data.c).foldl (fun l j =>
    l.set (i * t.data.c + j) (t.data.get h i j)) l) (List.replicate (t.data.r * t.data.c) 0)

/-- `Copy` (`core/tensor/tensor.go:117-124`); `CloneFrom` copies the rows into a new compact slice -/
def Tensor.copy (h : Heap α) (t : Tensor) : Heap α × Tensor :=
  let a := h.allocF (t.data.rows h)
  let b := a.1.allocI (h.ints t.shape)
  (b.1, ⟨⟨a.2, 0, t.data.r, t.data.c, t.data.c⟩, b.2⟩)

/-- `T` (`core/tensor/tensor.go:127-132`): `mat.Dense.T` returns a `mat.Transpose`, so the type assertion to `*mat.Dense`
panics -/
def Tensor.transpose (_ : Heap α) (_ : Tensor) : Outcome Tensor := .panic "interface conversion"

/-- `Reshape` (`core/tensor/tensor.go:135-155`); indexing a shape slice with fewer than two entries panics -/
def Tensor.reshape (h : Heap α) (t : Tensor) (shape : Nat) : Outcome (Heap α × Tensor) :=
  let s := h.ints shape
  let o := h.ints t.shape
  if s.length ≠ 2 then .err (.other "2D only")
  else if o.length < 2 then .panic "index out of range"
  else if s.getD 0 0 * s.getD 1 0 ≠ o.getD 0 0 * o.getD 1 0 then .err (.other "size")
  else
    let a := h.allocF (t.rawData h)
    (newDense a.1 (s.getD 0 0) (s.getD 1 0) a.2).bind fun d => .ok (a.1, ⟨d, shape⟩)

/-- `Slice` (`core/tensor/tensor.go:159-171`) -/
def Tensor.slice (h : Heap α) (t : Tensor) (r0 r1 c0 c1 : Int) : Outcome (Heap α × Tensor) :=
  if r0 < 0 ∨ (t.data.r : Int) < r1 ∨ c0 < 0 ∨ (t.data.c : Int) < c1 then .err (.other "out of bounds")
  else if r1 ≤ r0 ∨ c1 ≤ c0 then .err (.other "invalid range")
  else
    .ok (fromDense h ⟨t.data.buf, t.data.off + (r0.toNat * t.data.stride + c0.toNat), (r1 - r0).toNat, (c1 - c0).toNat,
      t.data.stride⟩)

end Scigo.Tensor
