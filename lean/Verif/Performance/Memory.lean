import Verif.Base.Outcome

/-!
# Memory helpers

Model of `performance/memory_optimizer.go`: the memory budget, the relayout of matrices, submatrix views,
aligned buffers and the matrix pool. The garbage collector helper has no effect a program can observe and is
not modelled.
-/

namespace Scigo.Performance

/-! ## Memory budget -/

/-- `int64` arithmetic wraps around (`performance/memory_optimizer.go:359,367,372,381`) -/
def wrap64 (x : Int) : Int := (x + 2 ^ 63) % 2 ^ 64 - 2 ^ 63

/-- `MemoryEfficientBatch` (`performance/memory_optimizer.go:341-345`) -/
structure Budget where
  max : Int
  used : Int
  deriving DecidableEq

/-- `NewMemoryEfficientBatch` (`performance/memory_optimizer.go:348-352`) -/
def Budget.new (mb : Int) : Budget := ⟨wrap64 (wrap64 (mb * 1024) * 1024), 0⟩

/-- `CanAllocate` (`performance/memory_optimizer.go:355-360`) -/
def Budget.canAllocate (b : Budget) (n : Int) : Bool := decide (wrap64 (b.used + n) ≤ b.max)

/-- `Allocate` (`performance/memory_optimizer.go:363-374`): the new state and whether it succeeded. Calls are
serialised by the mutex. -/
def Budget.allocate (b : Budget) (n : Int) : Budget × Bool :=
  if b.max < wrap64 (b.used + n) then (b, false) else ({ b with used := wrap64 (b.used + n) }, true)

/-- `Free` (`performance/memory_optimizer.go:377-385`) -/
def Budget.free (b : Budget) (n : Int) : Budget :=
  let u := wrap64 (b.used - n)
  { b with used := if u < 0 then 0 else u }

/-- a call of the budget's methods (`performance/memory_optimizer.go:363-385`) -/
inductive BudgetCall
  | allocate (n : Int)
  | free (n : Int)

/-- the effect of a call (`performance/memory_optimizer.go:363-385`) -/
def Budget.call (b : Budget) : BudgetCall → Budget
  | .allocate n => (b.allocate n).1
  | .free n => b.free n

/-! ## Relayout -/

section

variable {α : Type _} [Zero α]

/-- one assignment `optimized[j*rows+i] = data[i*cols+j]`; either index may be out of range
(`performance/memory_optimizer.go:403`) -/
def relayoutStep (data : List α) (rows cols : Nat) (acc : Outcome (List α)) (ij : Nat × Nat) : Outcome (List α) :=
  acc.bind fun o =>
    match data[ij.1 * cols + ij.2]? with
    | none => .panic "index out of range"
    | some v => if ij.2 * rows + ij.1 < o.length then .ok (o.set (ij.2 * rows + ij.1) v)
      else .panic "index out of range"

/-- `OptimizeDataLayout` (`performance/memory_optimizer.go:396-408`) for non-negative dimensions (with a
negative one no assignment happens) -/
def relayout (data : List α) (rows cols : Nat) : Outcome (List α) :=
  (((List.range rows).flatMap fun i => (List.range cols).map fun j => (i, j))).foldl
    (relayoutStep data rows cols) (.ok (List.replicate data.length 0))

end

/-! ## Submatrix views -/

/-- `ZeroCopyMatrix` (`performance/memory_optimizer.go:162-167`): the pointer is an offset into the memory it
was made from -/
structure View where
  off : Int
  rows : Int
  cols : Int
  stride : Int
  deriving DecidableEq

section

variable {α : Type _}

/-- `NewZeroCopyMatrix` (`performance/memory_optimizer.go:170-181`): also `&data[0]` of an empty slice
panics. The product of the check wraps around; the address arithmetic is unbounded. -/
def View.new (mem : List α) (rows cols : Int) : Outcome View :=
  if (mem.length : Int) < wrap64 (rows * cols) then .panic "data too small for matrix dimensions"
  else if mem.isEmpty then .panic "index out of range"
  else .ok ⟨0, rows, cols, cols⟩

/-- the bounds check of `At` and `Set` (`performance/memory_optimizer.go:185,195`) -/
def View.inside (v : View) (i j : Int) : Bool :=
  decide (0 ≤ i) && decide (i < v.rows) && decide (0 ≤ j) && decide (j < v.cols)

/-- the address computed by `At` and `Set` (`performance/memory_optimizer.go:188-189,198-199`) -/
def View.addr (v : View) (i j : Int) : Int := v.off + i * v.stride + j

/-- reading memory at an address: outside the slice the behaviour is undefined, shown as `err`
(`performance/memory_optimizer.go:190`) -/
def readMem (mem : List α) (a : Int) : Outcome α :=
  if a < 0 then .err (.other "wild read") else
    match mem[a.toNat]? with
    | none => .err (.other "wild read")
    | some v => .ok v

/-- writing memory at an address (`performance/memory_optimizer.go:200`) -/
def writeMem (mem : List α) (a : Int) (x : α) : Outcome (List α) :=
  if a < 0 ∨ (mem.length : Int) ≤ a then .err (.other "wild write") else .ok (mem.set a.toNat x)

/-- `At` (`performance/memory_optimizer.go:184-191`) -/
def View.at' (mem : List α) (v : View) (i j : Int) : Outcome α :=
  if v.inside i j then readMem mem (v.addr i j) else .panic "matrix index out of range"

/-- `Set` (`performance/memory_optimizer.go:194-201`) -/
def View.set (mem : List α) (v : View) (i j : Int) (x : α) : Outcome (List α) :=
  if v.inside i j then writeMem mem (v.addr i j) x else .panic "matrix index out of range"

/-- `Slice` (`performance/memory_optimizer.go:204-218`) -/
def View.slice (v : View) (i0 i1 j0 j1 : Int) : Outcome View :=
  if i0 < 0 ∨ v.rows < i1 ∨ j0 < 0 ∨ v.cols < j1 ∨ i1 ≤ i0 ∨ j1 ≤ j0 then .panic "invalid slice bounds"
  else .ok ⟨v.off + (i0 * v.stride + j0), i1 - i0, j1 - j0, v.stride⟩

end

/-! ## Aligned buffers -/

/-- `AlignedAlloc` (`performance/memory_optimizer.go:411-421`) as the pair of slice bounds within the raw
buffer of `size + alignment/8` elements, given the address `addr` of the buffer. An empty buffer
(`&raw[0]`), a zero alignment (division by zero) and bounds outside the buffer panic. -/
def alignedBounds (addr size alignment : Nat) : Outcome (Nat × Nat) :=
  if size + alignment / 8 = 0 then .panic "index out of range"
  else if alignment = 0 then .panic "integer divide by zero"
  else
    let offset := (alignment - addr % alignment) % alignment
    if size + alignment / 8 < offset / 8 + size then .panic "slice bounds out of range"
    else .ok (offset / 8, offset / 8 + size)

/-! ## Matrix pool -/

/-- `PooledMatrix` (`performance/memory_optimizer.go:126-132`); no `data` is `nil` -/
structure Pooled (α : Type _) where
  data : Option (List α)
  rows : Nat
  cols : Nat
  released : Bool

/-- the pool and its clients under concurrent use. Matrices are numbered in order of creation; each one has
a buffer of its own. A matrix is idle in the `sync.Pool`, live (handed out), or on its way back inside a
`Put`: after `m.released = true`, after the counter was decremented, or after its data was cleared.
`getting` counts the `Get` calls between the increment of `inUse` and `pool.Get`
(`performance/memory_optimizer.go:16-24,54-91`). Simplified: the created, recycled and peak counters are left
out. -/
structure Pool (α : Type _) where
  objs : Nat → Pooled α
  next : Nat
  idle : List Nat
  live : List Nat
  marked : List Nat
  counted : List Nat
  cleared : List Nat
  getting : Nat
  inUse : Int

/-- a new, empty pool (`performance/memory_optimizer.go:36-51`) -/
def Pool.empty (α : Type _) : Pool α := ⟨fun _ => ⟨none, 0, 0, false⟩, 0, [], [], [], [], [], 0, 0⟩

section

variable {α : Type _} [Zero α]

/-- `Get` after `pool.Get` (`performance/memory_optimizer.go:60-67`): the matrix is private, so this is one
step -/
def Pooled.prepare (m : Pooled α) (rows cols : Nat) : Pooled α :=
  let d := match m.data with
    | none => List.replicate (rows * cols) 0
    | some d => if d.length < rows * cols then List.replicate (rows * cols) 0 else d
  ⟨some d, rows, cols, false⟩

/-- clearing the data (`performance/memory_optimizer.go:86-88`) -/
def Pooled.clear (m : Pooled α) : Pooled α := { m with data := m.data.map fun d => d.map fun _ => 0 }

/-- replace one matrix (`performance/memory_optimizer.go:60-67,80-88`) -/
def Pool.upd (p : Pool α) (i : Nat) (m : Pooled α) : Nat → Pooled α := fun k => if k = i then m else p.objs k

/-- one step of any goroutine. `sync.Pool` may hand out any idle matrix or make a new one although it has
idle ones, and may drop idle ones (`performance/memory_optimizer.go:54-91,135-154`). The clients are
well-behaved: they write to and release only live matrices. -/
inductive PoolStep : Pool α → Pool α → Prop
  | getStart (p) : PoolStep p { p with inUse := p.inUse + 1, getting := p.getting + 1 }
  | getIdle (p) (g i r c) (a b : List Nat) : p.getting = g + 1 → p.idle = a ++ i :: b →
      PoolStep p { p with getting := g, idle := a ++ b, live := i :: p.live, objs := p.upd i ((p.objs i).prepare r c) }
  | getNew (p) (g r c) : p.getting = g + 1 →
      PoolStep p { p with
        getting := g, next := p.next + 1, live := p.next :: p.live
        objs := p.upd p.next ((⟨none, 0, 0, false⟩ : Pooled α).prepare r c) }
  | drop (p) (i) (a b : List Nat) : p.idle = a ++ i :: b → PoolStep p { p with idle := a ++ b }
  | write (p) (i) (k : Nat) (v : α) : i ∈ p.live →
      PoolStep p { p with
        objs := p.upd i { p.objs i with data := (p.objs i).data.map fun d => d.set k v } }
  | putMark (p) (i) (a b : List Nat) : p.live = a ++ i :: b → (p.objs i).released = false →
      PoolStep p { p with
        live := a ++ b, marked := i :: p.marked, objs := p.upd i { p.objs i with released := true } }
  | putCount (p) (i) (a b : List Nat) : p.marked = a ++ i :: b →
      PoolStep p { p with marked := a ++ b, counted := i :: p.counted, inUse := p.inUse - 1 }
  | putClear (p) (i) (a b : List Nat) : p.counted = a ++ i :: b →
      PoolStep p { p with counted := a ++ b, cleared := i :: p.cleared, objs := p.upd i (p.objs i).clear }
  | putBack (p) (i) (a b : List Nat) : p.cleared = a ++ i :: b →
      PoolStep p { p with cleared := a ++ b, idle := i :: p.idle }

/-- the states a pool can be in (`performance/memory_optimizer.go:36-91`) -/
inductive PoolReach : Pool α → Prop
  | init : PoolReach (Pool.empty α)
  | step (p q : Pool α) : PoolReach p → PoolStep p q → PoolReach q

/-- `ToMat` (`performance/memory_optimizer.go:157-159`): `mat.NewDense` panics on an empty shape and when the
data does not have exactly the length of the shape -/
def Pooled.toMat (m : Pooled α) : Outcome (List α) :=
  if m.rows = 0 ∨ m.cols = 0 then .panic "mat: zero length in matrix dimension"
  else match m.data with
    | none => .ok (List.replicate (m.rows * m.cols) 0)
    | some d => if d.length = m.rows * m.cols then .ok d else .panic "mat: dimension mismatch"

end

end Scigo.Performance
