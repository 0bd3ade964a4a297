import Verif.Performance.MemoryMap
import Verif.Performance.MemoryProps
import Mathlib.Tactic.Linarith
import Mathlib.Tactic.Ring

/-!
# Properties of memory-mapped datasets (C68, C100)
-/

set_option linter.unusedSectionVars false

namespace Scigo.Performance

theorem leBytes_length (k n : Nat) : (leBytes k n).length = k := by
  induction k generalizing n with
  | zero => rfl
  | succ k ih => simp [leBytes, ih]

theorem leValue_leBytes (k n : Nat) : leValue (leBytes k n) = n % 256 ^ k := by
  induction k generalizing n with
  | zero => simp [leBytes, leValue, Nat.mod_one]
  | succ k ih =>
    rw [leBytes, leValue, ih, Nat.pow_succ, Nat.mul_comm (256 ^ k), Nat.mod_mul]

theorem putBytes_length (mem : List Nat) (off : Nat) (bs : List Nat) (h : off + bs.length ≤ mem.length) :
    (putBytes mem off bs).length = mem.length := by
  simp [putBytes]; omega

theorem getBytes_put_self (mem : List Nat) (off : Nat) (bs : List Nat) (h : off + bs.length ≤ mem.length) :
    getBytes (putBytes mem off bs) off bs.length = bs := by
  unfold getBytes putBytes
  have : (mem.take off).length = off := by simp; omega
  rw [List.append_assoc, List.drop_append_of_le_length (by omega), List.drop_of_length_le (by omega), List.nil_append,
    List.take_left]

theorem getBytes_put_ne (mem : List Nat) (off off' n : Nat) (bs : List Nat) (h : off + bs.length ≤ mem.length)
    (hd : off' + n ≤ off ∨ off + bs.length ≤ off') :
    getBytes (putBytes mem off bs) off' n = getBytes mem off' n := by
  unfold getBytes putBytes
  apply List.ext_getElem?
  intro i
  rw [List.getElem?_take, List.getElem?_take]
  split
  · rename_i hi
    rw [List.getElem?_drop, List.getElem?_drop]
    rcases hd with hd | hd
    · rw [List.append_assoc, List.getElem?_append_left (by simp; omega), List.getElem?_take, if_pos (by omega)]
    · have : (mem.take off ++ bs).length = off + bs.length := by simp; omega
      rw [List.getElem?_append_right (by omega), this, List.getElem?_drop]
      congr 1
      omega
  · rfl

variable {α : Type _}

/-- the file has room for the shape -/
def Dataset.Full (d : Dataset) : Prop :=
  0 < d.rows ∧ 0 < d.cols ∧ d.mmap.length = d.rows.toNat * d.cols.toNat * d.dtype.size

/-- the value of entry `(i, j)` of the dataset -/
def Dataset.elem (k : Codec α) (d : Dataset) (i j : Nat) : α :=
  k.dec d.dtype (leValue (getBytes d.mmap ((i * d.cols.toNat + j) * d.dtype.size) d.dtype.size))

theorem size_pos (t : DType) : 0 < t.size := by cases t <;> decide

theorem cell_bound (d : Dataset) (h : d.Full) (i j : Nat) (hi : i < d.rows.toNat) (hj : j < d.cols.toNat) :
    (i * d.cols.toNat + j) * d.dtype.size + d.dtype.size ≤ d.mmap.length := by
  rw [h.2.2]
  have : i * d.cols.toNat + j + 1 ≤ d.rows.toNat * d.cols.toNat := by nlinarith
  nlinarith

theorem offset_eq (d : Dataset) (s i j : Nat) :
    d.offset s i j = ((s + i) * d.cols.toNat + j) * d.dtype.size := by
  unfold Dataset.offset; ring

theorem readElement_elem (k : Codec α) (d : Dataset) (h : d.Full) (s i j : Nat) (hi : s + i < d.rows.toNat)
    (hj : j < d.cols.toNat) : d.readElement k (d.offset s i j) = .ok (d.elem k (s + i) j) := by
  unfold Dataset.readElement
  rw [offset_eq]
  split
  · rename_i ho
    simp [Dataset.elem, ho, Codec.dec]
  · rw [if_neg (by have := cell_bound d h (s + i) j hi hj; omega)]
    rfl

/-- the data of the rows `a`, …, `a + n - 1` in row-major order -/
def Dataset.rowsData (k : Codec α) (d : Dataset) (a n : Nat) : List α :=
  (List.range n).flatMap fun i => (List.range d.cols.toNat).map fun j => d.elem k (a + i) j

theorem readAll_map (k : Codec α) (d : Dataset) (f : Nat × Nat → Nat) (g : Nat × Nat → α) (l : List (Nat × Nat))
    (h : ∀ p ∈ l, d.readElement k (f p) = .ok (g p)) : d.readAll k (l.map f) = .ok (l.map g) := by
  induction l with
  | nil => rfl
  | cons p l ih =>
    rw [List.map_cons, Dataset.readAll, h p List.mem_cons_self, Outcome.bind_ok,
      ih (fun q hq => h q (List.mem_cons_of_mem _ hq))]
    rfl

theorem mem_cells (r c : Nat) (p : Nat × Nat) : p ∈ cells r c ↔ p.1 < r ∧ p.2 < c := by
  obtain ⟨i, j⟩ := p
  simp [cells]

theorem getChunk_eq (k : Codec α) (d : Dataset) (h : d.Full) (a b : Int) (h0 : 0 ≤ a) (hab : a < b)
    (hb : b ≤ d.rows) :
    d.getChunk k a b = .ok ⟨(b - a).toNat, d.cols.toNat, d.rowsData k a.toNat (b - a).toNat⟩ := by
  unfold Dataset.getChunk
  rw [if_neg (by omega), if_neg (by have := h.2.1; omega)]
  rw [readAll_map k d _ (fun p => d.elem k (a.toNat + p.1) p.2)]
  · simp only [Outcome.map_ok, Dataset.rowsData, cells, List.map_flatMap, List.map_map, Function.comp_def]
  · intro p hp
    rw [mem_cells] at hp
    exact readElement_elem k d h _ _ _ (by omega) hp.2

/-- the data of a chunk at `(i, j)` -/
theorem rowsData_get (k : Codec α) (d : Dataset) (a n i j : Nat) (hi : i < n) (hj : j < d.cols.toNat) :
    (d.rowsData k a n)[i * d.cols.toNat + j]? = some (d.elem k (a + i) j) := by
  unfold Dataset.rowsData
  induction n generalizing a i with
  | zero => omega
  | succ n ih =>
    rw [List.range_succ_eq_map, List.flatMap_cons]
    cases i with
    | zero =>
      rw [List.getElem?_append_left (by simpa using hj)]
      simp [hj]
    | succ i =>
      rw [List.getElem?_append_right (by rw [List.length_map, List.length_range]; nlinarith)]
      have e : (i + 1) * d.cols.toNat + j - ((List.range d.cols.toNat).map fun j => d.elem k (a + 0) j).length
          = i * d.cols.toNat + j := by simp; rw [Nat.add_mul]; omega
      rw [e, List.flatMap_map]
      have := ih (a + 1) i (by omega)
      simp only [Nat.succ_eq_add_one]
      rw [show a + (i + 1) = a + 1 + i by omega, ← this]
      congr 1
      apply List.flatMap_congr
      intro i _
      apply List.map_congr_left
      intro j _
      congr 1
      omega

theorem rowsData_append (k : Codec α) (d : Dataset) (a m n : Nat) :
    d.rowsData k a (m + n) = d.rowsData k a m ++ d.rowsData k (a + m) n := by
  unfold Dataset.rowsData
  rw [List.range_add, List.flatMap_append, List.flatMap_map]
  congr 1
  apply List.flatMap_congr
  intro i _
  simp [Nat.add_assoc]

/-- what a value becomes by being stored -/
def Codec.stored (k : Codec α) (t : DType) (x : α) : α := k.dec t (k.enc t x % 256 ^ t.size)

theorem writeElement_elem (k : Codec α) (d : Dataset) (h : d.Full) (s i j : Nat) (x : α)
    (hi : s + i < d.rows.toNat) (hj : j < d.cols.toNat) :
    ∃ d', d.writeElement k (d.offset s i j) x = .ok d' ∧ d'.Full ∧ d'.rows = d.rows ∧ d'.cols = d.cols ∧
      d'.dtype = d.dtype ∧ d'.elem k (s + i) j = k.stored d.dtype x ∧
      ∀ i' j', j' < d.cols.toNat → (i', j') ≠ (s + i, j) → d'.elem k i' j' = d.elem k i' j' := by
  unfold Dataset.writeElement
  rw [offset_eq]
  split
  · rename_i ho
    refine ⟨d, rfl, h, rfl, rfl, rfl, ?_, fun _ _ _ _ => rfl⟩
    simp [Dataset.elem, Codec.stored, ho, Codec.dec]
  · have hb := cell_bound d h (s + i) j hi hj
    rw [if_neg (by omega)]
    have hl : ((s + i) * d.cols.toNat + j) * d.dtype.size + (leBytes d.dtype.size (k.enc d.dtype x)).length
        ≤ d.mmap.length := by rw [leBytes_length]; exact hb
    refine ⟨_, rfl, ⟨h.1, h.2.1, ?_⟩, rfl, rfl, rfl, ?_, ?_⟩
    · rw [putBytes_length _ _ _ hl]; exact h.2.2
    · unfold Dataset.elem
      simp only
      have := getBytes_put_self d.mmap _ _ hl
      rw [leBytes_length] at this
      rw [this, leValue_leBytes]
      rfl
    · intro i' j' hj' hne
      unfold Dataset.elem
      simp only
      rw [getBytes_put_ne _ _ _ _ _ hl]
      rw [leBytes_length]
      have hlt : i' * d.cols.toNat + j' < (s + i) * d.cols.toNat + j ∨
          (s + i) * d.cols.toNat + j < i' * d.cols.toNat + j' := by
        rcases lt_trichotomy i' (s + i) with hl | he | hl
        · left; nlinarith
        · subst he
          have : j' ≠ j := fun e => hne (by rw [e])
          omega
        · right; nlinarith
      rcases hlt with hlt | hlt
      · left; nlinarith
      · right; nlinarith

theorem setFold (k : Codec α) (s : Nat) (M : Mat α) (l : List (Nat × Nat)) (d : Dataset) (h : d.Full)
    (hl : ∀ p ∈ l, s + p.1 < d.rows.toNat ∧ p.2 < d.cols.toNat) (hnd : l.Nodup) :
    ∃ d', l.foldl (Dataset.setStep k s M) (.ok d) = .ok d' ∧ d'.Full ∧ d'.rows = d.rows ∧ d'.cols = d.cols ∧
      d'.dtype = d.dtype ∧
      (∀ p ∈ l, d'.elem k (s + p.1) p.2 = k.stored d.dtype (M.at' p.1 p.2)) ∧
      (∀ i j, j < d.cols.toNat → (∀ p ∈ l, (i, j) ≠ (s + p.1, p.2)) → d'.elem k i j = d.elem k i j) := by
  induction l generalizing d with
  | nil => exact ⟨d, rfl, h, rfl, rfl, rfl, by simp, fun _ _ _ _ => rfl⟩
  | cons p l ih =>
    obtain ⟨i, j⟩ := p
    have hp := hl (i, j) List.mem_cons_self
    obtain ⟨d1, e1, f1, r1, c1, t1, v1, o1⟩ := writeElement_elem k d h s i j (M.at' i j) hp.1 hp.2
    rw [List.nodup_cons] at hnd
    obtain ⟨d2, e2, f2, r2, c2, t2, v2, o2⟩ := ih d1 f1
      (fun p hp => by rw [r1, c1]; exact hl p (List.mem_cons_of_mem _ hp)) hnd.2
    refine ⟨d2, ?_, f2, by rw [r2, r1], by rw [c2, c1], by rw [t2, t1], ?_, ?_⟩
    · rw [List.foldl_cons]
      have : Dataset.setStep k s M (.ok d) (i, j) = .ok d1 := by
        unfold Dataset.setStep; exact e1
      rw [this]
      exact e2
    · intro p hp
      rcases List.mem_cons.1 hp with rfl | hp
      · simp only
        rw [o2 (s + i) j (by rw [c1]; exact (hl _ List.mem_cons_self).2) ?_, v1]
        intro p hp he
        simp only [Prod.mk.injEq] at he
        apply hnd.1
        have : p = (i, j) := Prod.ext (by simp only; omega) he.2.symm
        rwa [this] at hp
      · rw [v2 p hp, t1]
    · intro i' j' hj' hne
      rw [o2 i' j' (by rw [c1]; exact hj') fun p hp => hne p (List.mem_cons_of_mem _ hp)]
      exact o1 i' j' hj' (hne (i, j) List.mem_cons_self)

/-- C68: on a dataset with room for its shape, `SetChunk` succeeds exactly for matrices with the right number
of columns that fit, and then every later `GetChunk` sees the stored rows where they were written and the
rows it saw before everywhere else. -/
theorem setChunk_getChunk (k : Codec α) (d : Dataset) (h : d.Full) (start : Int) (M : Mat α) :
    ((∃ d', d.setChunk k start M = .ok d') ↔ 0 ≤ start ∧ start + M.r ≤ d.rows ∧ (M.c : Int) = d.cols) ∧
    ∀ d', d.setChunk k start M = .ok d' → d'.Full ∧ d'.rows = d.rows ∧ d'.cols = d.cols ∧
      ∀ a b : Int, 0 ≤ a → a < b → b ≤ d.rows → ∃ old new, d.getChunk k a b = .ok old ∧
        d'.getChunk k a b = .ok new ∧ new.r = old.r ∧ new.c = old.c ∧
        ∀ i j : Nat, (i : Int) < b - a → (j : Int) < d.cols →
          new.data[i * new.c + j]? =
            if start ≤ a + i ∧ a + i < start + M.r then
              some (k.stored d.dtype (M.at' (a + i - start).toNat j))
            else old.data[i * old.c + j]? := by
  have main : 0 ≤ start ∧ start + M.r ≤ d.rows ∧ (M.c : Int) = d.cols →
      ∃ d', d.setChunk k start M = .ok d' ∧ d'.Full ∧ d'.rows = d.rows ∧ d'.cols = d.cols ∧ d'.dtype = d.dtype ∧
        (∀ i j, i < M.r → j < M.c → d'.elem k (start.toNat + i) j = k.stored d.dtype (M.at' i j)) ∧
        (∀ i j : Nat, j < d.cols.toNat → ¬ (start ≤ i ∧ i < start + M.r) → d'.elem k i j = d.elem k i j) := by
    rintro ⟨h1, h2, h3⟩
    obtain ⟨d', e, f, r, c, t, v, o⟩ := setFold k start.toNat M (cells M.r M.c) d h
      (fun p hp => by rw [mem_cells] at hp; omega) (positions_nodup M.r M.c)
    refine ⟨d', ?_, f, r, c, t, fun i j hi hj => v (i, j) ((mem_cells _ _ _).2 ⟨hi, hj⟩), ?_⟩
    · unfold Dataset.setChunk
      rw [if_neg (by omega)]
      exact e
    · intro i j hj hn
      refine o i j hj fun p hp he => hn ?_
      rw [mem_cells] at hp
      simp only [Prod.mk.injEq] at he
      omega
  have iff1 : (∃ d', d.setChunk k start M = .ok d') ↔ 0 ≤ start ∧ start + M.r ≤ d.rows ∧ (M.c : Int) = d.cols := by
    constructor
    · rintro ⟨d', hd'⟩
      unfold Dataset.setChunk at hd'
      split at hd'
      · cases hd'
      · omega
    · intro hh
      obtain ⟨d', e, -⟩ := main hh
      exact ⟨d', e⟩
  refine ⟨iff1, ?_⟩
  intro d' hd'
  have hh := iff1.1 ⟨d', hd'⟩
  obtain ⟨d'', e, f, r, c, t, v, o⟩ := main hh
  have : d'' = d' := by rw [e] at hd'; exact Outcome.ok.inj hd'
  subst this
  refine ⟨f, r, c, ?_⟩
  intro a b h0 hab hb
  refine ⟨_, _, getChunk_eq k d h a b h0 hab hb, getChunk_eq k d'' f a b h0 hab (by rw [r]; exact hb), rfl,
    by rw [c], ?_⟩
  intro i j hi hj
  simp only
  rw [rowsData_get k d'' _ _ i j (by omega) (by rw [c]; omega), rowsData_get k d _ _ i j (by omega) (by omega)]
  split
  · rename_i hin
    have := v (a + i - start).toNat j (by omega) (by omega)
    rw [← this]
    congr 2
    omega
  · rename_i hin
    rw [o _ j (by omega) (by omega)]

/-- C68: a `Float64` dataset returns exactly what was written, given that a `float64` is determined by its 64
bits. -/
theorem stored_float64 (k : Codec α) (hb : ∀ x, k.bits64 x < 2 ^ 64) (hr : ∀ x, k.ofBits64 (k.bits64 x) = x) (x : α) :
    k.stored .float64 x = x := by
  unfold Codec.stored
  simp only [Codec.enc, Codec.dec, DType.size]
  rw [Nat.mod_eq_of_lt (by have := hb x; norm_num at this ⊢; omega), hr]

/-- C68: for the other types a value comes back unchanged exactly when the conversion to the element type
and back keeps it. -/
theorem stored_other (k : Codec α) (x : α) (hb : k.bits32 x < 2 ^ 32) (hi : k.int64 x < 2 ^ 64)
    (hj : k.int32 x < 2 ^ 32) :
    k.stored .float32 x = k.ofBits32 (k.bits32 x) ∧ k.stored .int64 x = k.ofInt64 (k.int64 x) ∧
      k.stored .int32 x = k.ofInt32 (k.int32 x) ∧ k.stored .other x = k.zero := by
  unfold Codec.stored
  simp only [Codec.enc, Codec.dec, DType.size]
  rw [Nat.mod_eq_of_lt (by norm_num at hb ⊢; omega), Nat.mod_eq_of_lt (by norm_num at hi ⊢; omega),
    Nat.mod_eq_of_lt (by norm_num at hj ⊢; omega)]
  simp

/-- C68: `GetChunk` fails exactly for ranges that are empty or leave the dataset. -/
theorem getChunk_ok_iff (k : Codec α) (d : Dataset) (h : d.Full) (a b : Int) :
    (d.getChunk k a b).isOk = true ↔ 0 ≤ a ∧ a < b ∧ b ≤ d.rows := by
  constructor
  · intro hok
    unfold Dataset.getChunk at hok
    split at hok
    · cases hok
    · omega
  · rintro ⟨h1, h2, h3⟩
    rw [getChunk_eq k d h a b h1 h2 h3]
    rfl

/-- the constructor makes a dataset with room for its shape when the size of the file fits an `int64`; an
existing file of this size keeps its contents -/
theorem new_full (file : List Nat) (rows cols : Int) (t : DType) (hr : 0 < rows) (hc : 0 < cols)
    (hs : rows * cols * t.size < 2 ^ 63) :
    ∃ d, Dataset.new file rows cols t = .ok d ∧ d.Full ∧ d.rows = rows ∧ d.cols = cols ∧ d.dtype = t ∧
      (file.length = (rows * cols * t.size).toNat → d.mmap = file) := by
  have hpos : 0 < rows * cols * t.size := by
    have := size_pos t
    positivity
  unfold Dataset.new
  rw [wrap64_id _ (by omega) hs]
  simp only
  rw [if_neg (by omega), if_neg (by omega)]
  refine ⟨_, rfl, ⟨hr, hc, ?_⟩, rfl, rfl, rfl, ?_⟩
  · simp only [List.length_append, List.length_take, List.length_replicate]
    have : (rows * cols * t.size).toNat = rows.toNat * cols.toNat * t.size := by
      rw [Int.toNat_mul (by positivity) (by omega), Int.toNat_mul (by omega) (by omega), Int.toNat_natCast]
    omega
  · intro hl
    simp only
    rw [← hl]
    simp

/-- C100: data survives: after closing the dataset and opening the file again with the same shape and type,
every chunk reads the same. -/
theorem reopen_same (k : Codec α) (d : Dataset) (h : d.Full) (hs : d.rows * d.cols * d.dtype.size < 2 ^ 63)
    (d' : Dataset) (hn : Dataset.new d.close d.rows d.cols d.dtype = .ok d') (a b : Int) :
    d'.getChunk k a b = d.getChunk k a b := by
  obtain ⟨d'', e, -, r, c, t, m⟩ := new_full d.close d.rows d.cols d.dtype h.1 h.2.1 hs
  have : d'' = d' := by rw [e] at hn; exact Outcome.ok.inj hn
  subst this
  have hm : d''.mmap = d.mmap := by
    refine m ?_
    rw [Dataset.close, h.2.2, Int.toNat_mul (by have := h.1; have := h.2.1; positivity) (by omega),
      Int.toNat_mul (by have := h.1; omega) (by have := h.2.1; omega), Int.toNat_natCast]
  have : d'' = d := by
    cases d; cases d''
    simp_all
  rw [this]

/-! ## Iteration -/

variable {σ : Type _}

/-- calling the callback on a list of chunks, stopping at the first error -/
def callAll (fn : σ → Chunk α → Int → Outcome σ) (s : σ) (l : List (Chunk α × Int)) : Outcome σ :=
  match l with
  | [] => .ok s
  | p :: l => (fn s p.1 p.2).bind fun s' => callAll fn s' l

theorem iter_from (k : Codec α) (d : Dataset) (h : d.Full) (cs : Int) (hcs : 0 < cs) (n : Nat) (m : Nat)
    (hm : d.rows - m * cs ≤ n) :
    ∃ l : List (Chunk α × Int),
      (∀ i p, l[i]? = some p → p.2 = ((m + i : Nat) : Int) * cs ∧ p.1.c = d.cols.toNat ∧
        d.getChunk k p.2 (p.2 + p.1.r) = .ok p.1) ∧
      (l.flatMap fun p => p.1.data) = d.rowsData k (m * cs).toNat (d.rows - m * cs).toNat ∧
      ∀ fuel, n < fuel → ∀ (fn : σ → Chunk α → Int → Outcome σ) (s : σ),
        d.iterLoop k cs fn fuel (m * cs) s = some (callAll fn s l) := by
  induction n generalizing m with
  | zero =>
    refine ⟨[], by simp, ?_, ?_⟩
    · have : (d.rows - m * cs).toNat = 0 := by omega
      rw [this]; rfl
    · intro fuel hf fn s
      obtain ⟨f, rfl⟩ : ∃ f, fuel = f + 1 := ⟨fuel - 1, by omega⟩
      rw [Dataset.iterLoop, if_neg (by omega)]
      rfl
  | succ n ih =>
    by_cases hlt : (m : Int) * cs < d.rows
    swap
    · refine ⟨[], by simp, ?_, ?_⟩
      · have : (d.rows - m * cs).toNat = 0 := by omega
        rw [this]; rfl
      · intro fuel hf fn s
        obtain ⟨f, rfl⟩ : ∃ f, fuel = f + 1 := ⟨fuel - 1, by omega⟩
        rw [Dataset.iterLoop, if_neg hlt]
        rfl
    have hmul : ((m + 1 : Nat) : Int) * cs = m * cs + cs := by push_cast; ring
    obtain ⟨l, h1, h2, h3⟩ := ih (m + 1) (by rw [hmul]; omega)
    have hm0 : 0 ≤ (m : Int) * cs := by positivity
    have hend : (m : Int) * cs < d.chunkEnd cs (m * cs) ∧ d.chunkEnd cs (m * cs) ≤ d.rows := by
      unfold Dataset.chunkEnd; split <;> omega
    have hget := getChunk_eq k d h _ _ hm0 hend.1 hend.2
    refine ⟨(⟨(d.chunkEnd cs (m * cs) - m * cs).toNat, d.cols.toNat,
      d.rowsData k ((m : Int) * cs).toNat (d.chunkEnd cs (m * cs) - m * cs).toNat⟩, m * cs) :: l, ?_, ?_, ?_⟩
    · intro i p hp
      cases i with
      | zero =>
        simp only [List.getElem?_cons_zero, Option.some.injEq] at hp
        subst hp
        refine ⟨by simp, rfl, ?_⟩
        simp only
        rw [← hget]
        congr 1
        omega
      | succ i =>
        rw [List.getElem?_cons_succ] at hp
        have := h1 i p hp
        refine ⟨?_, this.2⟩
        rw [this.1]
        congr 2
        omega
    · rw [List.flatMap_cons, h2, hmul]
      simp only
      unfold Dataset.chunkEnd
      split
      · have e1 : (d.rows - (m * cs + cs)).toNat = 0 := by omega
        rw [e1]
        simp [Dataset.rowsData]
      · have e1 : (m * cs + cs - m * cs : Int).toNat = cs.toNat := by congr 1; omega
        have e2 : ((m : Int) * cs + cs).toNat = ((m : Int) * cs).toNat + cs.toNat := by omega
        have e3 : (d.rows - m * cs).toNat = cs.toNat + (d.rows - (m * cs + cs)).toNat := by omega
        rw [e1, e2, e3, rowsData_append]
    · intro fuel hf fn s
      obtain ⟨f, rfl⟩ : ∃ f, fuel = f + 1 := ⟨fuel - 1, by omega⟩
      rw [Dataset.iterLoop, if_pos hlt, hget, Outcome.bind_ok, callAll]
      simp only
      cases fn s _ (m * cs) with
      | ok s' =>
        simp only [Outcome.bind_ok]
        have := h3 f (by omega) fn s'
        rw [hmul] at this
        exact this
      | err e => rfl
      | panic v => rfl

/-- C68: for a positive chunk size the iteration ends, calls the callback on chunks of rows starting at 0,
`chunkSize`, `2 chunkSize`, … — each being what `GetChunk` returns —, the chunks in order make up all rows
exactly once, and it stops at the first error the callback returns. -/
theorem iterate_all (k : Codec α) (d : Dataset) (h : d.Full) (cs : Int) (hcs : 0 < cs) :
    ∃ l : List (Chunk α × Int),
      (∀ (i : Nat) p, l[i]? = some p → p.2 = (i : Int) * cs ∧ p.1.c = d.cols.toNat ∧
        d.getChunk k p.2 (p.2 + p.1.r) = .ok p.1) ∧
      (∃ all, d.getChunk k 0 d.rows = .ok all ∧ (l.flatMap fun p => p.1.data) = all.data) ∧
      ∀ fuel : Nat, d.rows < fuel → ∀ (fn : σ → Chunk α → Int → Outcome σ) (s : σ),
        d.iterLoop k cs fn fuel 0 s = some (callAll fn s l) := by
  obtain ⟨l, h1, h2, h3⟩ := iter_from (σ := σ) k d h cs hcs d.rows.toNat 0 (by omega)
  refine ⟨l, by simpa using h1, ⟨_, getChunk_eq k d h 0 d.rows le_rfl h.1 le_rfl, by simpa using h2⟩, ?_⟩
  intro fuel hf fn s
  have := h3 fuel (by have := h.1; omega) fn s
  simpa using this

/-- C68: a chunk size that is zero or negative is reported as an error, without calling the callback. -/
theorem iterate_bad_size (k : Codec α) (d : Dataset) (h : d.Full) (cs : Int) (hcs : cs ≤ 0)
    (fn : σ → Chunk α → Int → Outcome σ) (s : σ) (fuel : Nat) :
    d.iterLoop k cs fn (fuel + 1) 0 s = some (.err (.other "invalid row range")) := by
  have hr := h.1
  rw [Dataset.iterLoop, if_pos hr]
  have he : d.chunkEnd cs 0 = cs := by unfold Dataset.chunkEnd; rw [if_neg (by omega)]; omega
  rw [he]
  unfold Dataset.getChunk
  rw [if_pos (by omega)]
  rfl

/-- a codec for the examples: natural numbers -/
def natCodec : Codec Nat := ⟨0, id, id, id, id, id, id, id, id⟩

example : ∃ d, Dataset.new [] 3 2 .float64 = .ok d ∧ d.Full :=
  ⟨_, rfl, by decide, by decide, by decide⟩

example : ∃ d d', Dataset.new [] 3 2 .int32 = .ok d ∧
    d.setChunk natCodec 1 ⟨2, 2, fun i j => 1000 * i + j + 7⟩ = .ok d' ∧
    (d'.getChunk natCodec 0 3).map (fun c => c.data) = .ok [0, 0, 7, 8, 1007, 1008] ∧
    d'.iterLoop natCodec 2 (fun s c st => .ok (s ++ [(st, c.r)])) 4 0 [] = some (.ok [(0, 2), (2, 1)]) :=
  ⟨_, _, rfl, rfl, by decide +kernel, by decide +kernel⟩

end Scigo.Performance

namespace Scigo.Performance

/-- **C68**, **C100**: an element is read or written only where all its bytes are inside the mapped file; anywhere else the access panics, and no byte outside the
element changes. -/
theorem access_inside {α : Type _} (k : Codec α) (d : Dataset) (hd : d.dtype ≠ .other) (off : Nat) (x : α) :
    ((∃ v, d.readElement k off = .ok v) ↔ off + d.dtype.size ≤ d.mmap.length) ∧
    ((∃ e, d.readElement k off = .panic e) ↔ d.mmap.length < off + d.dtype.size) ∧
    ((∃ d', d.writeElement k off x = .ok d') ↔ off + d.dtype.size ≤ d.mmap.length) ∧
    ((∃ e, d.writeElement k off x = .panic e) ↔ d.mmap.length < off + d.dtype.size) ∧
    ∀ d', d.writeElement k off x = .ok d' → d'.mmap.length = d.mmap.length ∧
      ∀ b, b < off ∨ off + d.dtype.size ≤ b → d'.mmap[b]? = d.mmap[b]? := by
  unfold Dataset.readElement Dataset.writeElement
  rw [if_neg hd, if_neg hd]
  by_cases h : d.mmap.length < off + d.dtype.size
  · rw [if_pos h, if_pos h]
    simp [h]
  · rw [if_neg h, if_neg h]
    refine ⟨by simp; omega, by simp; omega, by simp; omega, by simp; omega, fun d' e => ?_⟩
    injection e with e
    subst e
    have hl : off + (leBytes d.dtype.size (k.enc d.dtype x)).length ≤ d.mmap.length := by rw [leBytes_length]; omega
    refine ⟨putBytes_length _ _ _ hl, fun b hb => ?_⟩
    have hlen := leBytes_length d.dtype.size (k.enc d.dtype x)
    show (putBytes d.mmap off _)[b]? = _
    unfold putBytes
    rcases hb with hb | hb
    · rw [List.append_assoc, List.getElem?_append_left (by rw [List.length_take]; omega), List.getElem?_take_of_lt hb]
    · rw [List.append_assoc, List.getElem?_append_right (by rw [List.length_take]; omega), List.length_take, Nat.min_eq_left (by omega),
        List.getElem?_append_right (by omega), List.getElem?_drop, hlen]
      congr 1
      omega

/-- the last element of a mapped file of 24 bytes can be read, the bytes of an element that begins one byte later end outside the file -/
example : (∃ v, (⟨List.replicate 24 0, 3, 1, .float64⟩ : Dataset).readElement natCodec 16 = .ok v) ∧
    ∃ e, (⟨List.replicate 24 0, 3, 1, .float64⟩ : Dataset).readElement natCodec 17 = .panic e :=
  ⟨(access_inside natCodec _ (by decide) 16 0).1.2 (by decide), (access_inside natCodec _ (by decide) 17 0).2.1.2 (by decide)⟩

end Scigo.Performance
