import Verif.Performance.Memory
import Mathlib.Data.List.Perm.Basic
import Mathlib.Data.List.Nodup
import Mathlib.Data.List.GetD
import Mathlib.Tactic.Linarith
import Mathlib.Tactic.Ring
import Mathlib.Tactic.NormNum

/-!
# Properties of the memory helpers (C69, C70, C71, C98, C99)
-/

set_option linter.unusedSectionVars false

namespace Scigo.Performance

/-! ## Memory budget -/

theorem wrap64_id (x : Int) (h1 : -2 ^ 63 ≤ x) (h2 : x < 2 ^ 63) : wrap64 x = x := by
  unfold wrap64; omega

/-- the size passed to a call -/
def BudgetCall.size : BudgetCall → Int
  | .allocate n => n
  | .free n => n

/-- C70, the part that holds: starting from a budget of `max` bytes, over every history of calls with sizes
that are not negative and whose sum with the maximum does not overflow `int64`, the used amount stays between
0 and the maximum, and `Allocate` fails exactly when the request would exceed it. Missing: requests so large
that the sum overflows (`budget_overflow`). -/
theorem budget_respected_partial (max : Int) (h0 : 0 ≤ max) (h1 : max < 2 ^ 63) (calls : List BudgetCall)
    (hc : ∀ c ∈ calls, 0 ≤ c.size ∧ max + c.size < 2 ^ 63) (n : Int) (hn : 0 ≤ n) (hn' : max + n < 2 ^ 63) :
    let b := calls.foldl Budget.call ⟨max, 0⟩
    b.max = max ∧ 0 ≤ b.used ∧ b.used ≤ max ∧
    ((b.allocate n).2 = false ↔ max < b.used + n) ∧
    (b.canAllocate n = (b.allocate n).2) ∧
    ((b.allocate n).2 = true → (b.allocate n).1.used = b.used + n) ∧
    ((b.allocate n).2 = false → (b.allocate n).1 = b) := by
  have key : ∀ (calls : List BudgetCall) (b : Budget), (∀ c ∈ calls, 0 ≤ c.size ∧ max + c.size < 2 ^ 63) →
      b.max = max → 0 ≤ b.used → b.used ≤ max →
      (calls.foldl Budget.call b).max = max ∧ 0 ≤ (calls.foldl Budget.call b).used ∧
        (calls.foldl Budget.call b).used ≤ max := by
    intro calls
    induction calls with
    | nil => intro b _ h1 h2 h3; exact ⟨h1, h2, h3⟩
    | cons c cs ih =>
      intro b hc hb1 hb2 hb3
      have hc0 := hc c List.mem_cons_self
      refine ih _ (fun c hc' => hc c (List.mem_cons_of_mem _ hc')) ?_ ?_ ?_
      all_goals
        cases c with
        | allocate k =>
          simp only [BudgetCall.size] at hc0
          simp only [Budget.call, Budget.allocate]
          rw [wrap64_id _ (by omega) (by omega)]
          split <;> simp only <;> omega
        | free k =>
          simp only [BudgetCall.size] at hc0
          simp only [Budget.call, Budget.free]
          try rw [wrap64_id (b.used - k) (by omega) (by omega)]
          try split
          all_goals omega
  intro b
  obtain ⟨k1, k2, k3⟩ := key calls ⟨max, 0⟩ hc rfl le_rfl h0
  change b.max = max at k1
  change 0 ≤ b.used at k2
  change b.used ≤ max at k3
  have e : wrap64 (b.used + n) = b.used + n := wrap64_id _ (by omega) (by omega)
  refine ⟨k1, k2, k3, ?_, ?_, ?_, ?_⟩
  · unfold Budget.allocate
    rw [e, k1]
    split <;> simp <;> omega
  · unfold Budget.allocate Budget.canAllocate
    rw [e, k1]
    split <;> simp <;> omega
  · unfold Budget.allocate
    rw [e]
    split <;> simp
  · unfold Budget.allocate
    rw [e]
    split <;> simp

/-- C70: a new budget of `mb` megabytes is empty and holds `mb` times 2²⁰ bytes, for every size that fits -/
theorem budget_megabytes (mb : Int) (h0 : 0 ≤ mb) (h : mb < 2 ^ 43) : (Budget.new mb).max = mb * 2 ^ 20 ∧ (Budget.new mb).used = 0 := by
  refine ⟨?_, rfl⟩
  unfold Budget.new
  rw [wrap64_id (mb * 1024) (by omega) (by omega), wrap64_id (mb * 1024 * 1024) (by omega) (by omega)]
  show mb * 1024 * 1024 = mb * 2 ^ 20
  omega

/-- C70 is false: a request of the largest `int64` overflows the sum, is granted, and leaves a negative
amount in use. -/
theorem budget_overflow :
    let b := ((Budget.new 1).allocate 1).1
    (b.allocate (2 ^ 63 - 1)).2 = true ∧ (b.allocate (2 ^ 63 - 1)).1.used = -2 ^ 63 := by
  decide

example : let b := [BudgetCall.allocate 600000, .free 100000, .allocate 500000].foldl Budget.call (Budget.new 1)
    b.used = 1000000 ∧ (b.allocate 48577).2 = false ∧ (b.allocate 48576).2 = true := by
  decide

example : 0 ≤ (1048576 : Int) ∧ ∀ c ∈ [BudgetCall.allocate 600000, .free 100000, .allocate 500000],
    0 ≤ c.size ∧ (1048576 : Int) + c.size < 2 ^ 63 := by
  refine ⟨by decide, ?_⟩
  intro c hc
  simp only [List.mem_cons, List.not_mem_nil, or_false] at hc
  rcases hc with rfl | rfl | rfl <;> decide

/-! ## Relayout -/

section

variable {α : Type _} [Zero α]

/-- the positions written, in order, with what is written -/
theorem relayout_fold (data : List α) (rows cols : Nat) (l : List (Nat × Nat)) (o : List α)
    (hl : ∀ p ∈ l, p.1 < rows ∧ p.2 < cols) (hd : data.length = rows * cols) (ho : o.length = rows * cols)
    (hnd : l.Nodup) :
    ∃ o', l.foldl (relayoutStep data rows cols) (.ok o) = .ok o' ∧ o'.length = rows * cols ∧
      (∀ p ∈ l, o'[p.2 * rows + p.1]? = data[p.1 * cols + p.2]?) ∧
      (∀ i j, i < rows → j < cols → (i, j) ∉ l → o'[j * rows + i]? = o[j * rows + i]?) := by
  induction l generalizing o with
  | nil => exact ⟨o, rfl, ho, by simp, fun _ _ _ _ _ => rfl⟩
  | cons p l ih =>
    obtain ⟨i, j⟩ := p
    obtain ⟨hi, hj⟩ := hl (i, j) List.mem_cons_self
    simp only at hi hj
    have hsrc : i * cols + j < data.length := by
      rw [hd]; calc i * cols + j < i * cols + cols := by omega
        _ = (i + 1) * cols := by ring
        _ ≤ rows * cols := Nat.mul_le_mul_right _ hi
    have hdst : ∀ i j, i < rows → j < cols → j * rows + i < rows * cols := by
      intro i j hi hj
      calc j * rows + i < j * rows + rows := by omega
        _ = (j + 1) * rows := by ring
        _ ≤ cols * rows := Nat.mul_le_mul_right _ hj
        _ = rows * cols := Nat.mul_comm _ _
    have hinj : ∀ i j i' j', i < rows → i' < rows → j * rows + i = j' * rows + i' → i = i' ∧ j = j' := by
      intro i j i' j' hi hi' he
      have h1 : (j * rows + i) % rows = (j' * rows + i') % rows := by rw [he]
      have h2 : (j * rows + i) / rows = (j' * rows + i') / rows := by rw [he]
      rw [Nat.mul_comm j, Nat.mul_comm j', Nat.mul_add_mod, Nat.mul_add_mod, Nat.mod_eq_of_lt hi,
        Nat.mod_eq_of_lt hi'] at h1
      rw [Nat.mul_comm j, Nat.mul_comm j', Nat.mul_add_div (by omega), Nat.mul_add_div (by omega),
        Nat.div_eq_of_lt hi, Nat.div_eq_of_lt hi'] at h2
      exact ⟨h1, by simpa using h2⟩
    rw [List.nodup_cons] at hnd
    have hstep : relayoutStep data rows cols (.ok o) (i, j) = .ok (o.set (j * rows + i) data[i * cols + j]) := by
      unfold relayoutStep
      simp only [Outcome.bind_ok]
      rw [List.getElem?_eq_getElem hsrc]
      simp only
      rw [if_pos (by rw [ho]; exact hdst i j hi hj)]
    obtain ⟨o', h1, h2, h3, h4⟩ := ih (o.set (j * rows + i) data[i * cols + j])
      (fun p hp => hl p (List.mem_cons_of_mem _ hp)) (by simp [ho]) hnd.2
    refine ⟨o', by rw [List.foldl_cons, hstep]; exact h1, h2, ?_, ?_⟩
    · intro p hp
      rcases List.mem_cons.1 hp with rfl | hp
      · simp only
        rw [h4 i j hi hj hnd.1, List.getElem?_set_self (by rw [ho]; exact hdst i j hi hj),
          List.getElem?_eq_getElem hsrc]
      · exact h3 p hp
    · intro i' j' hi' hj' hnot
      rw [List.mem_cons, not_or] at hnot
      rw [h4 i' j' hi' hj' hnot.2, List.getElem?_set_ne]
      intro he
      obtain ⟨e1, e2⟩ := hinj i j i' j' hi hi' he
      exact hnot.1 (by rw [e1, e2])

theorem positions_nodup (rows cols : Nat) :
    ((List.range rows).flatMap fun i => (List.range cols).map fun j => (i, j)).Nodup := by
  rw [List.nodup_flatMap]
  refine ⟨fun i _ => (List.nodup_range).map (fun a b h => by simpa using h), ?_⟩
  refine List.Pairwise.imp ?_ (List.nodup_range (n := rows))
  intro a b hab
  simp only [Function.onFun, List.disjoint_left, List.mem_map]
  rintro p ⟨j, -, rfl⟩ ⟨j', -, he⟩
  simp only [Prod.mk.injEq] at he
  exact hab he.1.symm

/-- C71: for data of the right length the relayout succeeds; the result has the same length, and entry
`(i, j)` of the row-major input is entry `(i, j)` of the column-major result. -/
theorem relayout_transposes (data : List α) (rows cols : Nat) (hd : data.length = rows * cols) :
    ∃ o, relayout data rows cols = .ok o ∧ o.length = rows * cols ∧
      ∀ i < rows, ∀ j < cols, o[j * rows + i]? = data[i * cols + j]? := by
  obtain ⟨o, h1, h2, h3, -⟩ := relayout_fold data rows cols
    ((List.range rows).flatMap fun i => (List.range cols).map fun j => (i, j)) (List.replicate data.length 0)
    (by
      intro p hp
      simp only [List.mem_flatMap, List.mem_map, List.mem_range] at hp
      obtain ⟨i, hi, j, hj, rfl⟩ := hp
      exact ⟨hi, hj⟩) hd (by simp [hd]) (positions_nodup rows cols)
  refine ⟨o, h1, h2, ?_⟩
  intro i hi j hj
  exact h3 (i, j) (by simp [hi, hj])

/-- C71: data of a wrong length: too short panics -/
theorem relayout_short_panics (data : List α) (rows cols : Nat) (hd : data.length < rows * cols) :
    ∃ s, relayout data rows cols = .panic s := by
  have hstay : ∀ (l : List (Nat × Nat)) s, l.foldl (relayoutStep data rows cols) (.panic s) = .panic s := by
    intro l
    induction l with
    | nil => intro s; rfl
    | cons p l ih => intro s; exact ih s
  -- a position whose source is missing makes every continuation panic
  have key : ∀ (l : List (Nat × Nat)) (o : List α), (∃ p ∈ l, data.length ≤ p.1 * cols + p.2) →
      ∃ s, l.foldl (relayoutStep data rows cols) (.ok o) = .panic s := by
    intro l
    induction l with
    | nil => rintro o ⟨p, hp, -⟩; simp at hp
    | cons q l ih =>
      rintro o ⟨p, hp, hlt⟩
      rw [List.foldl_cons]
      unfold relayoutStep
      simp only [Outcome.bind_ok]
      cases hq : data[q.1 * cols + q.2]? with
      | none => exact ⟨_, hstay l _⟩
      | some v =>
        simp only
        split
        · refine ih _ ?_
          rcases List.mem_cons.1 hp with rfl | hp
          · rw [List.getElem?_eq_none hlt] at hq; cases hq
          · exact ⟨p, hp, hlt⟩
        · exact ⟨_, hstay l _⟩
  have hr : 0 < rows := by
    rcases Nat.eq_zero_or_pos rows with h | h
    · subst h; simp at hd
    · exact h
  have hc : 0 < cols := by
    rcases Nat.eq_zero_or_pos cols with h | h
    · subst h; simp at hd
    · exact h
  refine key _ _ ⟨(rows - 1, cols - 1), ?_, ?_⟩
  · simp; omega
  · obtain ⟨r, rfl⟩ : ∃ r, rows = r + 1 := ⟨rows - 1, by omega⟩
    obtain ⟨c, rfl⟩ : ∃ c, cols = c + 1 := ⟨cols - 1, by omega⟩
    simp only [Nat.add_sub_cancel]
    have : (r + 1) * (c + 1) = r * (c + 1) + c + 1 := by ring
    omega

/-- C71: applying it again with the dimensions swapped restores the input. -/
theorem relayout_involutive (data : List α) (rows cols : Nat) (hd : data.length = rows * cols) :
    ∃ o, relayout data rows cols = .ok o ∧ relayout o cols rows = .ok data := by
  obtain ⟨o, h1, h2, h3⟩ := relayout_transposes data rows cols hd
  obtain ⟨d, g1, g2, g3⟩ := relayout_transposes o cols rows (by rw [h2, Nat.mul_comm])
  refine ⟨o, h1, ?_⟩
  rw [g1]
  congr 1
  apply List.ext_getElem?
  intro k
  by_cases hk : k < rows * cols
  · have hc : 0 < cols := by
      rcases Nat.eq_zero_or_pos cols with h | h
      · subst h; simp at hk
      · exact h
    have hi : k / cols < rows := Nat.div_lt_of_lt_mul (by rwa [Nat.mul_comm] at hk)
    have hj : k % cols < cols := Nat.mod_lt _ hc
    have hk' : k / cols * cols + k % cols = k := Nat.div_add_mod' k cols
    have e1 := g3 (k % cols) hj (k / cols) hi
    have e2 := h3 (k / cols) hi (k % cols) hj
    rw [hk'] at e1 e2
    rw [e1, e2]
  · rw [List.getElem?_eq_none (by rw [g2, Nat.mul_comm]; omega), List.getElem?_eq_none (by omega)]

theorem list_blocks (o : List α) (cols rows : Nat) (h : o.length = cols * rows) :
    o = (List.range cols).flatMap fun j => (List.range rows).map fun i => o.getD (j * rows + i) 0 := by
  induction cols generalizing o with
  | zero => simp at h; simp [h]
  | succ r ih =>
    rw [List.range_succ, List.flatMap_append]
    have hlen : (o.take (r * rows)).length = r * rows := by
      rw [List.length_take, h]; exact Nat.min_eq_left (by nlinarith)
    have := ih (o.take (r * rows)) hlen
    conv_lhs => rw [← List.take_append_drop (r * rows) o]
    congr 1
    · rw [this]
      apply List.flatMap_congr
      intro i hi
      rw [List.mem_range] at hi
      apply List.map_congr_left
      intro j hj
      rw [List.mem_range] at hj
      have : i * rows + j < r * rows := by nlinarith
      simp [List.getD_eq_getElem?_getD, this]
    · simp only [List.flatMap_cons, List.flatMap_nil, List.append_nil]
      apply List.ext_getElem?
      intro k
      rw [List.getElem?_drop, List.getElem?_map]
      by_cases hk : k < rows
      · have : r * rows + k < o.length := by rw [h]; nlinarith
        simp [hk, this]
      · have : o.length ≤ r * rows + k := by rw [h]; nlinarith
        simp [List.getElem?_eq_none this, hk]

/-- C71: the result is a rearrangement of the input. -/
theorem relayout_perm (data : List α) (rows cols : Nat) (hd : data.length = rows * cols) :
    ∃ o, relayout data rows cols = .ok o ∧ o.Perm data := by
  obtain ⟨o, h1, h2, h3⟩ := relayout_transposes data rows cols hd
  refine ⟨o, h1, ?_⟩
  -- both are the values at the positions `(i, j)`, in different orders
  have e1 := list_blocks data rows cols hd
  have e2 : o = (List.range cols).flatMap fun j => (List.range rows).map fun i => data.getD (i * cols + j) 0 := by
    have := list_blocks o cols rows (by rw [h2, Nat.mul_comm])
    rw [this]
    clear this
    apply List.flatMap_congr
    intro j hj
    rw [List.mem_range] at hj
    apply List.map_congr_left
    intro i hi
    rw [List.mem_range] at hi
    rw [List.getD_eq_getElem?_getD, List.getD_eq_getElem?_getD, h3 i hi j hj]
  rw [e2]
  conv_rhs => rw [e1]
  have swap : ∀ (f : Nat → Nat → α) (as bs : List Nat),
      (as.flatMap fun j => bs.map fun i => f i j).Perm (bs.flatMap fun i => as.map fun j => f i j) := by
    intro f as
    induction as with
    | nil => intro bs; simp
    | cons a as ih =>
      intro bs
      simp only [List.flatMap_cons, List.map_cons]
      refine (List.Perm.append_left _ (ih bs)).trans ?_
      clear ih
      induction bs with
      | nil => simp
      | cons b bs ihb =>
        simp only [List.map_cons, List.flatMap_cons, List.cons_append]
        refine List.Perm.cons _ ?_
        refine List.Perm.trans ?_ (List.Perm.append_left _ ihb)
        rw [← List.append_assoc, ← List.append_assoc]
        exact List.Perm.append_right _ List.perm_append_comm
  exact swap (fun i j => data.getD (i * cols + j) 0) (List.range cols) (List.range rows)

end

example : relayout [1, 2, 3, 4, 5, 6] 2 3 = .ok [1, 4, 2, 5, 3, 6] := by decide

/-! ## Views -/

section

variable {α : Type _}

/-- the views a user can hold on a slice `mem`: made by the constructor with in-range dimensions, or by
slicing such a view -/
inductive ViewOf (mem : List α) : View → Prop
  | new (rows cols : Int) (v : View) : -2 ^ 63 ≤ rows * cols → rows * cols < 2 ^ 63 →
      View.new mem rows cols = .ok v → ViewOf mem v
  | slice (v w : View) (i0 i1 j0 j1 : Int) : ViewOf mem v → v.slice i0 i1 j0 j1 = .ok w → ViewOf mem w

theorem inside_iff (v : View) (i j : Int) :
    v.inside i j = true ↔ 0 ≤ i ∧ i < v.rows ∧ 0 ≤ j ∧ j < v.cols := by
  simp [View.inside, and_assoc]

theorem slice_ok (v w : View) (i0 i1 j0 j1 : Int) :
    v.slice i0 i1 j0 j1 = .ok w ↔
      (0 ≤ i0 ∧ i1 ≤ v.rows ∧ 0 ≤ j0 ∧ j1 ≤ v.cols ∧ i0 < i1 ∧ j0 < j1) ∧
      w = ⟨v.off + (i0 * v.stride + j0), i1 - i0, j1 - j0, v.stride⟩ := by
  unfold View.slice
  split
  · constructor
    · intro h; cases h
    · rintro ⟨h, -⟩; omega
  · simp only [Outcome.ok.injEq]
    constructor
    · rintro rfl; exact ⟨by omega, rfl⟩
    · rintro ⟨-, rfl⟩; rfl

theorem view_valid (mem : List α) (v : View) (h : ViewOf mem v) :
    (v.cols ≤ v.stride ∨ v.rows ≤ 1) ∧
      ∀ i j, v.inside i j = true → 0 ≤ v.addr i j ∧ v.addr i j < mem.length := by
  induction h with
  | new rows cols v h1 h2 h =>
    unfold View.new at h
    rw [wrap64_id _ h1 h2] at h
    split at h
    · cases h
    · rename_i hlen
      split at h
      · cases h
      · cases h
        refine ⟨.inl le_rfl, ?_⟩
        intro i j hij
        rw [inside_iff] at hij
        simp only at hij
        simp only [View.addr]
        have : i * cols + cols ≤ rows * cols := by nlinarith
        have : 0 ≤ i * cols := by nlinarith
        omega
  | slice v w i0 i1 j0 j1 _ h ih =>
    obtain ⟨hb, rfl⟩ := (slice_ok _ _ _ _ _ _).1 h
    refine ⟨by simp only; omega, ?_⟩
    intro i j hij
    rw [inside_iff] at hij
    simp only at hij
    have := ih.2 (i0 + i) (j0 + j) ((inside_iff _ _ _).2 ⟨by omega, by omega, by omega, by omega⟩)
    have e : View.addr ⟨v.off + (i0 * v.stride + j0), i1 - i0, j1 - j0, v.stride⟩ i j
        = v.addr (i0 + i) (j0 + j) := by
      simp only [View.addr]; ring
    rw [e]
    exact this

/-- C98: on every view obtained from the constructor (with dimensions whose product fits an `int64`) by any
number of slices, `At` and `Set` never touch memory outside the slice, and panic exactly for indices outside
the view. -/
theorem view_safe_partial (mem : List α) (v : View) (h : ViewOf mem v) (i j : Int) (x : α) :
    (v.inside i j = true → (∃ a, v.at' mem i j = .ok a) ∧ (∃ m, v.set mem i j x = .ok m)) ∧
    (v.inside i j = false → (∃ s, v.at' mem i j = .panic s) ∧ (∃ s, v.set mem i j x = .panic s)) := by
  constructor
  · intro hin
    obtain ⟨h1, h2⟩ := (view_valid mem v h).2 i j hin
    constructor
    · unfold View.at' readMem
      rw [if_pos hin, if_neg (by omega), List.getElem?_eq_getElem (by omega)]
      exact ⟨_, rfl⟩
    · unfold View.set writeMem
      rw [if_pos hin, if_neg (by omega)]
      exact ⟨_, rfl⟩
  · intro hin
    constructor
    · unfold View.at'; simp [hin]
    · unfold View.set; simp [hin]

/-- C98: a slice is a window on the same memory: reading or writing entry `(i, j)` of the slice is reading
or writing entry `(i0 + i, j0 + j)` of the view it was taken from. -/
theorem slice_aliases (mem : List α) (v w : View) (i0 i1 j0 j1 : Int) (hs : v.slice i0 i1 j0 j1 = .ok w)
    (i j : Int) (hi : 0 ≤ i ∧ i < i1 - i0) (hj : 0 ≤ j ∧ j < j1 - j0) (x : α) :
    w.at' mem i j = v.at' mem (i0 + i) (j0 + j) ∧ w.set mem i j x = v.set mem (i0 + i) (j0 + j) x := by
  obtain ⟨hb, rfl⟩ := (slice_ok _ _ _ _ _ _).1 hs
  have e : View.addr ⟨v.off + (i0 * v.stride + j0), i1 - i0, j1 - j0, v.stride⟩ i j
      = v.addr (i0 + i) (j0 + j) := by
    simp only [View.addr]; ring
  have h1 : View.inside ⟨v.off + (i0 * v.stride + j0), i1 - i0, j1 - j0, v.stride⟩ i j = true :=
    (inside_iff _ _ _).2 (by simp only; omega)
  have h2 : v.inside (i0 + i) (j0 + j) = true := (inside_iff _ _ _).2 (by omega)
  constructor
  · unfold View.at'; rw [if_pos h1, if_pos h2, e]
  · unfold View.set; rw [if_pos h1, if_pos h2, e]

/-- C98: a view behaves like a matrix: a written entry is read back, every other entry keeps its value. -/
theorem view_read_write (mem : List α) (v : View) (h : ViewOf mem v) (i j : Int) (x : α) (mem' : List α)
    (hset : v.set mem i j x = .ok mem') :
    mem'.length = mem.length ∧ v.at' mem' i j = .ok x ∧
      ∀ i' j', v.inside i' j' = true → (i', j') ≠ (i, j) → v.at' mem' i' j' = v.at' mem i' j' := by
  obtain ⟨hstr, hval⟩ := view_valid mem v h
  unfold View.set at hset
  split at hset
  swap
  · cases hset
  rename_i hin
  obtain ⟨h1, h2⟩ := hval i j hin
  unfold writeMem at hset
  rw [if_neg (by omega)] at hset
  cases hset
  refine ⟨by simp, ?_, ?_⟩
  · unfold View.at' readMem
    rw [if_pos hin, if_neg (by omega), List.getElem?_set_self (by omega)]
  · intro i' j' hin' hne
    obtain ⟨g1, g2⟩ := hval i' j' hin'
    unfold View.at' readMem
    rw [if_pos hin', if_pos hin', if_neg (by omega), if_neg (by omega), List.getElem?_set_ne]
    intro he
    have he : v.addr i j = v.addr i' j' := by omega
    rw [inside_iff] at hin hin'
    apply hne
    unfold View.addr at he
    rcases hstr with hs | hs
    · have hii : i' = i := by
        rcases lt_trichotomy i' i with hlt | heq | hgt
        · have : (i - i') * v.stride ≥ v.stride := by nlinarith
          have : (i - i') * v.stride = j' - j := by linarith
          omega
        · exact heq
        · have : (i' - i) * v.stride ≥ v.stride := by nlinarith
          have : (i' - i) * v.stride = j - j' := by linarith
          omega
      subst hii
      have : j' = j := by linarith
      rw [this]
    · have hii : i' = i := by omega
      subst hii
      have : j' = j := by linarith
      rw [this]

/-- C98 is false for dimensions whose product overflows: two elements of memory are accepted as a
2³² × 2³² matrix, and reading its entry `(0, 2)` leaves the memory. -/
theorem view_overflow_wild : ∃ v, View.new [1, 2] (2 ^ 32) (2 ^ 32) = .ok v ∧
    v.at' [1, 2] 0 2 = .err (.other "wild read") :=
  ⟨_, rfl, by decide⟩

end

example : ∃ v w, View.new [1, 2, 3, 4, 5, 6] 2 3 = .ok v ∧ v.slice 0 2 1 3 = .ok w ∧
    w.at' [1, 2, 3, 4, 5, 6] 1 1 = .ok 6 ∧ w.set [1, 2, 3, 4, 5, 6] 1 0 9 = .ok [1, 2, 3, 4, 9, 6] :=
  ⟨_, _, rfl, rfl, by decide, by decide⟩

/-! ## Aligned buffers -/

/-- C99: for an alignment that is a positive multiple of 8 (a `float64` is 8 bytes, so the allocator returns
addresses divisible by 8), the buffer has the requested length, lies inside the allocation, and starts at a
multiple of the alignment. -/
theorem aligned_buffer (addr size alignment : Nat) (ha : addr % 8 = 0) (h8 : alignment % 8 = 0)
    (hp : 0 < alignment) :
    ∃ lo hi, alignedBounds addr size alignment = .ok (lo, hi) ∧ hi - lo = size ∧ lo ≤ hi ∧
      hi ≤ size + alignment / 8 ∧ (addr + 8 * lo) % alignment = 0 := by
  obtain ⟨k, rfl⟩ : ∃ k, alignment = 8 * k := ⟨alignment / 8, by omega⟩
  obtain ⟨a, rfl⟩ : ∃ a, addr = 8 * a := ⟨addr / 8, by omega⟩
  have hk : 0 < k := by omega
  have hmod : a % k < k := Nat.mod_lt _ hk
  have hdiv : k * (a / k) + a % k = a := Nat.div_add_mod a k
  have e1 : 8 * k - 8 * (a % k) = 8 * (k - a % k) := by omega
  have e2 : (8 * (k - a % k)) % (8 * k) = 8 * ((k - a % k) % k) := Nat.mul_mod_mul_left 8 _ k
  have hoff : (k - a % k) % k < k := Nat.mod_lt _ hk
  unfold alignedBounds
  rw [if_neg (by omega), if_neg (by omega)]
  simp only [Nat.mul_mod_mul_left, e1]
  rw [if_neg (by omega)]
  refine ⟨_, _, rfl, by omega, by omega, by omega, ?_⟩
  rw [Nat.mul_div_cancel_left _ (by norm_num : 0 < 8), ← Nat.mul_add, Nat.mul_mod_mul_left]
  rcases Nat.eq_zero_or_pos (a % k) with h0 | h0
  · rw [h0, Nat.sub_zero, Nat.mod_self, Nat.add_zero, h0]
  · rw [Nat.mod_eq_of_lt (by omega : k - a % k < k)]
    have : a + (k - a % k) = k * (a / k + 1) := by rw [Nat.mul_add]; omega
    rw [this, Nat.mul_mod_right]

example : alignedBounds 72 10 64 = .ok (7, 17) := by decide

end Scigo.Performance
