import Verif.Tensor.Model
import Mathlib.Data.List.GetD
import Mathlib.Tactic.Linarith
import Mathlib.Tactic.Ring

/-!
# Tensors (C67, C114, C115)
-/

set_option linter.unusedSectionVars false

namespace Scigo.Tensor

variable {α : Type} [Zero α] [One α]

/-- the window lies inside its slice -/
structure Dense.WF (h : Heap α) (d : Dense) : Prop where
  r : 0 < d.r
  c : 0 < d.c
  stride : d.c ≤ d.stride
  fits : d.off + ((d.r - 1) * d.stride + d.c) ≤ (h.floats d.buf).length
  buf : d.buf < h.nf

/-- a tensor made by the package in this heap: its window is inside its slice and its shape slice exists -/
structure Tensor.WF (h : Heap α) (t : Tensor) : Prop where
  data : t.data.WF h
  shape : t.shape < h.ns

theorem Dense.WF.pos_lt {h : Heap α} {d : Dense} (w : d.WF h) {i j : Nat} (hi : i < d.r) (hj : j < d.c) :
    d.pos i j < (h.floats d.buf).length := by
  have := w.fits
  have h1 : i * d.stride ≤ (d.r - 1) * d.stride := Nat.mul_le_mul_right _ (by omega)
  unfold Dense.pos
  omega

/-! ### loops -/

theorem getD_set (l : List α) (k i : Nat) (v : α) (hk : k < l.length) :
    (l.set k v).getD i 0 = if i = k then v else l.getD i 0 := by
  rw [List.getD_eq_getElem?_getD, List.getD_eq_getElem?_getD, List.getElem?_set]
  by_cases h : k = i
  · subst h; simp [hk]
  · rw [if_neg h, if_neg (Ne.symm h)]

theorem inner_loop (f : Nat → α) (base n : Nat) (l : List α) (hl : base + n ≤ l.length) :
    ((List.range n).foldl (fun l j => l.set (base + j) (f j)) l).length = l.length ∧
      ∀ k : Nat, ((List.range n).foldl (fun l j => l.set (base + j) (f j)) l).getD k 0 =
        if base ≤ k ∧ k < base + n then f (k - base) else l.getD k 0 := by
  induction n with
  | zero => exact ⟨rfl, fun k => by rw [if_neg (by omega)]; rfl⟩
  | succ n ih =>
    obtain ⟨h1, h2⟩ := ih (by omega)
    rw [List.range_succ, List.foldl_append]
    simp only [List.foldl_cons, List.foldl_nil]
    refine ⟨by rw [List.length_set, h1], fun k => ?_⟩
    rw [getD_set _ _ _ _ (by omega), h2]
    by_cases hk : k = base + n
    · subst hk
      rw [if_pos rfl, if_pos (by omega), Nat.add_sub_cancel_left]
    · rw [if_neg hk]
      by_cases hin : base ≤ k ∧ k < base + n
      · rw [if_pos hin, if_pos (by omega)]
      · rw [if_neg hin, if_neg (by omega)]

theorem outer_loop (f : Nat → Nat → α) (c n r : Nat) (hn : n ≤ r) :
    ((List.range n).foldl (fun l i => (List.range c).foldl (fun l j => l.set (i * c + j) (f i j)) l)
        (List.replicate (r * c) 0)).length = r * c ∧
      ∀ k : Nat, ((List.range n).foldl (fun l i => (List.range c).foldl (fun l j => l.set (i * c + j) (f i j)) l)
        (List.replicate (r * c) 0)).getD k 0 = if k < n * c then f (k / c) (k % c) else 0 := by
  induction n with
  | zero => refine ⟨by simp, fun k => ?_⟩; simp [List.getD_eq_getElem?_getD, List.getElem?_replicate]; split_ifs <;> rfl
  | succ n ih =>
    obtain ⟨h1, h2⟩ := ih (by omega)
    rw [List.range_succ, List.foldl_append]
    simp only [List.foldl_cons, List.foldl_nil]
    have hb : n * c + c ≤ r * c := by rw [← Nat.succ_mul]; exact Nat.mul_le_mul_right _ hn
    obtain ⟨g1, g2⟩ := inner_loop (f n) (n * c) c _ (by rw [h1]; exact hb)
    refine ⟨by rw [g1, h1], fun k => ?_⟩
    rw [g2, h2]
    have hs : (n + 1) * c = n * c + c := Nat.succ_mul n c
    by_cases hin : n * c ≤ k ∧ k < n * c + c
    · rw [if_pos hin, if_pos (by omega)]
      have hd : k / c = n := Nat.div_eq_of_lt_le (by omega) (by rw [Nat.succ_mul]; omega)
      have hm : k % c = k - n * c := by
        have := Nat.mod_add_div k c
        rw [hd, Nat.mul_comm c n] at this
        omega
      rw [hd, hm]
    · rw [if_neg hin]
      by_cases hk : k < n * c
      · rw [if_pos hk, if_pos (by omega)]
      · rw [if_neg hk, if_neg (by omega)]

theorem rawData_length (h : Heap α) (t : Tensor) : (t.rawData h).length = t.data.r * t.data.c :=
  (outer_loop (t.data.get h) t.data.c t.data.r t.data.r (le_refl _)).1

theorem rawData_getD (h : Heap α) (t : Tensor) (k : Nat) :
    (t.rawData h).getD k 0 = if k < t.data.r * t.data.c then t.data.get h (k / t.data.c) (k % t.data.c) else 0 :=
  (outer_loop (t.data.get h) t.data.c t.data.r t.data.r (le_refl _)).2 k

theorem list_eq_of_getD (l r : List α) (hl : l.length = r.length) (h : ∀ k < l.length, l.getD k 0 = r.getD k 0) : l = r := by
  apply List.ext_getElem hl
  intro i h1 h2
  have := h i h1
  rwa [List.getD_eq_getElem _ _ h1, List.getD_eq_getElem _ _ h2] at this

/-- C67: `RawData` lists the elements row by row -/
theorem rawData_row_major (h : Heap α) (t : Tensor) :
    (t.rawData h).length = t.data.r * t.data.c ∧
      ∀ i j : Nat, i < t.data.r → j < t.data.c → t.at' h i j = .ok ((t.rawData h).getD (i * t.data.c + j) 0) := by
  refine ⟨rawData_length h t, fun i j hi hj => ?_⟩
  have hlt : i * t.data.c + j < t.data.r * t.data.c := by
    have : (i + 1) * t.data.c ≤ t.data.r * t.data.c := Nat.mul_le_mul_right _ hi
    rw [Nat.succ_mul] at this; omega
  rw [rawData_getD, if_pos hlt]
  unfold Tensor.at'
  rw [if_neg (by omega)]
  have h1 : (i * t.data.c + j) / t.data.c = i := by
    rw [Nat.add_comm, Nat.add_mul_div_right _ _ (by omega), Nat.div_eq_of_lt hj, Nat.zero_add]
  have h2 : (i * t.data.c + j) % t.data.c = j := by
    rw [Nat.add_comm, Nat.add_mul_mod_self_right, Nat.mod_eq_of_lt hj]
  rw [h1, h2, Int.toNat_natCast, Int.toNat_natCast]

theorem rows_eq_rawData (h : Heap α) (t : Tensor) : t.data.rows h = t.rawData h := by
  have gen : ∀ n, ((List.range n).flatMap fun i => (List.range t.data.c).map fun j => t.data.get h i j).length = n * t.data.c ∧
      ∀ k, k < n * t.data.c → ((List.range n).flatMap fun i => (List.range t.data.c).map fun j => t.data.get h i j).getD k 0 =
        t.data.get h (k / t.data.c) (k % t.data.c) := by
    intro n
    induction n with
    | zero => simp
    | succ n ih =>
      obtain ⟨h1, h2⟩ := ih
      rw [List.range_succ, List.flatMap_append, List.flatMap_singleton]
      have hs : (n + 1) * t.data.c = n * t.data.c + t.data.c := Nat.succ_mul _ _
      refine ⟨by rw [List.length_append, h1, List.length_map, List.length_range, hs], fun k hk => ?_⟩
      by_cases hlt : k < n * t.data.c
      · rw [List.getD_append _ _ _ _ (by rw [h1]; exact hlt)]
        exact h2 k hlt
      · rw [List.getD_append_right _ _ _ _ (by rw [h1]; omega), h1]
        have hlt2 : k - n * t.data.c < t.data.c := by omega
        rw [List.getD_eq_getElem _ _ (by simpa using hlt2), List.getElem_map, List.getElem_range]
        have hd : k / t.data.c = n := Nat.div_eq_of_lt_le (by omega) (by rw [Nat.succ_mul]; omega)
        have hm : k % t.data.c = k - n * t.data.c := by
          have := Nat.mod_add_div k t.data.c
          rw [hd, Nat.mul_comm t.data.c n] at this
          omega
        rw [hd, hm]
  obtain ⟨g1, g2⟩ := gen t.data.r
  apply list_eq_of_getD
  · rw [rawData_length]; exact g1
  · intro k hk
    have hk' : k < t.data.r * t.data.c := by rw [← g1]; exact hk
    rw [rawData_getD, if_pos hk']
    exact g2 k hk'

/-- reading depends only on the tensor's own slice -/
theorem rawData_congr (h h' : Heap α) (t : Tensor) (he : h'.floats t.data.buf = h.floats t.data.buf) :
    t.rawData h' = t.rawData h := by
  have : t.data.get h' = t.data.get h := by funext i j; unfold Dense.get; rw [he]
  unfold Tensor.rawData
  rw [this]

/-- a compact tensor over a slice of `r * c` elements reads that slice -/
theorem rawData_compact (h : Heap α) (b r c sh : Nat) (l : List α) (hl : h.floats b = l) (hlen : l.length = r * c) :
    (⟨⟨b, 0, r, c, c⟩, sh⟩ : Tensor).rawData h = l := by
  apply list_eq_of_getD
  · rw [rawData_length, hlen]
  · intro k hk
    rw [rawData_length] at hk
    rw [rawData_getD, if_pos hk]
    show (h.floats b).getD (0 + (k / c * c + k % c)) 0 = _
    rw [hl, Nat.zero_add, Nat.div_add_mod']

theorem pair_of_length {β : Type} (l : List β) (h : l.length = 2) : ∃ a b, l = [a, b] := by
  match l, h with
  | [a, b], _ => exact ⟨a, b, rfl⟩

/-! ### C67 -/

/-- C67: `NewTensor` accepts exactly two positive dimensions whose product is the number of elements, and then element
`(i, j)` is element `i*c+j` of the slice -/
theorem newTensor_spec (h : Heap α) (data shape : Nat) (hd : data < h.nf) (hs : shape < h.ns) :
    ((∃ t, newTensor h data shape = .ok t) ↔ ∃ r c : Nat, 0 < r ∧ 0 < c ∧ h.ints shape = [(r : Int), (c : Int)] ∧
      (h.floats data).length = r * c) ∧
    ∀ t, newTensor h data shape = .ok t → t.WF h ∧ t.rawData h = h.floats data ∧
      t.shapeOf h = [(t.data.r : Int), (t.data.c : Int)] := by
  have key : ∀ t, newTensor h data shape = .ok t → ∃ r c : Nat, 0 < r ∧ 0 < c ∧ h.ints shape = [(r : Int), (c : Int)] ∧
      (h.floats data).length = r * c ∧ t = ⟨⟨data, 0, r, c, c⟩, shape⟩ := by
    intro t ht
    unfold newTensor at ht
    simp only at ht
    split_ifs at ht with h1 h2 h3 h4
    obtain ⟨a, b, hab⟩ := pair_of_length _ (not_not.1 h4)
    rw [hab] at ht h2 h3
    simp at h2 h3
    unfold newDense at ht
    simp only [List.getD_cons_zero, List.getD_cons_succ] at ht
    rw [if_neg (by omega), if_neg (by rw [h3]; simp)] at ht
    simp only [Outcome.bind] at ht
    refine ⟨a.toNat, b.toNat, by omega, by omega, ?_, ?_, (Outcome.ok.inj ht).symm⟩
    · rw [hab, Int.toNat_of_nonneg (by omega), Int.toNat_of_nonneg (by omega)]
    · have : ((h.floats data).length : Int) = (a.toNat : Int) * (b.toNat : Int) := by
        rw [h3, Int.toNat_of_nonneg (by omega), Int.toNat_of_nonneg (by omega)]
      exact_mod_cast this
  refine ⟨⟨fun ⟨t, ht⟩ => ?_, ?_⟩, fun t ht => ?_⟩
  · obtain ⟨r, c, a1, a2, a3, a4, -⟩ := key t ht
    exact ⟨r, c, a1, a2, a3, a4⟩
  · rintro ⟨r, c, hr, hc, hi, hl⟩
    refine ⟨⟨⟨data, 0, r, c, c⟩, shape⟩, ?_⟩
    unfold newTensor
    simp only [hi]
    rw [if_neg (by simp), if_neg (by simp; omega), if_neg (by simp [hl]), if_neg (by simp)]
    unfold newDense
    simp only [List.getD_cons_zero, List.getD_cons_succ]
    rw [if_neg (by omega), if_neg (by rw [hl]; push_cast; simp)]
    simp [Outcome.bind]
  · obtain ⟨r, c, hr, hc, hi, hl, rfl⟩ := key t ht
    refine ⟨⟨⟨hr, hc, le_refl _, ?_, hd⟩, hs⟩, rawData_compact h data r c shape _ rfl hl, hi⟩
    show 0 + ((r - 1) * c + c) ≤ (h.floats data).length
    rw [hl, Nat.zero_add, ← Nat.succ_mul, Nat.succ_eq_add_one, Nat.sub_add_cancel hr]

/-- C67: a reshape to the same number of elements keeps the row-major order and leaves every other tensor alone -/
theorem reshape_spec (h : Heap α) (t : Tensor) (shape a b : Nat)
    (hcons : t.shapeOf h = [(t.data.r : Int), (t.data.c : Int)]) (hs : h.ints shape = [(a : Int), (b : Int)])
    (hsh : shape < h.ns) (ha : 0 < a) (hb : 0 < b) (hab : a * b = t.data.r * t.data.c) :
    ∃ h' t', t.reshape h shape = .ok (h', t') ∧ t'.rawData h' = t.rawData h ∧ t'.data.r = a ∧ t'.data.c = b ∧
      t'.shapeOf h' = [(a : Int), (b : Int)] ∧ t'.WF h' ∧
      ∀ u : Tensor, u.WF h → u.rawData h' = u.rawData h ∧ u.data.buf ≠ t'.data.buf := by
  set h' := (h.allocF (t.rawData h)).1 with hh'
  have hbuf : h'.floats h.nf = t.rawData h := by simp [hh', Heap.allocF]
  have hlen : (t.rawData h).length = a * b := by rw [rawData_length, hab]
  have hcons' : h.ints t.shape = [(t.data.r : Int), (t.data.c : Int)] := hcons
  refine ⟨h', ⟨⟨h.nf, 0, a, b, b⟩, shape⟩, ?_, rawData_compact h' h.nf a b shape _ hbuf hlen, rfl, rfl, hs, ?_, ?_⟩
  · unfold Tensor.reshape
    simp only [hs, hcons']
    rw [if_neg (by simp), if_neg (by simp), if_neg (by simp; exact_mod_cast hab)]
    simp only [List.getD_cons_zero, List.getD_cons_succ]
    unfold newDense
    rw [if_neg (by omega), if_neg]
    · simp [Outcome.bind, hh', Heap.allocF]
    · show ¬ ((a : Int) * b ≠ ((h'.floats h.nf).length : Int))
      rw [hbuf, hlen]; push_cast; simp
  · refine ⟨⟨ha, hb, le_refl _, ?_, ?_⟩, hsh⟩
    · show 0 + ((a - 1) * b + b) ≤ (h'.floats h.nf).length
      rw [hbuf, hlen, Nat.zero_add, ← Nat.succ_mul, Nat.succ_eq_add_one, Nat.sub_add_cancel ha]
    · show h.nf < h.nf + 1; omega
  · intro u wu
    have hne : u.data.buf ≠ h.nf := by have := wu.data.buf; omega
    refine ⟨rawData_congr h h' u ?_, hne⟩
    simp [hh', Heap.allocF, hne]

/-- C67: a reshape to anything but two dimensions with the same product fails (and changes nothing); two negative dimensions
with the right product panic -/
theorem reshape_rejects (h : Heap α) (t : Tensor) (shape : Nat)
    (hcons : t.shapeOf h = [(t.data.r : Int), (t.data.c : Int)]) :
    ((h.ints shape).length ≠ 2 → ∃ e, t.reshape h shape = .err e) ∧
      ∀ a b : Int, h.ints shape = [a, b] → (a * b ≠ t.data.r * t.data.c → ∃ e, t.reshape h shape = .err e) ∧
        (a * b = t.data.r * t.data.c → a ≤ 0 ∨ b ≤ 0 → ∃ s, t.reshape h shape = .panic s) := by
  have hcons' : h.ints t.shape = [(t.data.r : Int), (t.data.c : Int)] := hcons
  constructor
  · intro hne
    unfold Tensor.reshape
    simp only
    rw [if_pos hne]
    exact ⟨_, rfl⟩
  · intro a b hab
    constructor
    · intro hne
      unfold Tensor.reshape
      simp only [hab, hcons']
      rw [if_neg (by simp), if_neg (by simp), if_pos (by simpa using hne)]
      exact ⟨_, rfl⟩
    · intro he hneg
      unfold Tensor.reshape
      simp only [hab, hcons']
      rw [if_neg (by simp), if_neg (by simp), if_neg (by simpa using he)]
      simp only [List.getD_cons_zero, List.getD_cons_succ]
      unfold newDense
      rw [if_pos hneg]
      exact ⟨_, rfl⟩

/-- writing through a sequence of `Set` calls on one tensor; a call that panics ends it -/
def Tensor.sets (t : Tensor) : Heap α → List (Int × Int × α) → Heap α
  | h, [] => h
  | h, (i, j, v) :: ws =>
    match t.set h i j v with
    | .ok h' => t.sets h' ws
    | _ => h

theorem sets_other (t : Tensor) (ws : List (Int × Int × α)) (h : Heap α) (b : Nat) (hb : b ≠ t.data.buf) :
    (t.sets h ws).floats b = h.floats b ∧ (t.sets h ws).ints = h.ints := by
  induction ws generalizing h with
  | nil => exact ⟨rfl, rfl⟩
  | cons w ws ih =>
    obtain ⟨i, j, v⟩ := w
    unfold Tensor.sets
    cases hs : t.set h i j v with
    | ok h' =>
      simp only
      obtain ⟨e1, e2⟩ := ih h'
      rw [e1, e2]
      unfold Tensor.set at hs
      split_ifs at hs
      have := Outcome.ok.inj hs
      rw [← this]
      exact ⟨by simp [Heap.write, hb], rfl⟩
    | err e => exact ⟨rfl, rfl⟩
    | panic s => exact ⟨rfl, rfl⟩

/-- C67: a copy has the same shape and elements, and no sequence of writes through one is seen through the other -/
theorem copy_independent (h : Heap α) (t : Tensor) (w : t.WF h) :
    (t.copy h).2.rawData (t.copy h).1 = t.rawData h ∧ (t.copy h).2.shapeOf (t.copy h).1 = t.shapeOf h ∧
      (t.copy h).2.WF (t.copy h).1 ∧ t.rawData (t.copy h).1 = t.rawData h ∧
      ∀ ws, (t.copy h).2.rawData (t.sets (t.copy h).1 ws) = t.rawData h ∧
        t.rawData ((t.copy h).2.sets (t.copy h).1 ws) = t.rawData h := by
  have hne : t.data.buf ≠ h.nf := by have := w.data.buf; omega
  have hf : (t.copy h).1.floats h.nf = t.rawData h := by
    rw [← rows_eq_rawData]; simp [Tensor.copy, Heap.allocF, Heap.allocI]
  have ht : (t.copy h).1.floats t.data.buf = h.floats t.data.buf := by
    simp [Tensor.copy, Heap.allocF, Heap.allocI, hne]
  have hc : (t.copy h).2 = ⟨⟨h.nf, 0, t.data.r, t.data.c, t.data.c⟩, h.ns⟩ := rfl
  have e1 : (t.copy h).2.rawData (t.copy h).1 = t.rawData h := by
    rw [hc]; exact rawData_compact _ _ _ _ _ _ hf (rawData_length h t)
  have e2 : t.rawData (t.copy h).1 = t.rawData h := rawData_congr _ _ _ ht
  refine ⟨e1, ?_, ⟨⟨w.data.r, w.data.c, le_refl _, ?_, ?_⟩, ?_⟩, e2, fun ws => ⟨?_, ?_⟩⟩
  · simp [Tensor.shapeOf, Tensor.copy, Heap.allocF, Heap.allocI]
  · show 0 + ((t.data.r - 1) * t.data.c + t.data.c) ≤ ((t.copy h).1.floats h.nf).length
    rw [hf, rawData_length, Nat.zero_add, ← Nat.succ_mul, Nat.succ_eq_add_one, Nat.sub_add_cancel w.data.r]
  · show h.nf < h.nf + 1; omega
  · show h.ns < h.ns + 1; omega
  · rw [← e1]
    exact rawData_congr _ _ _ (sets_other t ws _ _ (fun e => hne e.symm)).1
  · rw [← e2]
    exact rawData_congr _ _ _ (sets_other (t.copy h).2 ws _ _ hne).1

/-! ### C114 -/

/-- C114: `At` and `Set` panic exactly outside the dimensions; inside, `At` is the entry of the row-major data -/
theorem at_bounds (h : Heap α) (t : Tensor) (i j : Int) (v : α) :
    ((∃ e, t.at' h i j = .panic e) ↔ ¬ (0 ≤ i ∧ i < t.data.r ∧ 0 ≤ j ∧ j < t.data.c)) ∧
    ((∃ e, t.set h i j v = .panic e) ↔ ¬ (0 ≤ i ∧ i < t.data.r ∧ 0 ≤ j ∧ j < t.data.c)) ∧
    (0 ≤ i ∧ i < t.data.r ∧ 0 ≤ j ∧ j < t.data.c → ∃ x, t.at' h i j = .ok x) := by
  unfold Tensor.at' Tensor.set
  by_cases hb : i < 0 ∨ (t.data.r : Int) ≤ i ∨ j < 0 ∨ (t.data.c : Int) ≤ j
  · rw [if_pos hb, if_pos hb]
    exact ⟨⟨fun _ => by omega, fun _ => ⟨_, rfl⟩⟩, ⟨fun _ => by omega, fun _ => ⟨_, rfl⟩⟩, fun h => absurd h (by omega)⟩
  · rw [if_neg hb, if_neg hb]
    exact ⟨⟨fun ⟨_, h⟩ => (nomatch h), fun h => absurd (by omega) h⟩, ⟨fun ⟨_, h⟩ => (nomatch h), fun h => absurd (by omega) h⟩, fun _ => ⟨_, rfl⟩⟩

/-- C114: `Set` then `At` -/
theorem set_get (h h' : Heap α) (t : Tensor) (w : t.WF h) (i j : Int) (v : α) (hs : t.set h i j v = .ok h') :
    t.at' h' i j = .ok v ∧ t.WF h' ∧ ∀ i' j' : Int, (i', j') ≠ (i, j) → t.at' h' i' j' = t.at' h i' j' := by
  unfold Tensor.set at hs
  split_ifs at hs with hb
  have he := Outcome.ok.inj hs
  subst he
  have hi : i.toNat < t.data.r := by omega
  have hj : j.toNat < t.data.c := by omega
  have hlt := w.data.pos_lt hi hj
  refine ⟨?_, ⟨⟨w.data.r, w.data.c, w.data.stride, ?_, w.data.buf⟩, w.shape⟩, ?_⟩
  · unfold Tensor.at'
    rw [if_neg hb]
    unfold Dense.get Heap.write
    simp only [if_true]
    rw [getD_set _ _ _ _ hlt, if_pos rfl]
  · have := w.data.fits
    simp only [Heap.write, if_true, List.length_set]
    exact this
  · intro i' j' hne
    unfold Tensor.at'
    split_ifs with hb'
    · rfl
    · congr 1
      unfold Dense.get Heap.write
      simp only [if_true]
      rw [getD_set _ _ _ _ hlt, if_neg]
      intro hp
      unfold Dense.pos at hp
      have hst := w.data.stride
      have hj' : j'.toNat < t.data.c := by omega
      have e1 : i'.toNat = i.toNat := by
        have a1 : (i'.toNat * t.data.stride + j'.toNat) / t.data.stride = i'.toNat := by
          rw [Nat.add_comm, Nat.add_mul_div_right _ _ (by omega), Nat.div_eq_of_lt (by omega), Nat.zero_add]
        have a2 : (i.toNat * t.data.stride + j.toNat) / t.data.stride = i.toNat := by
          rw [Nat.add_comm, Nat.add_mul_div_right _ _ (by omega), Nat.div_eq_of_lt (by omega), Nat.zero_add]
        rw [← a1, ← a2, show i'.toNat * t.data.stride + j'.toNat = i.toNat * t.data.stride + j.toNat by omega]
      have e2 : j'.toNat = j.toNat := by rw [e1] at hp; omega
      apply hne
      have : i' = i := by omega
      have : j' = j := by omega
      simp [*]

/-- C114: `Slice` succeeds exactly on non-empty windows inside the tensor, and is then a live window: reads and writes at
`(i, j)` are reads and writes at `(r0 + i, c0 + j)` of the original -/
theorem slice_spec (h : Heap α) (t : Tensor) (w : t.WF h) (r0 r1 c0 c1 : Int) :
    ((∃ x, t.slice h r0 r1 c0 c1 = .ok x) ↔ 0 ≤ r0 ∧ r0 < r1 ∧ r1 ≤ t.data.r ∧ 0 ≤ c0 ∧ c0 < c1 ∧ c1 ≤ t.data.c) ∧
    (∀ s, t.slice h r0 r1 c0 c1 ≠ .panic s) ∧
    ∀ h' u, t.slice h r0 r1 c0 c1 = .ok (h', u) → u.WF h' ∧ t.WF h' ∧ u.shapeOf h' = [r1 - r0, c1 - c0] ∧
      ∀ g : Heap α, ∀ i j : Int, 0 ≤ i → i < r1 - r0 → 0 ≤ j → j < c1 - c0 →
        u.at' g i j = t.at' g (r0 + i) (c0 + j) ∧ ∀ v, u.set g i j v = t.set g (r0 + i) (c0 + j) v := by
  have key : 0 ≤ r0 ∧ r0 < r1 ∧ r1 ≤ t.data.r ∧ 0 ≤ c0 ∧ c0 < c1 ∧ c1 ≤ t.data.c →
      t.slice h r0 r1 c0 c1 = .ok (fromDense h ⟨t.data.buf, t.data.off + (r0.toNat * t.data.stride + c0.toNat),
        (r1 - r0).toNat, (c1 - c0).toNat, t.data.stride⟩) := by
    intro hb
    unfold Tensor.slice
    rw [if_neg (by omega), if_neg (by omega)]
  have conv : ∀ x, t.slice h r0 r1 c0 c1 = .ok x → 0 ≤ r0 ∧ r0 < r1 ∧ r1 ≤ t.data.r ∧ 0 ≤ c0 ∧ c0 < c1 ∧ c1 ≤ t.data.c := by
    intro x hx
    unfold Tensor.slice at hx
    split_ifs at hx
    omega
  refine ⟨⟨fun ⟨x, hx⟩ => conv x hx, fun hb => ⟨_, key hb⟩⟩, ?_, ?_⟩
  · intro s hs
    unfold Tensor.slice at hs
    split_ifs at hs
  · intro h' u hx
    have hb := conv _ hx
    rw [key hb] at hx
    have hx := Outcome.ok.inj hx
    unfold fromDense at hx
    simp only [Prod.mk.injEq] at hx
    obtain ⟨e1, e2⟩ := hx
    subst e1 e2
    have wf := w.data.fits
    have wst := w.data.stride
    have hfit : t.data.off + (r0.toNat * t.data.stride + c0.toNat) + (((r1 - r0).toNat - 1) * t.data.stride + (c1 - c0).toNat)
        ≤ (h.floats t.data.buf).length := by
      have e : r0.toNat + ((r1 - r0).toNat - 1) ≤ t.data.r - 1 := by omega
      have := Nat.mul_le_mul_right t.data.stride e
      rw [Nat.add_mul] at this
      omega
    refine ⟨⟨⟨?_, ?_, ?_, hfit, w.data.buf⟩, ?_⟩, ⟨⟨w.data.r, w.data.c, wst, wf, w.data.buf⟩, ?_⟩, ?_, ?_⟩
    · show 0 < (r1 - r0).toNat; omega
    · show 0 < (c1 - c0).toNat; omega
    · show (c1 - c0).toNat ≤ t.data.stride; omega
    · show h.ns < h.ns + 1; omega
    · show t.shape < h.ns + 1; have := w.shape; omega
    · simp [Tensor.shapeOf, Heap.allocI]; omega
    · intro g i j hi0 hi1 hj0 hj1
      have hpos : (⟨t.data.buf, t.data.off + (r0.toNat * t.data.stride + c0.toNat),
        (r1 - r0).toNat, (c1 - c0).toNat, t.data.stride⟩ : Dense).pos i.toNat j.toNat =
          t.data.pos (r0 + i).toNat (c0 + j).toNat := by
        unfold Dense.pos
        have e : (r0 + i).toNat = r0.toNat + i.toNat := by omega
        rw [e, Nat.add_mul]
        simp only
        omega
      constructor
      · unfold Tensor.at'
        simp only
        rw [if_neg (by omega), if_neg (by omega)]
        congr 1
        unfold Dense.get
        rw [hpos]
      · intro v
        unfold Tensor.set
        simp only
        rw [if_neg (by omega), if_neg (by omega), hpos]

/-! ### C115 -/

/-- C115 (partial): `Shape` agrees with `Dims` for a tensor as long as nobody writes to the slice passed as its shape. Missing:
the slice passed with `shape...` is kept, not copied (`shape_aliased`), and `T` never returns (`transpose_panics`). -/
theorem shape_partial (h : Heap α) (t : Tensor) (w : t.WF h) :
    (∀ (u : Tensor) ws, t.shapeOf (u.sets h ws) = t.shapeOf h) ∧
      (∀ u : Tensor, t.shapeOf (u.copy h).1 = t.shapeOf h) ∧
      ∀ b i v, b ≠ t.shape → t.shapeOf (h.writeInt b i v) = t.shapeOf h := by
  refine ⟨fun u ws => ?_, fun u => ?_, fun b i v hb => ?_⟩
  · unfold Tensor.shapeOf
    rw [(sets_other u ws h (u.data.buf + 1) (by omega)).2]
  · have hne : t.shape ≠ h.ns := by have := w.shape; omega
    simp [Tensor.shapeOf, Tensor.copy, Heap.allocF, Heap.allocI, hne]
  · simp [Tensor.shapeOf, Heap.writeInt, Ne.symm hb]

/-- C115 is false: after the caller changes the slice it passed as shape, `Shape` and `Dims` disagree -/
theorem shape_aliased : ∃ (h : Heap Int) (data shape : Nat) (t : Tensor), newTensor h data shape = .ok t ∧
    t.shapeOf h = [(t.data.r : Int), (t.data.c : Int)] ∧
    t.shapeOf (h.writeInt shape 0 5) ≠ [(t.data.r : Int), (t.data.c : Int)] := by
  refine ⟨⟨fun _ => [1, 2, 3, 4, 5, 6], 1, fun _ => [2, 3], 1⟩, 0, 0, ⟨⟨0, 0, 2, 3, 3⟩, 0⟩, ?_, ?_, ?_⟩
  · decide +kernel
  · decide +kernel
  · decide +kernel

/-- C115 is false: `T` panics for every tensor -/
theorem transpose_panics (h : Heap α) (t : Tensor) : ¬ ∃ u, t.transpose h = .ok u := by
  rintro ⟨u, hu⟩
  unfold Tensor.transpose at hu
  exact absurd hu (by simp)

/-- a heap and a tensor meeting the hypotheses above -/
example : ∃ (h : Heap Int) (t : Tensor), t.WF h ∧ t.shapeOf h = [(t.data.r : Int), (t.data.c : Int)] ∧
    t.rawData h = [1, 2, 3, 4, 5, 6] ∧ h.ints 1 = [3, 2] := by
  refine ⟨⟨fun _ => [1, 2, 3, 4, 5, 6], 1, fun a => if a = 0 then [2, 3] else [3, 2], 2⟩, ⟨⟨0, 0, 2, 3, 3⟩, 0⟩,
    ⟨⟨by decide, by decide, by decide, by decide, by decide⟩, by decide⟩, by decide, by decide, by decide⟩

end Scigo.Tensor
