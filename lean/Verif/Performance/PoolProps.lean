import Verif.Performance.Memory
import Mathlib.Data.List.Perm.Basic
import Mathlib.Data.List.Nodup
import Mathlib.Tactic.Linarith

/-!
# Properties of the matrix pool (C69)
-/

set_option linter.unusedSectionVars false

namespace Scigo.Performance

variable {α : Type _} [Zero α]

/-- every element of the buffer is zero -/
def Pooled.AllZero (m : Pooled α) : Prop := ∀ d, m.data = some d → ∀ x ∈ d, x = 0

/-- the buffer exists and is large enough for the shape -/
def Pooled.Fits (m : Pooled α) : Prop := ∃ d, m.data = some d ∧ m.rows * m.cols ≤ d.length

/-- the invariant of the pool -/
structure PoolInv (p : Pool α) : Prop where
  nodup : (p.idle ++ p.live ++ p.marked ++ p.counted ++ p.cleared).Nodup
  bound : ∀ i ∈ p.idle ++ p.live ++ p.marked ++ p.counted ++ p.cleared, i < p.next
  zero : ∀ i ∈ p.idle ++ p.cleared, (p.objs i).AllZero
  fits : ∀ i ∈ p.live, (p.objs i).Fits ∧ (p.objs i).released = false
  count : p.inUse = p.getting + p.live.length + p.marked.length

theorem prepare_fits (m : Pooled α) (r c : Nat) :
    (m.prepare r c).Fits ∧ (m.prepare r c).released = false := by
  refine ⟨?_, rfl⟩
  unfold Pooled.prepare Pooled.Fits
  refine ⟨_, rfl, ?_⟩
  simp only
  split
  · simp
  · split
    · simp
    · omega

theorem prepare_zero (m : Pooled α) (h : m.AllZero) (r c : Nat) : (m.prepare r c).AllZero := by
  intro d hd x hx
  unfold Pooled.prepare at hd
  simp only [Option.some.injEq] at hd
  subst hd
  split at hx
  · exact List.eq_of_mem_replicate hx
  · rename_i d' hd'
    split at hx
    · exact List.eq_of_mem_replicate hx
    · exact h d' hd' x hx

theorem clear_zero (m : Pooled α) : m.clear.AllZero := by
  intro d hd x hx
  unfold Pooled.clear at hd
  simp only [Option.map_eq_some_iff] at hd
  obtain ⟨d', -, rfl⟩ := hd
  simp only [List.mem_map] at hx
  obtain ⟨_, _, rfl⟩ := hx
  rfl

theorem upd_self (p : Pool α) (i : Nat) (m : Pooled α) : p.upd i m i = m := by simp [Pool.upd]

theorem upd_ne (p : Pool α) (i k : Nat) (m : Pooled α) (h : k ≠ i) : p.upd i m k = p.objs k := by
  simp [Pool.upd, h]

/-- all ids of a state -/
def Pool.ids (p : Pool α) : List Nat := p.idle ++ p.live ++ p.marked ++ p.counted ++ p.cleared

theorem pool_inv_perm (p q : Pool α) (h : PoolInv p) (hp : q.ids.Perm p.ids) (hn : q.next = p.next) :
    q.ids.Nodup ∧ ∀ i ∈ q.ids, i < q.next :=
  ⟨hp.nodup_iff.2 h.nodup, fun i hi => hn ▸ h.bound i (hp.mem_iff.1 hi)⟩

theorem pool_inv_step (p q : Pool α) (h : PoolInv p) (hs : PoolStep p q) : PoolInv q := by
  have hnd := h.nodup
  cases hs with
  | getStart =>
    exact ⟨h.nodup, h.bound, h.zero, h.fits, by have := h.count; simp only; push_cast; omega⟩
  | getIdle g i r c a b hg hi =>
    have hperm := pool_inv_perm p { p with getting := g, idle := a ++ b, live := i :: p.live, objs := p.upd i ((p.objs i).prepare r c) } h
      (by
        simp only [Pool.ids, hi]
        rw [List.perm_iff_count]
        intro x
        simp only [List.count_append, List.count_cons]
        omega) rfl
    refine ⟨hperm.1, hperm.2, ?_, ?_, ?_⟩
    · intro k hk
      have hki : k ≠ i := by
        rintro rfl
        rw [hi] at hnd
        simp only [List.mem_append] at hk
        rw [List.nodup_iff_count_le_one] at hnd
        have := hnd k
        simp only [List.count_append, List.count_cons_self] at this
        rcases hk with (hk | hk) | hk
        all_goals have := List.count_pos_iff.2 hk; omega
      simp only [upd_ne p i k _ hki]
      refine h.zero k ?_
      rw [hi]
      simp only [List.mem_append, List.mem_cons] at hk ⊢
      tauto
    · intro k hk
      simp only at hk ⊢
      by_cases hki : k = i
      · subst hki
        rw [upd_self]
        exact prepare_fits _ r c
      · rw [upd_ne p i k _ hki]
        exact h.fits k (by simpa [hki] using hk)
    · have := h.count
      simp only [List.length_cons]
      push_cast
      omega
  | getNew g r c hg =>
    have hlt := h.bound
    refine ⟨?_, ?_, ?_, ?_, ?_⟩
    · have : (p.next :: p.ids).Nodup := List.nodup_cons.2 ⟨fun hm => by have := hlt _ hm; omega, h.nodup⟩
      refine List.Perm.nodup ?_ this
      simp only [Pool.ids]
      rw [List.perm_iff_count]
      intro x
      simp only [List.count_append, List.count_cons]
      omega
    · intro k hk
      simp only [List.mem_append, List.mem_cons] at hk hlt ⊢
      by_cases hkn : k = p.next
      · omega
      · have := hlt k (by tauto)
        omega
    · intro k hk
      have hkn : k ≠ p.next := by
        have := hlt k (by simp only [List.mem_append] at hk ⊢; tauto)
        omega
      simp only [upd_ne p _ k _ hkn]
      exact h.zero k hk
    · intro k hk
      simp only at hk ⊢
      by_cases hki : k = p.next
      · subst hki
        rw [upd_self]
        exact prepare_fits _ r c
      · rw [upd_ne p _ k _ hki]
        exact h.fits k (by simpa [hki] using hk)
    · have := h.count
      simp only [List.length_cons]
      push_cast
      omega
  | drop i a b hi =>
    have hsub : (({ p with idle := a ++ b } : Pool α).ids).Sublist p.ids := by
      simp only [Pool.ids, hi]
      exact ((((List.Sublist.append_left (List.sublist_cons_self i b) a).append_right _).append_right _).append_right
        _).append_right _
    refine ⟨hsub.nodup h.nodup, fun k hk => h.bound k (hsub.subset hk), ?_, h.fits, h.count⟩
    intro k hk
    refine h.zero k ?_
    rw [hi]
    simp only [List.mem_append, List.mem_cons] at hk ⊢
    tauto
  | write i k v hi =>
    refine ⟨h.nodup, h.bound, ?_, ?_, h.count⟩
    · intro j hj
      have hji : j ≠ i := by
        rintro rfl
        rw [List.nodup_iff_count_le_one] at hnd
        have := hnd j
        simp only [List.count_append] at this
        have h1 := List.count_pos_iff.2 hi
        simp only [List.mem_append] at hj
        rcases hj with hj | hj
        all_goals have := List.count_pos_iff.2 hj; omega
      simp only [upd_ne p i j _ hji]
      exact h.zero j hj
    · intro j hj
      simp only
      by_cases hji : j = i
      · subst hji
        rw [upd_self]
        obtain ⟨⟨d, hd1, hd2⟩, hr⟩ := h.fits j hj
        exact ⟨⟨d.set k v, by simp [hd1], by simpa using hd2⟩, hr⟩
      · rw [upd_ne p i j _ hji]
        exact h.fits j hj
  | putMark i a b hi hrel =>
    have hperm := pool_inv_perm p { p with
        live := a ++ b, marked := i :: p.marked, objs := p.upd i { p.objs i with released := true } } h
      (by
        simp only [Pool.ids, hi]
        rw [List.perm_iff_count]
        intro x
        simp only [List.count_append, List.count_cons]
        omega) rfl
    have hcount : ∀ k, k ∈ p.idle ++ p.cleared ∨ k ∈ a ++ b → k ≠ i := by
      rintro k hk rfl
      rw [hi, List.nodup_iff_count_le_one] at hnd
      have := hnd k
      simp only [List.count_append, List.count_cons_self] at this
      simp only [List.mem_append] at hk
      rcases hk with (hk | hk) | (hk | hk)
      all_goals have := List.count_pos_iff.2 hk; omega
    refine ⟨hperm.1, hperm.2, ?_, ?_, ?_⟩
    · intro k hk
      simp only [upd_ne p i k _ (hcount k (.inl hk))]
      exact h.zero k hk
    · intro k hk
      simp only at hk ⊢
      rw [upd_ne p i k _ (hcount k (.inr hk))]
      refine h.fits k ?_
      rw [hi]
      simp only [List.mem_append, List.mem_cons] at hk ⊢
      tauto
    · have := h.count
      rw [hi] at this
      simp only [List.length_append, List.length_cons] at this ⊢
      push_cast at this ⊢
      omega
  | putCount i a b hi =>
    have hperm := pool_inv_perm p { p with marked := a ++ b, counted := i :: p.counted, inUse := p.inUse - 1 } h
      (by
        simp only [Pool.ids, hi]
        rw [List.perm_iff_count]
        intro x
        simp only [List.count_append, List.count_cons]
        omega) rfl
    refine ⟨hperm.1, hperm.2, h.zero, h.fits, ?_⟩
    have := h.count
    rw [hi] at this
    simp only [List.length_append, List.length_cons] at this ⊢
    push_cast at this ⊢
    omega
  | putClear i a b hi =>
    have hperm := pool_inv_perm p { p with
        counted := a ++ b, cleared := i :: p.cleared, objs := p.upd i (p.objs i).clear } h
      (by
        simp only [Pool.ids, hi]
        rw [List.perm_iff_count]
        intro x
        simp only [List.count_append, List.count_cons]
        omega) rfl
    refine ⟨hperm.1, hperm.2, ?_, ?_, h.count⟩
    · intro k hk
      simp only at hk ⊢
      by_cases hki : k = i
      · subst hki
        rw [upd_self]
        exact clear_zero _
      · rw [upd_ne p i k _ hki]
        refine h.zero k ?_
        simp only [List.mem_append, List.mem_cons] at hk ⊢
        tauto
    · intro k hk
      have hki : k ≠ i := by
        rintro rfl
        rw [hi, List.nodup_iff_count_le_one] at hnd
        have := hnd k
        simp only [List.count_append, List.count_cons_self] at this
        simp only at hk
        have := List.count_pos_iff.2 hk
        omega
      simp only [upd_ne p i k _ hki]
      exact h.fits k hk
  | putBack i a b hi =>
    have hperm := pool_inv_perm p { p with cleared := a ++ b, idle := i :: p.idle } h
      (by
        simp only [Pool.ids, hi]
        rw [List.perm_iff_count]
        intro x
        simp only [List.count_append, List.count_cons]
        omega) rfl
    refine ⟨hperm.1, hperm.2, ?_, h.fits, h.count⟩
    intro k hk
    refine h.zero k ?_
    rw [hi]
    simp only [List.mem_append, List.mem_cons] at hk ⊢
    tauto

theorem pool_inv (p : Pool α) (h : PoolReach p) : PoolInv p := by
  induction h with
  | init => exact ⟨by simp [Pool.empty], by simp [Pool.empty], by simp [Pool.empty], by simp [Pool.empty], by simp [Pool.empty]⟩
  | step p q _ hs ih => exact pool_inv_step p q ih hs

/-- C69: under every interleaving of `Get`, `Put`, writes and garbage collection, no matrix is handed out
twice at the same time, and none is both handed out and idle in the pool. -/
theorem pool_exclusive (p : Pool α) (h : PoolReach p) :
    p.live.Nodup ∧ ∀ i ∈ p.live, i ∉ p.idle := by
  have hnd := (pool_inv p h).nodup
  rw [List.nodup_iff_count_le_one] at hnd
  refine ⟨List.nodup_iff_count_le_one.2 fun i => ?_, fun i hi hi' => ?_⟩
  · have := hnd i
    simp only [List.count_append] at this
    omega
  · have := hnd i
    simp only [List.count_append] at this
    have := List.count_pos_iff.2 hi
    have := List.count_pos_iff.2 hi'
    omega

/-- C69: a matrix handed out has a buffer with room for its shape, all zero, and is not marked released. -/
theorem pool_fresh (p q : Pool α) (h : PoolReach p) (hs : PoolStep p q) (i : Nat) (hq : i ∈ q.live)
    (hp : i ∉ p.live) :
    (∃ d, (q.objs i).data = some d ∧ (q.objs i).rows * (q.objs i).cols ≤ d.length ∧ ∀ x ∈ d, x = 0) ∧
      (q.objs i).released = false := by
  have hinv := pool_inv p h
  obtain ⟨⟨d, hd1, hd2⟩, hr⟩ := (pool_inv_step p q hinv hs).fits i hq
  suffices hz : (q.objs i).AllZero from ⟨⟨d, hd1, hd2, hz d hd1⟩, hr⟩
  cases hs with
  | getStart => exact absurd hq hp
  | getIdle g k r c a b hg hk =>
    have : i = k := by
      rcases List.mem_cons.1 hq with e | e
      · exact e
      · exact absurd e hp
    subst this
    simp only [upd_self]
    exact prepare_zero _ (hinv.zero i (by rw [hk]; simp)) r c
  | getNew g r c hg =>
    have : i = p.next := by
      rcases List.mem_cons.1 hq with e | e
      · exact e
      · exact absurd e hp
    subst this
    simp only [upd_self]
    exact prepare_zero _ (fun d hd => by cases hd) r c
  | drop => exact absurd hq hp
  | write => exact absurd hq hp
  | putMark k a b hk _ =>
    refine absurd ?_ hp
    rw [hk]
    simp only [List.mem_append, List.mem_cons] at hq ⊢
    tauto
  | putCount => exact absurd hq hp
  | putClear => exact absurd hq hp
  | putBack => exact absurd hq hp

/-- C69: when no call is in progress the count of matrices in use is the number of matrices handed out and
not returned; while calls are running it differs by at most the number of calls in progress. -/
theorem pool_count (p : Pool α) (h : PoolReach p) :
    (p.live.length : Int) ≤ p.inUse ∧ p.inUse ≤ p.live.length + (p.getting + p.marked.length) ∧
      (p.getting = 0 → p.marked = [] → p.inUse = p.live.length) := by
  have := (pool_inv p h).count
  refine ⟨by omega, by omega, fun h1 h2 => ?_⟩
  rw [h1, h2] at this
  simpa using this

/-- C69, the conversion to a dense matrix: it succeeds when the buffer has exactly the length of the shape.
Missing: a recycled, larger buffer (`pool_toMat_panics`). -/
theorem pool_toMat_partial (m : Pooled α) (d : List α) (hd : m.data = some d) (hr : 0 < m.rows)
    (hc : 0 < m.cols) (hl : d.length = m.rows * m.cols) : m.toMat = .ok d := by
  unfold Pooled.toMat
  rw [if_neg (by omega), hd]
  simp [hl]

/-- C69, `ToMat` fails on recycled buffers: after `Get(2, 2)`, `Put` and `Get(1, 1)` the matrix in hand is
the recycled one, and `ToMat` panics. -/
theorem pool_toMat_panics : ∃ p : Pool Int, PoolReach p ∧ ∃ i ∈ p.live,
    (p.objs i).rows = 1 ∧ (p.objs i).cols = 1 ∧ (p.objs i).toMat = .panic "mat: dimension mismatch" := by
  refine ⟨_, .step _ _ (.step _ _ (.step _ _ (.step _ _ (.step _ _ (.step _ _ (.step _ _ (.step _ _ .init
    (.getStart _)) (.getNew _ 0 2 2 rfl)) (.putMark _ 0 [] [] rfl rfl)) (.putCount _ 0 [] [] rfl))
    (.putClear _ 0 [] [] rfl)) (.putBack _ 0 [] [] rfl)) (.getStart _)) (.getIdle _ 0 0 1 1 [] [] rfl rfl),
    0, ?_, ?_, ?_, ?_⟩
  · decide
  · rfl
  · rfl
  · rfl

/-- a pool with two matrices in use -/
example : ∃ p : Pool Int, PoolReach p ∧ p.live = [1, 0] ∧ p.inUse = 2 :=
  ⟨_, .step _ _ (.step _ _ (.step _ _ (.step _ _ .init (.getStart _)) (.getNew _ 0 2 2 rfl)) (.getStart _))
    (.getNew _ 0 3 3 rfl), rfl, rfl⟩

end Scigo.Performance
