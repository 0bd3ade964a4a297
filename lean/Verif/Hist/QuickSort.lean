import Verif.Base.Sort
import Mathlib.Logic.Equiv.Basic
import Mathlib.Data.List.Nodup
import Mathlib.Data.List.GetD
import Mathlib.Data.List.Perm.Subperm

/-!
# The in-place quicksort of the parallel histogram builder

`sklearn/lightgbm/parallel_histogram.go:333-359`. The slice is a function from index to value; the segment `low..high` of the
code is the half-open segment `[lo, hi)` with `lo = low` and `hi = high + 1`.
-/

set_option linter.unusedSectionVars false

namespace Scigo.QuickSort

variable {α : Type} [LT α] [DecidableLT α]

/-- `arr[i], arr[j] = arr[j], arr[i]`: sklearn/lightgbm/parallel_histogram.go:350, 354 -/
def swap (a : Nat → α) (i j : Nat) : Nat → α := fun n => if n = j then a i else if n = i then a j else a n

/-- one round of the loop; `k` is `i + 1`: sklearn/lightgbm/parallel_histogram.go:347-352 -/
def partStep (pivot : α) (s : (Nat → α) × Nat) (j : Nat) : (Nat → α) × Nat :=
  if s.1 j < pivot then (swap s.1 s.2 j, s.2 + 1) else s

/-- the loop: sklearn/lightgbm/parallel_histogram.go:344-352 -/
def partLoop (a : Nat → α) (lo hi : Nat) : (Nat → α) × Nat :=
  (List.range' lo (hi - 1 - lo)).foldl (partStep (a (hi - 1))) (a, lo)

/-- `partition`: sklearn/lightgbm/parallel_histogram.go:344-357 -/
def partition (a : Nat → α) (lo hi : Nat) : (Nat → α) × Nat :=
  (swap (partLoop a lo hi).1 (partLoop a lo hi).2 (hi - 1), (partLoop a lo hi).2)

theorem partLoop_range (pivot : α) (lo n : Nat) (s : (Nat → α) × Nat) (hs : s.2 ≤ lo) :
    s.2 ≤ ((List.range' lo n).foldl (partStep pivot) s).2 ∧ ((List.range' lo n).foldl (partStep pivot) s).2 ≤ lo + n := by
  induction n generalizing lo s with
  | zero => simpa using hs
  | succ n ih =>
    rw [List.range'_succ, List.foldl_cons]
    have hk : s.2 ≤ (partStep pivot s lo).2 ∧ (partStep pivot s lo).2 ≤ lo + 1 := by
      unfold partStep
      split_ifs
      · exact ⟨Nat.le_succ _, by simpa using hs⟩
      · exact ⟨le_refl _, by omega⟩
    obtain ⟨h1, h2⟩ := ih (lo + 1) (partStep pivot s lo) hk.2
    omega

theorem partition_range (a : Nat → α) (lo hi : Nat) (h : lo + 1 < hi) : lo ≤ (partition a lo hi).2 ∧ (partition a lo hi).2 < hi := by
  unfold partition partLoop
  obtain ⟨h1, h2⟩ := partLoop_range (a (hi - 1)) lo (hi - 1 - lo) (a, lo) (le_refl _)
  simp only at h1 h2 ⊢
  omega

/-- `quickSort`: sklearn/lightgbm/parallel_histogram.go:335-341 -/
def quickSort (a : Nat → α) (lo hi : Nat) : Nat → α :=
  if h : lo + 1 < hi then
    quickSort (quickSort (partition a lo hi).1 lo (partition a lo hi).2) ((partition a lo hi).2 + 1) hi
  else a
termination_by hi - lo
decreasing_by
  · have := partition_range a lo hi h; omega
  · have := partition_range a lo hi h; omega

/-- the slice `l` sorted as `findBinBoundariesOptimized` does: sklearn/lightgbm/parallel_histogram.go:274-277 -/
def sortSlice [Zero α] (l : List α) : List α := (List.range l.length).map (quickSort (fun i => l.getD i 0) 0 l.length)

/-! ### Rearrangement, for every order -/

/-- `a'` is `a` with the positions of `[lo, hi)` rearranged (specification; sklearn/lightgbm/parallel_histogram.go:335-357) -/
def Rearranged (lo hi : Nat) (a a' : Nat → α) : Prop :=
  ∃ σ : Equiv.Perm Nat, (∀ i, a' i = a (σ i)) ∧ ∀ i, ¬ (lo ≤ i ∧ i < hi) → σ i = i

theorem Rearranged.refl (lo hi : Nat) (a : Nat → α) : Rearranged lo hi a a := ⟨Equiv.refl _, fun _ => rfl, fun _ _ => rfl⟩

theorem Rearranged.trans {lo hi : Nat} {a b c : Nat → α} (h1 : Rearranged lo hi a b) (h2 : Rearranged lo hi b c) : Rearranged lo hi a c := by
  obtain ⟨σ, s1, s2⟩ := h1
  obtain ⟨τ, t1, t2⟩ := h2
  refine ⟨τ.trans σ, fun i => by rw [t1, s1]; rfl, fun i hi => ?_⟩
  rw [Equiv.trans_apply, t2 i hi, s2 i hi]

theorem Rearranged.mono {lo hi lo' hi' : Nat} {a b : Nat → α} (h : Rearranged lo hi a b) (h1 : lo' ≤ lo) (h2 : hi ≤ hi') :
    Rearranged lo' hi' a b := by
  obtain ⟨σ, s1, s2⟩ := h
  exact ⟨σ, s1, fun i hi => s2 i (by omega)⟩

theorem Rearranged.outside {lo hi : Nat} {a b : Nat → α} (h : Rearranged lo hi a b) (i : Nat) (hi' : ¬ (lo ≤ i ∧ i < hi)) : b i = a i := by
  obtain ⟨σ, s1, s2⟩ := h
  rw [s1, s2 i hi']

/-- a rearrangement of a segment stays in it -/
theorem Rearranged.inside {lo hi : Nat} {a b : Nat → α} (h : Rearranged lo hi a b) (i : Nat) (h1 : lo ≤ i) (h2 : i < hi) :
    ∃ j, lo ≤ j ∧ j < hi ∧ b i = a j := by
  obtain ⟨σ, s1, s2⟩ := h
  refine ⟨σ i, ?_, ?_, s1 i⟩
  · by_contra hcon
    have := s2 (σ i) (by omega)
    have := σ.injective this
    omega
  · by_contra hcon
    have := s2 (σ i) (by omega)
    have := σ.injective this
    omega

theorem swap_rearranged (a : Nat → α) (lo hi i j : Nat) (h1 : lo ≤ i) (h2 : i < hi) (h3 : lo ≤ j) (h4 : j < hi) :
    Rearranged lo hi a (swap a i j) := by
  refine ⟨Equiv.swap i j, fun n => ?_, fun n hn => ?_⟩
  · unfold swap
    by_cases hj : n = j
    · rw [if_pos hj, hj, Equiv.swap_apply_right]
    · rw [if_neg hj]
      by_cases hi : n = i
      · rw [if_pos hi, hi, Equiv.swap_apply_left]
      · rw [if_neg hi, Equiv.swap_apply_of_ne_of_ne hi hj]
  · exact Equiv.swap_apply_of_ne_of_ne (by omega) (by omega)

theorem partLoop_rearranged (pivot : α) (lo0 hi lo n : Nat) (s : (Nat → α) × Nat) (h0 : lo0 ≤ s.2) (hs : s.2 ≤ lo) (hn : lo + n ≤ hi) :
    Rearranged lo0 hi s.1 ((List.range' lo n).foldl (partStep pivot) s).1 := by
  induction n generalizing lo s with
  | zero => exact Rearranged.refl _ _ _
  | succ n ih =>
    rw [List.range'_succ, List.foldl_cons]
    have hstep : Rearranged lo0 hi s.1 (partStep pivot s lo).1 ∧ lo0 ≤ (partStep pivot s lo).2 ∧ (partStep pivot s lo).2 ≤ lo + 1 := by
      unfold partStep
      split_ifs
      · exact ⟨swap_rearranged s.1 lo0 hi s.2 lo h0 (by omega) (by omega) (by omega), by simp only; omega, by simp only; omega⟩
      · exact ⟨Rearranged.refl _ _ _, h0, by omega⟩
    exact hstep.1.trans (ih (lo + 1) (partStep pivot s lo) hstep.2.1 hstep.2.2 (by omega))

theorem partition_rearranged (a : Nat → α) (lo hi : Nat) (h : lo + 1 < hi) : Rearranged lo hi a (partition a lo hi).1 := by
  have hr := partition_range a lo hi h
  unfold partition at hr ⊢
  simp only at hr ⊢
  have h1 : Rearranged lo hi a (partLoop a lo hi).1 :=
    partLoop_rearranged (a (hi - 1)) lo hi lo (hi - 1 - lo) (a, lo) (le_refl _) (le_refl _) (by omega)
  exact h1.trans (swap_rearranged _ lo hi _ _ hr.1 hr.2 (by omega) (by omega))

/-- C120: the result is a rearrangement of the segment, whatever `<` does (also with `NaN`) -/
theorem quickSort_rearranged (a : Nat → α) (lo hi : Nat) : Rearranged lo hi a (quickSort a lo hi) := by
  fun_induction quickSort a lo hi with
  | case1 a lo hi h ih1 ih2 =>
    have hr := partition_range a lo hi h
    exact (partition_rearranged a lo hi h).trans ((ih1.mono (le_refl _) hr.2.le).trans (ih2.mono (by omega) (le_refl _)))
  | case2 a lo hi h => exact Rearranged.refl _ _ _

theorem sortSlice_perm [Zero α] (l : List α) : (sortSlice l).Perm l := by
  obtain ⟨σ, s1, s2⟩ := quickSort_rearranged (fun i => l.getD i 0) 0 l.length
  have e : sortSlice l = ((List.range l.length).map σ).map (fun i => l.getD i 0) := by
    unfold sortSlice
    rw [List.map_map]
    apply List.map_congr_left
    intro i _
    exact s1 i
  have hin : ∀ i < l.length, σ i < l.length := by
    intro i hi
    by_contra hcon
    have := s2 (σ i) (by omega)
    have := σ.injective this
    omega
  have hp : ((List.range l.length).map σ).Perm (List.range l.length) := by
    have hnd : ((List.range l.length).map σ).Nodup := List.nodup_range.map σ.injective
    have hsub : ((List.range l.length).map σ).Subperm (List.range l.length) := by
      refine hnd.subperm (fun x hx => ?_)
      obtain ⟨i, hi, rfl⟩ := List.mem_map.1 hx
      exact List.mem_range.2 (hin i (List.mem_range.1 hi))
    exact hsub.perm_of_length_le (by simp)
  rw [e]
  refine (hp.map _).trans ?_
  have : (List.range l.length).map (fun i => l.getD i 0) = l := by
    apply List.ext_getElem
    · simp
    · intro i h1 h2
      rw [List.getElem_map, List.getElem_range, List.getD_eq_getElem _ _ h2]
  rw [this]

end Scigo.QuickSort

namespace Scigo.QuickSort

variable {α : Type} [LinearOrder α]

theorem partLoop_spec (pivot : α) (lo0 lo n : Nat) (s : (Nat → α) × Nat) (h0 : lo0 ≤ s.2) (hs : s.2 ≤ lo)
    (h1 : ∀ i, lo0 ≤ i → i < s.2 → s.1 i < pivot) (h2 : ∀ i, s.2 ≤ i → i < lo → pivot ≤ s.1 i) :
    (∀ i, lo0 ≤ i → i < ((List.range' lo n).foldl (partStep pivot) s).2 → ((List.range' lo n).foldl (partStep pivot) s).1 i < pivot) ∧
      (∀ i, ((List.range' lo n).foldl (partStep pivot) s).2 ≤ i → i < lo + n → pivot ≤ ((List.range' lo n).foldl (partStep pivot) s).1 i) := by
  induction n generalizing lo s with
  | zero => exact ⟨h1, h2⟩
  | succ n ih =>
    rw [List.range'_succ, List.foldl_cons]
    have hstep : lo0 ≤ (partStep pivot s lo).2 ∧ (partStep pivot s lo).2 ≤ lo + 1 ∧
        (∀ i, lo0 ≤ i → i < (partStep pivot s lo).2 → (partStep pivot s lo).1 i < pivot) ∧
        (∀ i, (partStep pivot s lo).2 ≤ i → i < lo + 1 → pivot ≤ (partStep pivot s lo).1 i) := by
      unfold partStep
      split_ifs with hlt
      · refine ⟨by simp only; omega, by simp only; omega, ?_, ?_⟩
        · intro i hi hi'
          simp only at hi' ⊢
          unfold swap
          by_cases hj : i = lo
          · rw [if_pos hj]
            have : s.2 = lo := by omega
            rw [this]; exact hlt
          · rw [if_neg hj]
            by_cases hk : i = s.2
            · rw [if_pos hk]; exact hlt
            · rw [if_neg hk]; exact h1 i hi (by omega)
        · intro i hi hi'
          simp only at hi ⊢
          unfold swap
          by_cases hj : i = lo
          · rw [if_pos hj]
            exact h2 s.2 (le_refl _) (by omega)
          · rw [if_neg hj, if_neg (by omega)]
            exact h2 i (by omega) (by omega)
      · refine ⟨h0, by omega, h1, ?_⟩
        intro i hi hi'
        rcases Nat.lt_or_ge i lo with h | h
        · exact h2 i hi h
        · have : i = lo := by omega
          rw [this]; exact not_lt.1 hlt
    obtain ⟨r1, r2⟩ := ih (lo + 1) (partStep pivot s lo) hstep.1 hstep.2.1 hstep.2.2.1 hstep.2.2.2
    exact ⟨r1, fun i hi hi' => r2 i hi (by omega)⟩

theorem partLoop_pivot (pivot : α) (hi lo n : Nat) (s : (Nat → α) × Nat) (hs : s.2 ≤ lo) (hn : lo + n ≤ hi) :
    ((List.range' lo n).foldl (partStep pivot) s).1 hi = s.1 hi := by
  exact (partLoop_rearranged pivot s.2 hi lo n s (le_refl _) hs hn).outside hi (by omega)

/-- after `partition` smaller values are before the pivot and the others after it -/
theorem partition_spec (a : Nat → α) (lo hi : Nat) (h : lo + 1 < hi) :
    (∀ i, lo ≤ i → i < (partition a lo hi).2 → (partition a lo hi).1 i ≤ (partition a lo hi).1 (partition a lo hi).2) ∧
      ∀ i, (partition a lo hi).2 < i → i < hi → (partition a lo hi).1 (partition a lo hi).2 ≤ (partition a lo hi).1 i := by
  have hr := partition_range a lo hi h
  obtain ⟨p1, p2⟩ := partLoop_spec (a (hi - 1)) lo lo (hi - 1 - lo) (a, lo) (le_refl _) (le_refl _) (fun i h1 h2 => absurd h2 (by simp only; omega))
    (fun i h1 h2 => absurd h2 (by simp only at h1; omega))
  have p3 := partLoop_pivot (a (hi - 1)) (hi - 1) lo (hi - 1 - lo) (a, lo) (le_refl _) (by omega)
  unfold partition at hr ⊢
  simp only at hr p3 ⊢
  change ∀ i, lo ≤ i → i < (partLoop a lo hi).2 → (partLoop a lo hi).1 i < a (hi - 1) at p1
  change ∀ i, (partLoop a lo hi).2 ≤ i → i < lo + (hi - 1 - lo) → a (hi - 1) ≤ (partLoop a lo hi).1 i at p2
  change (partLoop a lo hi).1 (hi - 1) = a (hi - 1) at p3
  set b := (partLoop a lo hi).1 with hb
  set k := (partLoop a lo hi).2 with hk
  have hpk : swap b k (hi - 1) k = a (hi - 1) := by
    unfold swap
    by_cases hkh : k = hi - 1
    · rw [if_pos hkh, hkh, p3]
    · rw [if_neg hkh, if_pos rfl, p3]
  constructor
  · intro i h1 h2
    rw [hpk]
    unfold swap
    rw [if_neg (by omega), if_neg (by omega)]
    exact (p1 i h1 h2).le
  · intro i h1 h2
    rw [hpk]
    unfold swap
    by_cases hi' : i = hi - 1
    · rw [if_pos hi']
      exact p2 k (le_refl _) (by omega)
    · rw [if_neg hi', if_neg (by omega)]
      exact p2 i (by omega) (by omega)

/-- C120: the segment is sorted afterwards -/
theorem quickSort_sorted (a : Nat → α) (lo hi : Nat) :
    ∀ i j, lo ≤ i → i < j → j < hi → quickSort a lo hi i ≤ quickSort a lo hi j := by
  fun_induction quickSort a lo hi with
  | case1 a lo hi h ih1 ih2 =>
    have hr := partition_range a lo hi h
    obtain ⟨s1, s2⟩ := partition_spec a lo hi h
    set b := (partition a lo hi).1
    set k := (partition a lo hi).2
    have r1 := quickSort_rearranged b lo k
    set c := quickSort b lo k
    have r2 := quickSort_rearranged c (k + 1) hi
    set d := quickSort c (k + 1) hi
    -- left of the pivot, the pivot, right of the pivot
    have hdl : ∀ i, i ≤ k → d i = c i := fun i hi => r2.outside i (by omega)
    have hcp : c k = b k := r1.outside k (by omega)
    have hleft : ∀ i, lo ≤ i → i < k → c i ≤ b k := by
      intro i h1 h2
      obtain ⟨j, j1, j2, e⟩ := r1.inside i h1 h2
      rw [e]; exact s1 j j1 j2
    have hright : ∀ i, k < i → i < hi → b k ≤ d i := by
      intro i h1 h2
      obtain ⟨j, j1, j2, e⟩ := r2.inside i (by omega) h2
      rw [e, r1.outside j (by omega)]
      exact s2 j (by omega) j2
    intro i j h1 h2 h3
    rcases Nat.lt_or_ge k i with hki | hki
    · exact ih2 i j (by omega) h2 h3
    · rcases Nat.lt_or_ge k j with hkj | hkj
      · refine le_trans ?_ (hright j hkj h3)
        rw [hdl i hki]
        rcases Nat.lt_or_ge i k with h | h
        · exact hleft i h1 h
        · have : i = k := by omega
          rw [this, hcp]
      · rw [hdl i hki, hdl j hkj]
        rcases Nat.lt_or_ge j k with h | h
        · exact ih1 i j h1 h2 h
        · have : j = k := by omega
          rw [this, hcp]
          exact hleft i h1 (by omega)
  | case2 a lo hi h => intro i j h1 h2 h3; omega

/-- C120: the hand-written quicksort meets the contract of a sorting function -/
theorem sortSlice_sorts [Zero α] : SortsAsc (id : α → α) sortSlice := by
  intro l
  refine ⟨sortSlice_perm l, ?_⟩
  unfold sortSlice
  rw [List.pairwise_map]
  refine List.Pairwise.imp_of_mem ?_ (List.pairwise_lt_range (n := l.length))
  intro i j hi hj hij
  exact not_lt.2 (quickSort_sorted _ 0 l.length i j (Nat.zero_le _) hij (List.mem_range.1 hj))

/-! ### Concrete case -/

example : (List.range 6).map (quickSort (fun i => [3, 1, 2, 3, 0, 1].getD i 0) 0 6) = [0, 1, 1, 2, 3, 3] := by decide +kernel

end Scigo.QuickSort
