import Verif.Hist.Merge
import Verif.Hist.Props
import Mathlib.Order.WellFounded
import Mathlib.Tactic.Ring
import Mathlib.Tactic.Abel
import Mathlib.Tactic.Linarith

/-!
# Histograms do not depend on the schedule (C63)
-/

set_option linter.unusedSectionVars false

namespace Scigo.Hist

variable {α β : Type}

/-! ### Features over a worker pool -/

/-- features some worker is working on -/
def busyOf (ws : List PoolWorker) : List Nat := ws.filterMap fun w => match w with
  | .busy f => some f
  | _ => none

@[simp] theorem busyOf_nil : busyOf [] = [] := rfl
@[simp] theorem busyOf_idle (l : List PoolWorker) : busyOf (.idle :: l) = busyOf l := rfl
@[simp] theorem busyOf_done (l : List PoolWorker) : busyOf (.done :: l) = busyOf l := rfl
@[simp] theorem busyOf_busy (f : Nat) (l : List PoolWorker) : busyOf (.busy f :: l) = f :: busyOf l := rfl
@[simp] theorem busyOf_append (l r : List PoolWorker) : busyOf (l ++ r) = busyOf l ++ busyOf r := List.filterMap_append

/-- invariant of the pool -/
structure PoolInv (cols : Nat) (build init : Nat → β) (p : Pool β) : Prop where
  next_le : p.next ≤ cols
  closed_next : p.closed = true → p.next = cols
  nodup : (p.queue ++ busyOf p.ws).Nodup
  below : ∀ f ∈ p.queue ++ busyOf p.ws, f < p.next
  written : ∀ f, f < p.next → f ∉ p.queue ++ busyOf p.ws → p.out f = build f
  untouched : ∀ f, p.next ≤ f → p.out f = init f
  done_closed : PoolWorker.done ∈ p.ws → p.closed = true ∧ p.queue = []

theorem poolInv_step (cols : Nat) (build init : Nat → β) {p p' : Pool β} (h : PoolInv cols build init p)
    (hs : PoolStep cols build p p') : PoolInv cols build init p' := by
  obtain ⟨h1, h2, h3, h4, h5, h6, h7⟩ := h
  cases hs with
  | send hn hcap ho =>
    refine ⟨hn, by simp [ho], ?_, ?_, ?_, fun f hf => h6 f (by simp only at hf; omega), fun hd => by simp [ho] at h7; exact absurd hd h7⟩
    · simp only [List.append_assoc, List.cons_append, List.nil_append]
      refine List.nodup_middle.2 (List.nodup_cons.2 ⟨fun hm => ?_, h3⟩)
      exact absurd (h4 _ hm) (lt_irrefl _)
    · intro f hf
      simp only [List.append_assoc, List.cons_append, List.nil_append] at hf ⊢
      rcases List.mem_append.1 hf with hf | hf
      · have := h4 f (List.mem_append_left _ hf); omega
      · rcases List.mem_cons.1 hf with rfl | hf
        · omega
        · have := h4 f (List.mem_append_right _ hf); omega
    · intro f hf hn'
      simp only [List.append_assoc, List.cons_append, List.nil_append, List.mem_append, List.mem_cons, not_or] at hn' hf ⊢
      exact h5 f (by omega) (by simp [hn'])
  | close hn ho => exact ⟨h1, fun _ => hn, h3, h4, h5, h6, fun hd => by rw [(h7 hd).1] at ho; exact absurd ho (by simp)⟩
  | take l r f q hw hq =>
    have hp : (p.queue ++ busyOf p.ws).Perm (q ++ busyOf (l ++ .busy f :: r)) := by
      rw [hw, hq]
      simp only [busyOf_append, busyOf_idle, busyOf_busy, List.cons_append]
      rw [← List.append_assoc q, ← List.append_assoc q]
      exact List.perm_middle.symm
    refine ⟨h1, h2, hp.nodup_iff.1 h3, fun g hg => h4 g (hp.mem_iff.2 hg), fun g hg hn => h5 g hg (fun hm => hn (hp.mem_iff.1 hm)), h6, ?_⟩
    intro hd
    have : PoolWorker.done ∈ p.ws := by
      rw [hw]
      simp only [List.mem_append, List.mem_cons, reduceCtorEq, false_or] at hd ⊢
      exact hd
    have := (h7 this).2
    rw [hq] at this
    exact absurd this (by simp)
  | write l r f hw =>
    have hp : (p.queue ++ busyOf p.ws).Perm (f :: (p.queue ++ busyOf (l ++ .idle :: r))) := by
      rw [hw]
      simp only [busyOf_append, busyOf_idle, busyOf_busy]
      rw [← List.append_assoc, ← List.append_assoc]
      exact List.perm_middle
    have hnd := hp.nodup_iff.1 h3
    rw [List.nodup_cons] at hnd
    refine ⟨h1, h2, hnd.2, fun g hg => h4 g (hp.mem_iff.2 (List.mem_cons_of_mem _ hg)), ?_, ?_, ?_⟩
    · intro g hg hn
      show p.write f (build f) g = build g
      unfold Pool.write
      by_cases hgf : g = f
      · rw [if_pos hgf, hgf]
      · rw [if_neg hgf]
        refine h5 g hg (fun hm => ?_)
        rcases List.mem_cons.1 (hp.mem_iff.1 hm) with h | h
        · exact hgf h
        · exact hn h
    · intro g hg
      show p.write f (build f) g = init g
      unfold Pool.write
      have : f < p.next := h4 f (hp.mem_iff.2 (by simp))
      simp only at hg
      rw [if_neg (by omega)]
      exact h6 g hg
    · intro hd
      refine h7 ?_
      rw [hw]
      simp only [List.mem_append, List.mem_cons, reduceCtorEq, false_or] at hd ⊢
      exact hd
  | finish l r hw hc hq =>
    have hb : busyOf (l ++ .done :: r) = busyOf p.ws := by rw [hw]; simp
    refine ⟨h1, h2, by rw [hb]; exact h3, by rw [hb]; exact h4, by rw [hb]; exact h5, h6, fun _ => ⟨hc, hq⟩⟩

theorem poolInv_start (cols : Nat) (build init : Nat → β) (workers : Nat) : PoolInv cols build init (Pool.start workers init) := by
  have hb : busyOf (List.replicate workers PoolWorker.idle) = [] := by
    induction workers with
    | zero => rfl
    | succ n ih => rw [List.replicate_succ, busyOf_idle, ih]
  have hd : PoolWorker.done ∉ List.replicate workers PoolWorker.idle := by simp
  refine ⟨Nat.zero_le _, by simp [Pool.start], by simp [Pool.start, hb], by simp [Pool.start, hb], by simp [Pool.start], fun _ _ => rfl, ?_⟩
  intro h
  exact absurd h hd

/-- C63: whatever the schedule, when `BuildHistograms` (or the feature-parallel `BuildHistogramsParallel`) returns, the slot of every
feature holds the histogram of that feature, and during the run no feature is ever worked on by two workers -/
theorem pool_histograms (cols workers : Nat) (hw : 1 ≤ workers) (build init : Nat → β) (p : Pool β)
    (h : Relation.ReflTransGen (PoolStep cols build) (Pool.start workers init) p) :
    (busyOf p.ws).Nodup ∧ (p.returned → (∀ f < cols, p.out f = build f) ∧ ∀ f, cols ≤ f → p.out f = init f) := by
  have hinv : PoolInv cols build init p ∧ p.ws ≠ [] := by
    induction h with
    | refl => exact ⟨poolInv_start cols build init workers, by unfold Pool.start; simp; omega⟩
    | tail _ hs ih =>
      refine ⟨poolInv_step cols build init ih.1 hs, ?_⟩
      cases hs <;> simp [ih.2]
  obtain ⟨hinv, hne⟩ := hinv
  refine ⟨(List.nodup_append.1 hinv.nodup).2.1, ?_⟩
  rintro ⟨hc, hall⟩
  have hnext := hinv.closed_next hc
  have hbusy : busyOf p.ws = [] := by
    unfold busyOf
    rw [List.filterMap_eq_nil_iff]
    intro w hw
    rw [hall w hw]
  obtain ⟨w, hw⟩ := List.exists_mem_of_ne_nil _ hne
  have hq := (hinv.done_closed ((hall w hw) ▸ hw)).2
  rw [← hnext]
  exact ⟨fun f hf => hinv.written f hf (by rw [hq, hbusy]; simp), hinv.untouched⟩

/-- C63: until it returns some goroutine can go on -/
theorem pool_progress (cols workers : Nat) (hw : 1 ≤ workers) (build init : Nat → β) (p : Pool β)
    (h : Relation.ReflTransGen (PoolStep cols build) (Pool.start workers init) p) (hr : ¬ p.returned) :
    ∃ p', PoolStep cols build p p' := by
  have hinv : PoolInv cols build init p := by
    clear hr
    induction h with
    | refl => exact poolInv_start cols build init workers
    | tail _ hs ih => exact poolInv_step cols build init ih hs
  by_cases hc : p.closed = true
  · obtain ⟨w, hw, hnd⟩ : ∃ w ∈ p.ws, w ≠ .done := by
      by_contra hcon
      push Not at hcon
      exact hr ⟨hc, hcon⟩
    obtain ⟨l, r, hlr⟩ := List.append_of_mem hw
    cases w with
    | idle =>
      cases hq : p.queue with
      | nil => exact ⟨_, .finish p l r hlr hc hq⟩
      | cons f q => exact ⟨_, .take p l r f q hlr hq⟩
    | busy f => exact ⟨_, .write p l r f hlr⟩
    | done => exact absurd rfl hnd
  · rw [Bool.not_eq_true] at hc
    rcases Nat.lt_or_ge p.next cols with hn | hn
    · refine ⟨_, .send p hn ?_ hc⟩
      have hsub : p.queue.Subperm (List.range p.next) :=
        (List.nodup_append.1 hinv.nodup).1.subperm (fun f hf => List.mem_range.2 (hinv.below f (List.mem_append_left _ hf)))
      have := hsub.length_le
      rw [List.length_range] at this
      omega
    · exact ⟨_, .close p (le_antisymm hinv.next_le hn) hc⟩

/-- work left for a worker -/
def PoolWorker.rank : PoolWorker → Nat
  | .idle => 1
  | .busy _ => 2
  | .done => 0

/-- work left -/
def Pool.size (cols : Nat) (p : Pool β) : Nat :=
  3 * (cols - p.next) + 2 * p.queue.length + (p.ws.map PoolWorker.rank).sum + (if p.closed then 0 else 1)

theorem pool_size_decreases (cols : Nat) (build : Nat → β) {p p' : Pool β} (h : PoolStep cols build p p') : p'.size cols < p.size cols := by
  cases h with
  | send hn hcap ho => unfold Pool.size; simp only [List.length_append, List.length_cons, List.length_nil]; omega
  | close hn ho => unfold Pool.size; simp [ho]
  | take l r f q hw hq => unfold Pool.size; rw [hw, hq]; simp [PoolWorker.rank]; omega
  | write l r f hw => unfold Pool.size; rw [hw]; simp [PoolWorker.rank]
  | finish l r hw hc hq => unfold Pool.size; rw [hw]; simp [PoolWorker.rank]

/-- C63: no schedule goes on for ever -/
theorem pool_terminates (cols : Nat) (build : Nat → β) (f : Nat → Pool β) : ¬ ∀ n, PoolStep cols build (f n) (f (n + 1)) := by
  intro h
  have : ∀ n, (f n).size cols + n ≤ (f 0).size cols := by
    intro n
    induction n with
    | zero => simp
    | succ n ih => have := pool_size_decreases cols build (h n); omega
  have := this ((f 0).size cols + 1)
  omega

/-! ### Chunks merged by compare-and-swap -/

/-- what is still to be added to a cell -/
def pend [Zero α] [Add α] (k : Bool × Nat) : List (Op α) → α
  | [] => 0
  | .count _ _ :: l => pend k l
  | .add j v :: l => if j = k then v + pend k l else pend k l

/-- what is still to be added to a counter -/
def pendCount (b : Nat) : List (Op α) → Int
  | [] => 0
  | .add _ _ :: l => pendCount b l
  | .count j n :: l => if j = b then n + pendCount b l else pendCount b l

section merge
variable [AddCommMonoid α]

/-- invariant of the merge: what is in a cell and what is still to be added to it is the total -/
structure MergeInv (total : Bool × Nat → α) (totalCount : Nat → Int) (s : Merge α) : Prop where
  cells : ∀ k, (s.cells k).val + (s.ws.map fun w => pend k w.ops).sum = total k
  counts : ∀ b, s.counts b + (s.ws.map fun w => pendCount b w.ops).sum = totalCount b
  loaded : ∀ w ∈ s.ws, ∀ k v r o n, w = ⟨.add k v :: r, .loaded o n⟩ → n ≤ (s.cells k).ver ∧ ((s.cells k).ver = n → (s.cells k).val = o)
  checked : ∀ w ∈ s.ws, ∀ k v r o n, w = ⟨.add k v :: r, .checked o n⟩ → n ≤ (s.cells k).ver ∧ ((s.cells k).ver = n → (s.cells k).val = o)

/-- `==` holds only between equal values: true of `float64` up to the sign of zero -/
def Sound (eqv : α → α → Bool) : Prop := ∀ a b, eqv a b = true → a = b

theorem mergeInv_step (eqv : α → α → Bool) (hsound : Sound eqv) (total : Bool × Nat → α) (totalCount : Nat → Int) {s s' : Merge α}
    (h : MergeInv total totalCount s) (hs : MergeStep eqv s s') : MergeInv total totalCount s' := by
  obtain ⟨l, w, r, w', hws, hact, hws'⟩ := hs
  obtain ⟨h1, h2, h3, h4⟩ := h
  obtain ⟨c, k, ws⟩ := s
  obtain ⟨c', k', ws'⟩ := s'
  simp only at hws hws' hact h1 h2 h3 h4
  subst hws hws'
  have memOld : ∀ u, u ∈ l ++ w' :: r → u = w' ∨ u ∈ l ++ w :: r := by
    intro u hu
    simp only [List.mem_append, List.mem_cons] at hu ⊢
    tauto
  have hwm : w ∈ l ++ w :: r := by simp
  cases hact with
  | count b n q ph =>
    refine ⟨?_, ?_, ?_, ?_⟩
    · intro j
      rw [← h1 j]
      simp [pend]
    · intro j
      rw [← h2 j]
      simp only [List.map_append, List.map_cons, List.sum_append, List.sum_cons, addCount, pendCount]
      by_cases hj : j = b
      · subst hj; simp only [if_true]; ring
      · rw [if_neg hj, if_neg (fun h => hj h.symm)]
    · intro u hu j v q' o m he
      rcases memOld u hu with rfl | hu
      · simp at he
      · exact h3 u hu j v q' o m he
    · intro u hu j v q' o m he
      rcases memOld u hu with rfl | hu
      · simp at he
      · exact h4 u hu j v q' o m he
  | load j v q =>
    refine ⟨?_, ?_, ?_, ?_⟩
    · intro i; rw [← h1 i]; simp
    · intro i; rw [← h2 i]; simp
    · intro u hu i v' q' o m he
      rcases memOld u hu with rfl | hu
      · simp only [Merger.mk.injEq, List.cons.injEq, Op.add.injEq, Phase.loaded.injEq] at he
        obtain ⟨⟨⟨rfl, rfl⟩, rfl⟩, rfl, rfl⟩ := he
        exact ⟨le_refl _, fun _ => rfl⟩
      · exact h3 u hu i v' q' o m he
    · intro u hu i v' q' o m he
      rcases memOld u hu with rfl | hu
      · simp at he
      · exact h4 u hu i v' q' o m he
  | same j v q o n he0 =>
    refine ⟨?_, ?_, ?_, ?_⟩
    · intro i; rw [← h1 i]; simp
    · intro i; rw [← h2 i]; simp
    · intro u hu i v' q' o m he
      rcases memOld u hu with rfl | hu
      · simp at he
      · exact h3 u hu i v' q' o m he
    · intro u hu i v' q' o' m he
      rcases memOld u hu with rfl | hu
      · simp only [Merger.mk.injEq, List.cons.injEq, Op.add.injEq, Phase.checked.injEq] at he
        obtain ⟨⟨⟨rfl, rfl⟩, rfl⟩, rfl, rfl⟩ := he
        exact ⟨le_refl _, fun _ => hsound _ _ he0⟩
      · exact h4 u hu i v' q' o' m he
  | differ j v q o n he0 =>
    refine ⟨?_, ?_, ?_, ?_⟩
    · intro i; rw [← h1 i]; simp
    · intro i; rw [← h2 i]; simp
    · intro u hu i v' q' o m he
      rcases memOld u hu with rfl | hu
      · simp at he
      · exact h3 u hu i v' q' o m he
    · intro u hu i v' q' o' m he
      rcases memOld u hu with rfl | hu
      · simp at he
      · exact h4 u hu i v' q' o' m he
  | lost j v q o n he0 =>
    refine ⟨?_, ?_, ?_, ?_⟩
    · intro i; rw [← h1 i]; simp
    · intro i; rw [← h2 i]; simp
    · intro u hu i v' q' o m he
      rcases memOld u hu with rfl | hu
      · simp at he
      · exact h3 u hu i v' q' o m he
    · intro u hu i v' q' o' m he
      rcases memOld u hu with rfl | hu
      · simp at he
      · exact h4 u hu i v' q' o' m he
  | swap j v q o n he0 =>
    have hval : (k j).val = o := by
      rcases he0 with he0 | he0
      · exact (h4 _ hwm j v q o n rfl).2 he0
      · exact he0
    refine ⟨?_, ?_, ?_, ?_⟩
    · intro i
      rw [← h1 i]
      simp only [List.map_append, List.map_cons, List.sum_append, List.sum_cons, setCell, pend]
      by_cases hi : i = j
      · subst hi
        rw [if_pos rfl, if_pos rfl, hval]
        simp only
        abel
      · rw [if_neg hi, if_neg (fun h => hi h.symm)]
    · intro i; rw [← h2 i]; simp [pendCount]
    · intro u hu i v' q' o' m he
      rcases memOld u hu with rfl | hu
      · simp at he
      · obtain ⟨e1, e2⟩ := h3 u hu i v' q' o' m he
        simp only [setCell]
        by_cases hi : i = j
        · subst hi
          rw [if_pos rfl]
          exact ⟨by simp only; omega, fun h => by simp only at h; omega⟩
        · rw [if_neg hi]; exact ⟨e1, e2⟩
    · intro u hu i v' q' o' m he
      rcases memOld u hu with rfl | hu
      · simp at he
      · obtain ⟨e1, e2⟩ := h4 u hu i v' q' o' m he
        simp only [setCell]
        by_cases hi : i = j
        · subst hi
          rw [if_pos rfl]
          exact ⟨by simp only; omega, fun h => by simp only at h; omega⟩
        · rw [if_neg hi]; exact ⟨e1, e2⟩

/-- C63: goroutines that merge their local sums by compare-and-swap lose no update: when all are done every cell has been increased
by exactly the sum of what they had to add, whatever the schedule -/
theorem merge_conserves (eqv : α → α → Bool) (hsound : Sound eqv) (s s' : Merge α) (hfresh : ∀ w ∈ s.ws, w.ph = .fresh)
    (h : Relation.ReflTransGen (MergeStep eqv) s s') (hf : s'.finished) :
    (∀ k, (s'.cells k).val = (s.cells k).val + (s.ws.map fun w => pend k w.ops).sum) ∧
      ∀ b, s'.counts b = s.counts b + (s.ws.map fun w => pendCount b w.ops).sum := by
  have hinv : MergeInv (fun k => (s.cells k).val + (s.ws.map fun w => pend k w.ops).sum)
      (fun b => s.counts b + (s.ws.map fun w => pendCount b w.ops).sum) s' := by
    clear hf
    induction h with
    | refl =>
      refine ⟨fun _ => rfl, fun _ => rfl, ?_, ?_⟩
      · intro w hw k v r o n he
        have := hfresh w hw
        rw [he] at this
        simp at this
      · intro w hw k v r o n he
        have := hfresh w hw
        rw [he] at this
        simp at this
    | tail _ hs ih => exact mergeInv_step eqv hsound _ _ ih hs
  have hz : ∀ k, (s'.ws.map fun w => pend k w.ops).sum = 0 := by
    intro k
    apply List.sum_eq_zero
    intro v hv
    obtain ⟨w, hw, rfl⟩ := List.mem_map.1 hv
    rw [hf w hw]
    rfl
  have hzc : ∀ b, (s'.ws.map fun w => pendCount b w.ops).sum = 0 := by
    intro b
    apply List.sum_eq_zero
    intro v hv
    obtain ⟨w, hw, rfl⟩ := List.mem_map.1 hv
    rw [hf w hw]
    rfl
  constructor
  · intro k
    have := hinv.cells k
    rw [hz, add_zero] at this
    exact this
  · intro b
    have := hinv.counts b
    rw [hzc, add_zero] at this
    exact this

/-- C63: a goroutine that is not done can always take a step -/
theorem merge_progress (eqv : α → α → Bool) (s : Merge α) (h : ¬ s.finished) : ∃ s', MergeStep eqv s s' := by
  unfold Merge.finished at h
  push Not at h
  obtain ⟨w, hw, hne⟩ := h
  obtain ⟨l, r, hlr⟩ := List.append_of_mem hw
  obtain ⟨ops, ph⟩ := w
  cases ops with
  | nil => exact absurd rfl hne
  | cons op q =>
    cases op with
    | count b n => exact ⟨⟨_, _, l ++ ⟨q, .fresh⟩ :: r⟩, l, _, r, _, hlr, .count b n q ph, rfl⟩
    | add k v =>
      cases ph with
      | fresh => exact ⟨⟨_, _, l ++ _ :: r⟩, l, _, r, _, hlr, .load k v q, rfl⟩
      | loaded o n =>
        by_cases he : eqv (s.cells k).val o = true
        · exact ⟨⟨_, _, l ++ _ :: r⟩, l, _, r, _, hlr, .same k v q o n he, rfl⟩
        · exact ⟨⟨_, _, l ++ _ :: r⟩, l, _, r, _, hlr, .differ k v q o n (by simpa using he), rfl⟩
      | checked o n =>
        by_cases he : (s.cells k).ver = n
        · exact ⟨⟨_, _, l ++ _ :: r⟩, l, _, r, _, hlr, .swap k v q o n (Or.inl he), rfl⟩
        · exact ⟨⟨_, _, l ++ _ :: r⟩, l, _, r, _, hlr, .lost k v q o n he, rfl⟩

/-- steps to the next success of a goroutine, or to its next failure if the cell has been stored to since it looked -/
def Merger.rank (cells : Bool × Nat → Cell α) (w : Merger α) : Nat :=
  match w.ops, w.ph with
  | [], _ => 0
  | .count _ _ :: _, _ => 3
  | .add _ _ :: _, .fresh => 3
  | .add k _ :: _, .loaded _ n => if (cells k).ver = n then 2 else 5
  | .add k _ :: _, .checked _ n => if (cells k).ver = n then 1 else 4

theorem Merger.rank_le (cells : Bool × Nat → Cell α) (w : Merger α) : w.rank cells ≤ 5 := by
  unfold Merger.rank
  split <;> (try split_ifs) <;> omega

/-- updates left, weighted, and ranks -/
def Merge.size (s : Merge α) : Nat :=
  (s.ws.map fun w => w.ops.length).sum * (5 * s.ws.length + 1) + (s.ws.map fun w => w.rank s.cells).sum

theorem ranks_le (cells : Bool × Nat → Cell α) (ws : List (Merger α)) : (ws.map fun w => w.rank cells).sum ≤ 5 * ws.length := by
  induction ws with
  | nil => simp
  | cons w l ih =>
    have := w.rank_le cells
    simp only [List.map_cons, List.sum_cons, List.length_cons]
    omega

theorem merge_size_decreases (eqv : α → α → Bool) (hrefl : ∀ a, eqv a a = true) (total : Bool × Nat → α) (totalCount : Nat → Int)
    {s s' : Merge α} (h : MergeInv total totalCount s) (hs : MergeStep eqv s s') : s'.size < s.size := by
  obtain ⟨l, w, r, w', hws, hact, hws'⟩ := hs
  have h3 := h.loaded
  obtain ⟨c, k, ws⟩ := s
  obtain ⟨c', k', ws'⟩ := s'
  simp only at hws hws' hact h3
  subst hws hws'
  have hwm : w ∈ l ++ w :: r := by simp
  -- a success: one update less
  have success : ∀ (k' : Bool × Nat → Cell α) (ph' : Phase α) (c : Nat → Int), w.ops.length = w'.ops.length + 1 →
      (⟨c, k', l ++ w' :: r⟩ : Merge α).size < (⟨c, k, l ++ w :: r⟩ : Merge α).size := by
    intro k' ph' c hl
    unfold Merge.size
    simp only
    have h1 := ranks_le k' (l ++ w' :: r)
    have h2 : ((l ++ w :: r).map fun w => w.ops.length).sum = ((l ++ w' :: r).map fun w => w.ops.length).sum + 1 := by
      simp only [List.map_append, List.map_cons, List.sum_append, List.sum_cons]
      omega
    have h3 : (l ++ w :: r).length = (l ++ w' :: r).length := by simp
    rw [h2, h3, Nat.add_mul, Nat.one_mul]
    omega
  -- otherwise the rank drops
  have other : ∀ c c' : Nat → Int, w'.ops = w.ops → w'.rank k < w.rank k →
      (⟨c', k, l ++ w' :: r⟩ : Merge α).size < (⟨c, k, l ++ w :: r⟩ : Merge α).size := by
    intro c c' ho hr
    unfold Merge.size
    simp only [List.map_append, List.map_cons, List.sum_append, List.sum_cons, List.length_append, List.length_cons]
    rw [ho]
    omega
  cases hact with
  | count b n q ph => exact success _ .fresh _ rfl
  | load j v q => exact other _ _ rfl (by simp [Merger.rank])
  | same j v q o n he =>
    refine other _ _ rfl ?_
    simp only [Merger.rank, if_true]
    split_ifs <;> omega
  | differ j v q o n he =>
    refine other _ _ rfl ?_
    have : (k j).ver ≠ n := by
      intro hn
      have := (h3 _ hwm j v q o n rfl).2 hn
      rw [this, hrefl] at he
      exact absurd he (by simp)
    simp [Merger.rank, this]
  | swap j v q o n he => exact success _ .fresh _ rfl
  | lost j v q o n he =>
    refine other _ _ rfl ?_
    simp [Merger.rank, he]

/-- C63: the compare-and-swap loops end under every schedule, provided `==` is reflexive (no `NaN` sum) -/
theorem merge_terminates (eqv : α → α → Bool) (hsound : Sound eqv) (hrefl : ∀ a, eqv a a = true) (f : Nat → Merge α)
    (hfresh : ∀ w ∈ (f 0).ws, w.ph = .fresh) : ¬ ∀ n, MergeStep eqv (f n) (f (n + 1)) := by
  intro h
  have hinv : ∀ n, MergeInv (fun k => ((f 0).cells k).val + ((f 0).ws.map fun w => pend k w.ops).sum)
      (fun b => (f 0).counts b + ((f 0).ws.map fun w => pendCount b w.ops).sum) (f n) := by
    intro n
    induction n with
    | zero =>
      refine ⟨fun _ => rfl, fun _ => rfl, ?_, ?_⟩ <;>
      · intro w hw k v r o n he
        have := hfresh w hw
        rw [he] at this
        simp at this
    | succ n ih => exact mergeInv_step eqv hsound _ _ ih (h n)
  have : ∀ n, (f n).size + n ≤ (f 0).size := by
    intro n
    induction n with
    | zero => simp
    | succ n ih => have := merge_size_decreases eqv hrefl _ _ (hinv n) (h n); omega
  have := this ((f 0).size + 1)
  omega

end merge

/-! ### The merged histogram is the sequential one -/

theorem chunks_flatten (size : Nat) (hs : 0 < size) (indices : List Nat) :
    (List.range (numChunks size indices.length)).flatMap (chunk size indices) = indices := by
  have key : ∀ m, (List.range m).flatMap (chunk size indices) = indices.take (m * size) := by
    intro m
    induction m with
    | zero => simp
    | succ m ih =>
      rw [List.range_succ, List.flatMap_append, ih, List.flatMap_singleton, Nat.succ_mul, List.take_add]
      rfl
  rw [key, List.take_of_length_le]
  unfold numChunks
  have := Nat.div_add_mod (indices.length + size - 1) size
  have := Nat.mod_lt (indices.length + size - 1) hs
  rw [Nat.mul_comm]
  omega

section compose
variable [Field α] [LinearOrder α] [IsStrictOrderedRing α]

theorem pend_append (k : Bool × Nat) (l r : List (Op α)) : pend k (l ++ r) = pend k l + pend k r := by
  induction l with
  | nil => simp [pend]
  | cons a l ih =>
    cases a with
    | count b n => simpa [pend] using ih
    | add j v =>
      simp only [List.cons_append, pend]
      split_ifs
      · rw [ih, add_assoc]
      · exact ih

theorem pendCount_append (b : Nat) (l r : List (Op α)) : pendCount b (l ++ r) = pendCount b l + pendCount b r := by
  induction l with
  | nil => simp [pendCount]
  | cons a l ih =>
    cases a with
    | add b n => simpa [pendCount] using ih
    | count j v =>
      simp only [List.cons_append, pendCount]
      split_ifs
      · rw [ih, add_assoc]
      · exact ih

/-- the updates for one bin -/
def binOps (k : Nat) : Option (Bin α) → List (Op α)
  | none => []
  | some v => if 0 < v.count then [.count k v.count, .add (false, k) v.grad, .add (true, k) v.hess] else []

theorem localOps_eq (b : List α) (x g h : Nat → α) (rows : List Nat) :
    localOps b x g h rows = (List.range (b.length - 1)).flatMap fun k => binOps k (fill findBinIndexOpt b x g h rows)[k]? := by
  unfold localOps
  simp only
  rfl

theorem pend_binOps_ne (t : Bool) (k j : Nat) (v : Option (Bin α)) (h : j ≠ k) : pend (t, k) (binOps j v) = 0 := by
  cases v with
  | none => rfl
  | some v =>
    unfold binOps
    simp only
    split_ifs
    · simp [pend, h]
    · rfl

theorem pendCount_binOps_ne (k j : Nat) (v : Option (Bin α)) (h : j ≠ k) : pendCount k (binOps j v) = 0 := by
  cases v with
  | none => rfl
  | some v =>
    unfold binOps
    simp only
    split_ifs
    · simp [pendCount, h]
    · rfl

theorem pend_flatMap (t : Bool) (k n : Nat) (f : Nat → Option (Bin α)) (hk : k < n) :
    pend (t, k) ((List.range n).flatMap fun j => binOps j (f j)) = pend (t, k) (binOps k (f k)) := by
  have hz : ∀ m, m ≤ k → pend (t, k) ((List.range m).flatMap fun j => binOps j (f j)) = 0 := by
    intro m
    induction m with
    | zero => intro _; rfl
    | succ m ih =>
      intro hm
      rw [List.range_succ, List.flatMap_append, pend_append, ih (by omega), List.flatMap_singleton,
        pend_binOps_ne t k m _ (by omega), add_zero]
  induction n with
  | zero => omega
  | succ n ih =>
    rw [List.range_succ, List.flatMap_append, pend_append, List.flatMap_singleton]
    rcases Nat.lt_or_ge k n with h | h
    · rw [ih h, pend_binOps_ne t k n _ (by omega), add_zero]
    · have : k = n := by omega
      subst this
      rw [hz k (le_refl _), zero_add]

theorem pendCount_flatMap (k n : Nat) (f : Nat → Option (Bin α)) (hk : k < n) :
    pendCount k ((List.range n).flatMap fun j => binOps j (f j)) = pendCount k (binOps k (f k)) := by
  have hz : ∀ m, m ≤ k → pendCount k ((List.range m).flatMap fun j => binOps j (f j)) = 0 := by
    intro m
    induction m with
    | zero => intro _; rfl
    | succ m ih =>
      intro hm
      rw [List.range_succ, List.flatMap_append, pendCount_append, ih (by omega), List.flatMap_singleton,
        pendCount_binOps_ne k m _ (by omega), add_zero]
  induction n with
  | zero => omega
  | succ n ih =>
    rw [List.range_succ, List.flatMap_append, pendCount_append, List.flatMap_singleton]
    rcases Nat.lt_or_ge k n with h | h
    · rw [ih h, pendCount_binOps_ne k n _ (by omega), add_zero]
    · have : k = n := by omega
      subst this
      rw [hz k (le_refl _), zero_add]

/-- what a chunk adds to the cells of bin `k` -/
theorem localOps_bin (b : List α) (x g h : Nat → α) (rows : List Nat) (k : Nat) (hk : k < b.length - 1) :
    pendCount k (localOps b x g h rows) = ((rowsIn findBinIndexOpt b x rows k).length : Int) ∧
      pend (false, k) (localOps b x g h rows) = ((rowsIn findBinIndexOpt b x rows k).map g).sum ∧
      pend (true, k) (localOps b x g h rows) = ((rowsIn findBinIndexOpt b x rows k).map h).sum := by
  rw [localOps_eq, pendCount_flatMap k _ _ hk, pend_flatMap false k _ _ hk, pend_flatMap true k _ _ hk,
    fill_get findBinIndexOpt b x g h rows k hk]
  unfold binOps
  simp only [sumOver_eq]
  by_cases hl : rowsIn findBinIndexOpt b x rows k = []
  · rw [hl]; simp [pend, pendCount]
  · have : 0 < (rowsIn findBinIndexOpt b x rows k).length := List.length_pos_of_ne_nil hl
    rw [if_pos (by exact_mod_cast this)]
    simp [pend, pendCount]

/-- C63: for every schedule the histogram built with one goroutine per chunk of rows (`buildContinuousHistogramParallelSamples`) is
the one built sequentially (`buildContinuousHistogramOptimized`) -/
theorem merge_histogram (eqv : α → α → Bool) (hsound : Sound eqv) (size : Nat) (hs : 0 < size) (L : Lits α)
    (trunc : Nat → Nat → Nat → Nat) (srt : List α → List α) (maxBins feature : Nat) (x g h : Nat → α) (indices : List Nat) (s : Merge α)
    (hr : Relation.ReflTransGen (MergeStep eqv)
      (Merge.start size (findBinBoundariesOpt L trunc srt maxBins (indices.map x)) x g h indices) s) (hf : s.finished) :
    s.result feature (findBinBoundariesOpt L trunc srt maxBins (indices.map x)) =
      buildContinuousOpt L trunc srt maxBins feature x g h indices := by
  set b := findBinBoundariesOpt L trunc srt maxBins (indices.map x) with hb
  obtain ⟨h1, h2⟩ := merge_conserves eqv hsound _ s (by simp [Merge.start]) hr hf
  unfold buildContinuousOpt
  simp only
  rw [← hb]
  unfold Merge.result
  congr 1
  apply List.ext_getElem?
  intro k
  by_cases hk : k < b.length - 1
  · rw [List.getElem?_map, List.getElem?_range hk, fill_get findBinIndexOpt b x g h indices k hk, Option.map_some]
    have hfl : ∀ f : Nat → α, ((List.range (numChunks size indices.length)).map fun c =>
        ((rowsIn findBinIndexOpt b x (chunk size indices c) k).map f).sum).sum = ((rowsIn findBinIndexOpt b x indices k).map f).sum := by
      intro f
      conv_rhs => rw [← chunks_flatten size hs indices]
      unfold rowsIn
      induction List.range (numChunks size indices.length) with
      | nil => simp
      | cons c l ih =>
        rw [List.map_cons, List.sum_cons, ih, List.flatMap_cons, List.filter_append, List.map_append, List.sum_append]
    have hflc : ((List.range (numChunks size indices.length)).map fun c =>
        ((rowsIn findBinIndexOpt b x (chunk size indices c) k).length : Int)).sum = (rowsIn findBinIndexOpt b x indices k).length := by
      conv_rhs => rw [← chunks_flatten size hs indices]
      unfold rowsIn
      induction List.range (numChunks size indices.length) with
      | nil => simp
      | cons c l ih =>
        rw [List.map_cons, List.sum_cons, ih, List.flatMap_cons, List.filter_append, List.length_append]
        push_cast
        rfl
    have e1 := h1 (false, k)
    have e2 := h1 (true, k)
    have e3 := h2 k
    simp only [Merge.start, List.map_map] at e1 e2 e3
    have c1 : (fun w : Merger α => pend (false, k) w.ops) ∘ (fun c => (⟨localOps b x g h (chunk size indices c), .fresh⟩ : Merger α)) =
        fun c => ((rowsIn findBinIndexOpt b x (chunk size indices c) k).map g).sum := by
      funext c; exact (localOps_bin b x g h _ k hk).2.1
    have c2 : (fun w : Merger α => pend (true, k) w.ops) ∘ (fun c => (⟨localOps b x g h (chunk size indices c), .fresh⟩ : Merger α)) =
        fun c => ((rowsIn findBinIndexOpt b x (chunk size indices c) k).map h).sum := by
      funext c; exact (localOps_bin b x g h _ k hk).2.2
    have c3 : (fun w : Merger α => pendCount k w.ops) ∘ (fun c => (⟨localOps b x g h (chunk size indices c), .fresh⟩ : Merger α)) =
        fun c => ((rowsIn findBinIndexOpt b x (chunk size indices c) k).length : Int) := by
      funext c; exact (localOps_bin b x g h _ k hk).1
    rw [c1, hfl, zero_add] at e1
    rw [c2, hfl, zero_add] at e2
    rw [c3, hflc, zero_add] at e3
    rw [e1, e2, e3, sumOver_eq, sumOver_eq]
  · rw [List.getElem?_eq_none (by simp; omega), List.getElem?_eq_none (by rw [fill_length]; omega)]

end compose

/-! ### A `NaN` sum makes the loops spin for ever -/

section nan
variable [Add α]

/-- the cell holds a value that is equal to nothing, and some goroutine still has to add to it -/
structure Stuck (eqv : α → α → Bool) (z : α) (k : Bool × Nat) (s : Merge α) : Prop where
  val : (s.cells k).val = z
  waits : ∃ w ∈ s.ws, ∃ v, Op.add k v ∈ w.ops
  none : ∀ w ∈ s.ws, ∀ v r o n, w = ⟨.add k v :: r, .checked o n⟩ → (s.cells k).ver ≠ n ∧ o ≠ z

theorem stuck_step (eqv : α → α → Bool) (z : α) (hz : ∀ y, eqv z y = false) (k : Bool × Nat) {s s' : Merge α} (h : Stuck eqv z k s)
    (hs : MergeStep eqv s s') : Stuck eqv z k s' := by
  obtain ⟨l, w, r, w', hws, hact, hws'⟩ := hs
  obtain ⟨h1, ⟨u, hu, v0, hv0⟩, h3⟩ := h
  obtain ⟨c, ks, ws⟩ := s
  obtain ⟨c', ks', ws'⟩ := s'
  simp only at hws hws' hact h1 hu h3
  subst hws hws'
  have memOld : ∀ u, u ∈ l ++ w' :: r → u = w' ∨ u ∈ l ++ w :: r := by
    intro u hu
    simp only [List.mem_append, List.mem_cons] at hu ⊢
    tauto
  have hwm : w ∈ l ++ w :: r := by simp
  -- a goroutine still waiting is still there unless it was the one that moved
  have hwait : (Op.add k v0 ∈ w.ops → ∃ v, Op.add k v ∈ w'.ops) → ∃ w ∈ l ++ w' :: r, ∃ v, Op.add k v ∈ w.ops := by
    intro hh
    simp only [List.mem_append, List.mem_cons] at hu
    rcases hu with hu | rfl | hu
    · exact ⟨u, by simp [hu], v0, hv0⟩
    · obtain ⟨v, hv⟩ := hh hv0
      exact ⟨w', by simp, v, hv⟩
    · exact ⟨u, by simp [hu], v0, hv0⟩
  cases hact with
  | count b n q ph =>
    refine ⟨h1, hwait (fun hm => ⟨v0, by simpa using hm⟩), ?_⟩
    intro u hu v r' o n he
    rcases memOld u hu with rfl | hu
    · simp at he
    · exact h3 u hu v r' o n he
  | load j v q =>
    refine ⟨h1, hwait (fun hm => ⟨v0, hm⟩), ?_⟩
    intro u hu v r' o n he
    rcases memOld u hu with rfl | hu
    · simp at he
    · exact h3 u hu v r' o n he
  | same j v q o n he0 =>
    refine ⟨h1, hwait (fun hm => ⟨v0, hm⟩), ?_⟩
    intro u hu v' r' o' n' he
    rcases memOld u hu with rfl | hu
    · simp only [Merger.mk.injEq, List.cons.injEq, Op.add.injEq, Phase.checked.injEq] at he
      obtain ⟨⟨⟨rfl, rfl⟩, rfl⟩, rfl, rfl⟩ := he
      rw [h1, hz] at he0
      exact absurd he0 (by simp)
    · exact h3 u hu v' r' o' n' he
  | differ j v q o n he0 =>
    refine ⟨h1, hwait (fun hm => ⟨v0, hm⟩), ?_⟩
    intro u hu v r' o n he
    rcases memOld u hu with rfl | hu
    · simp at he
    · exact h3 u hu v r' o n he
  | lost j v q o n he0 =>
    refine ⟨h1, hwait (fun hm => ⟨v0, hm⟩), ?_⟩
    intro u hu v r' o n he
    rcases memOld u hu with rfl | hu
    · simp at he
    · exact h3 u hu v r' o n he
  | swap j v q o n he0 =>
    have hjk : j ≠ k := by
      rintro rfl
      obtain ⟨e1, e2⟩ := h3 _ hwm v q o n rfl
      rcases he0 with h | h
      · exact e1 h
      · exact e2 (by rw [← h, h1])
    have hcell : setCell ks j (o + v) k = ks k := by unfold setCell; rw [if_neg (Ne.symm hjk)]
    refine ⟨by simp only; rw [hcell]; exact h1, hwait (fun hm => ⟨v0, ?_⟩), ?_⟩
    · simp only [List.mem_cons, Op.add.injEq] at hm
      rcases hm with ⟨h, -⟩ | h
      · exact absurd h.symm hjk
      · exact h
    · intro u hu v' r' o' n' he
      simp only
      rw [hcell]
      rcases memOld u hu with rfl | hu
      · simp at he
      · exact h3 u hu v' r' o' n' he

/-- once stuck, `wg.Wait()` never returns -/
theorem stuck_forever (eqv : α → α → Bool) (z : α) (hz : ∀ y, eqv z y = false) (k : Bool × Nat) {s s' : Merge α} (h : Stuck eqv z k s)
    (hr : Relation.ReflTransGen (MergeStep eqv) s s') : ¬ s'.finished := by
  have : Stuck eqv z k s' := by
    induction hr with
    | refl => exact h
    | tail _ hs ih => exact stuck_step eqv z hz k ih hs
  obtain ⟨w, hw, v, hv⟩ := this.waits
  intro hf
  rw [hf w hw] at hv
  simp at hv

end nan

/-- rationals with a `NaN`, which is equal to nothing and absorbs -/
inductive NRat
  | num (q : Rat)
  | nan
  deriving DecidableEq

instance : Zero NRat := ⟨NRat.num 0⟩
instance : One NRat := ⟨NRat.num 1⟩
instance : Add NRat := ⟨fun a b => match a, b with
  | NRat.num a, NRat.num b => NRat.num (a + b)
  | _, _ => NRat.nan⟩
instance : Sub NRat := ⟨fun a b => match a, b with
  | NRat.num a, NRat.num b => NRat.num (a - b)
  | _, _ => .nan⟩
/-- order of the numbers -/
def NRat.lt : NRat → NRat → Bool
  | NRat.num a, NRat.num b => decide (a < b)
  | _, _ => false
/-- order of the numbers -/
def NRat.le : NRat → NRat → Bool
  | NRat.num a, NRat.num b => decide (a ≤ b)
  | _, _ => false
instance : LT NRat := ⟨fun a b => NRat.lt a b = true⟩
instance : LE NRat := ⟨fun a b => NRat.le a b = true⟩
instance : DecidableLT NRat := fun a b => inferInstanceAs (Decidable (NRat.lt a b = true))
instance : DecidableLE NRat := fun a b => inferInstanceAs (Decidable (NRat.le a b = true))
/-- Go's `==` -/
def NRat.eqv : NRat → NRat → Bool
  | NRat.num a, NRat.num b => decide (a = b)
  | _, _ => false

/-- gradients of two rows, the first of which is `NaN` -/
def nanGrad : Nat → NRat := fun i => if i = 0 then .nan else NRat.num 1

/-- the state before the merge of two one-row chunks with the same feature value -/
def nanStart : Merge NRat := Merge.start 1 [NRat.num 0, NRat.num 1] (fun _ => NRat.num 0) nanGrad (fun _ => NRat.num 1) [0, 1]

theorem nan_ops : localOps [NRat.num 0, NRat.num 1] (fun _ => NRat.num 0) nanGrad (fun _ => NRat.num 1) [0] =
      [.count 0 1, .add (false, 0) NRat.nan, .add (true, 0) (NRat.num 1)] ∧
    localOps [NRat.num 0, NRat.num 1] (fun _ => NRat.num 0) nanGrad (fun _ => NRat.num 1) [1] =
      [.count 0 1, .add (false, 0) (NRat.num 1), .add (true, 0) (NRat.num 1)] := by
  constructor <;> decide +kernel

/-- C63: one `NaN` gradient can make the parallel construction hang for ever: if the chunk with the `NaN` merges first, the other
goroutine's compare-and-swap can never succeed, since the stored `NaN` is not equal to the `NaN` it has just loaded -/
theorem merge_nan_hangs : ∃ s, Relation.ReflTransGen (MergeStep NRat.eqv) nanStart s ∧
    ∀ s', Relation.ReflTransGen (MergeStep NRat.eqv) s s' → ¬ s'.finished := by
  have h0 : nanStart = ⟨fun _ => 0, fun _ => ⟨0, 0⟩, [⟨[.count 0 1, .add (false, 0) NRat.nan, .add (true, 0) (NRat.num 1)], .fresh⟩,
      ⟨[.count 0 1, .add (false, 0) (NRat.num 1), .add (true, 0) (NRat.num 1)], .fresh⟩]⟩ := by
    unfold nanStart Merge.start
    have hc : numChunks 1 [0, 1].length = 2 := rfl
    rw [hc]
    show (⟨_, _, [⟨localOps _ _ _ _ [0], _⟩, ⟨localOps _ _ _ _ [1], _⟩]⟩ : Merge NRat) = _
    rw [nan_ops.1, nan_ops.2]
  let w2 : Merger NRat := ⟨[.count 0 1, .add (false, 0) (NRat.num 1), .add (true, 0) (NRat.num 1)], .fresh⟩
  let c0 : Nat → Int := fun _ => 0
  let k0 : Bool × Nat → Cell NRat := fun _ => ⟨0, 0⟩
  let c1 := addCount c0 0 1
  let k1 := setCell k0 (false, 0) ((0 : NRat) + NRat.nan)
  refine ⟨⟨c1, k1, [⟨[.add (true, 0) (NRat.num 1)], .fresh⟩, w2]⟩, ?_, fun s' hs' => ?_⟩
  · rw [h0]
    refine Relation.ReflTransGen.tail (b := ⟨c1, k0, [⟨[.add (false, 0) NRat.nan, .add (true, 0) (NRat.num 1)], .checked 0 0⟩, w2]⟩) ?_
      ⟨[], _, [w2], _, rfl, .swap (false, 0) NRat.nan [.add (true, 0) (NRat.num 1)] 0 0 (Or.inl rfl), rfl⟩
    refine Relation.ReflTransGen.tail (b := ⟨c1, k0, [⟨[.add (false, 0) NRat.nan, .add (true, 0) (NRat.num 1)], .loaded 0 0⟩, w2]⟩) ?_
      ⟨[], _, [w2], _, rfl, .same (false, 0) NRat.nan [.add (true, 0) (NRat.num 1)] 0 0 (by decide +kernel), rfl⟩
    refine Relation.ReflTransGen.tail (b := ⟨c1, k0, [⟨[.add (false, 0) NRat.nan, .add (true, 0) (NRat.num 1)], .fresh⟩, w2]⟩) ?_
      ⟨[], _, [w2], _, rfl, .load (false, 0) NRat.nan [.add (true, 0) (NRat.num 1)], rfl⟩
    refine Relation.ReflTransGen.single ⟨[], _, [w2], _, rfl, .count 0 1 _ .fresh, rfl⟩
  · refine stuck_forever NRat.eqv NRat.nan (fun y => by cases y <;> rfl) (false, 0) ?_ hs'
    refine ⟨rfl, ⟨w2, by simp, NRat.num 1, by simp [w2]⟩, ?_⟩
    intro w hw v r o n he
    simp only [List.mem_cons, List.not_mem_nil, or_false] at hw
    rcases hw with rfl | rfl
    · simp at he
    · simp [w2] at he

/-! ### Concrete cases -/

/-- equality of rationals is sound and reflexive -/
example : Sound (fun a b : Rat => decide (a = b)) ∧ ∀ a : Rat, (fun a b : Rat => decide (a = b)) a a = true :=
  ⟨fun a b h => by simpa using h, fun a => by simp⟩

/-- five rows in chunks of two: three goroutines -/
example : ((Merge.start 2 [1, 2, 4] exX exG (fun _ => (1 : Rat)) [0, 1, 2, 3, 4]).ws.map fun w => w.ops.length) = [6, 3, 3] := by
  decide +kernel

/-- a run of the pool on one feature with one worker -/
example : ∃ p : Pool Nat, Relation.ReflTransGen (PoolStep 1 fun f => f + 7) (Pool.start 1 fun _ => 0) p ∧ p.returned ∧ p.out 0 = 7 := by
  refine ⟨⟨1, [], true, [.done], fun i => if i = 0 then 7 else 0⟩, ?_, by simp [Pool.returned], rfl⟩
  refine Relation.ReflTransGen.tail (b := ⟨1, [], true, [.idle], fun i => if i = 0 then 7 else 0⟩) ?_ (.finish _ [] [] rfl rfl rfl)
  refine Relation.ReflTransGen.tail (b := ⟨1, [], true, [.busy 0], fun _ => 0⟩) ?_ (.write _ [] [] 0 rfl)
  refine Relation.ReflTransGen.tail (b := ⟨1, [0], true, [.idle], fun _ => 0⟩) ?_ (.take _ [] [] 0 [] rfl rfl)
  refine Relation.ReflTransGen.tail (b := ⟨1, [0], false, [.idle], fun _ => 0⟩) ?_ (.close ⟨1, [0], false, [.idle], fun _ => 0⟩ rfl rfl)
  exact Relation.ReflTransGen.single (.send _ (by decide) (by decide) rfl)

end Scigo.Hist
