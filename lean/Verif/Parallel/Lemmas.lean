import Verif.Parallel.Model
import Mathlib.Data.List.Basic
import Mathlib.Data.List.Range
import Mathlib.Tactic.Ring
import Mathlib.Tactic.Linarith

namespace Scigo.Parallel

theorem workers_pos {items cpus : Nat} (h : items ≠ 0) (hc : 1 ≤ cpus) :
    1 ≤ numWorkers items cpus := by
  unfold numWorkers; split <;> omega

theorem workers_le_cpus (items cpus : Nat) : numWorkers items cpus ≤ cpus := by
  unfold numWorkers; split <;> omega

theorem items_le_mul {items cpus : Nat} (h : items ≠ 0) (hc : 1 ≤ cpus) :
    items ≤ numWorkers items cpus * chunkSize items cpus := by
  have hw := workers_pos h hc
  unfold chunkSize
  set w := numWorkers items cpus
  have h1 := Nat.div_add_mod (items + w - 1) w
  have h2 := Nat.mod_lt (items + w - 1) (show 0 < w by omega)
  omega

theorem range_append_range' {a b : Nat} (h : a ≤ b) :
    List.range a ++ List.range' a (b - a) = List.range b := by
  rw [List.range_eq_range', List.range_eq_range', List.range'_append_1']
  · congr 1; omega
  where
  List.range'_append_1' : List.range' 0 a ++ List.range' a (b - a) = List.range' 0 (a + (b - a)) := by
    have := @List.range'_append_1 0 a (b - a)
    simpa using this

theorem workerRange_eq (items cpus i : Nat) :
    workerRange items cpus i =
      if min (i * chunkSize items cpus + chunkSize items cpus) items ≤ i * chunkSize items cpus
      then none
      else some (i * chunkSize items cpus,
        min (i * chunkSize items cpus + chunkSize items cpus) items) := by
  unfold workerRange
  generalize i * chunkSize items cpus = s
  generalize chunkSize items cpus = c
  have : (if s + c > items then items else s + c) = min (s + c) items := by
    split <;> omega
  simp only [this, ge_iff_le]

theorem prefix_flatMap (items cpus n : Nat) :
    ((List.range n).filterMap (workerRange items cpus)).flatMap
        (fun r => List.range' r.1 (r.2 - r.1))
      = List.range (min (n * chunkSize items cpus) items) := by
  induction n with
  | zero => simp
  | succ n ih =>
    rw [List.range_succ, List.filterMap_append, List.flatMap_append, ih]
    have hexp : (n + 1) * chunkSize items cpus = n * chunkSize items cpus + chunkSize items cpus := by ring
    rw [hexp]
    have key : (List.filterMap (workerRange items cpus) [n]).flatMap
        (fun r => List.range' r.1 (r.2 - r.1)) =
        List.range' (min (n * chunkSize items cpus) items)
          (min (n * chunkSize items cpus + chunkSize items cpus) items
            - min (n * chunkSize items cpus) items) := by
      rw [List.filterMap_cons, List.filterMap_nil, workerRange_eq]
      generalize n * chunkSize items cpus = s
      generalize chunkSize items cpus = c
      by_cases h : min (s + c) items ≤ s
      · have h0 : min (s + c) items - min s items = 0 := by omega
        simp only [h, if_true, List.flatMap_nil, h0, List.range'_zero]
      · have h0 : min s items = s := by omega
        simp [h, h0]
    rw [key, range_append_range']
    omega

theorem ranges_flatMap (items cpus : Nat) (hc : 1 ≤ cpus) :
    (parallelRanges items cpus).flatMap (fun r => List.range' r.1 (r.2 - r.1))
      = List.range items := by
  unfold parallelRanges
  split
  · next h => simp [h]
  · next h =>
    rw [prefix_flatMap]
    have := items_le_mul h hc
    congr 1; omega

theorem ranges_bounds (items cpus : Nat) :
    ∀ r ∈ parallelRanges items cpus, r.1 < r.2 ∧ r.2 ≤ items := by
  intro r hr
  unfold parallelRanges at hr
  split at hr
  · simp at hr
  · rw [List.mem_filterMap] at hr
    obtain ⟨i, _, h⟩ := hr
    rw [workerRange_eq] at h
    split at h
    · simp at h
    · simp only [Option.some.injEq] at h
      subst h
      simp only
      omega

theorem ranges_length (items cpus : Nat) : (parallelRanges items cpus).length ≤ cpus := by
  unfold parallelRanges
  split
  · simp
  · refine le_trans (List.length_filterMap_le _ _) ?_
    simpa using workers_le_cpus items cpus

theorem ranges_pairwise (items cpus : Nat) :
    (parallelRanges items cpus).Pairwise (fun r s => r.2 ≤ s.1) := by
  unfold parallelRanges
  split
  · simp
  · rw [List.pairwise_filterMap]
    refine List.Pairwise.imp ?_ (List.pairwise_lt_range)
    intro i j hij r hr s hs
    have e : workerRange items cpus i = some r := hr
    have e' : workerRange items cpus j = some s := hs
    rw [workerRange_eq] at e e'
    have hm : (i + 1) * chunkSize items cpus ≤ j * chunkSize items cpus :=
      Nat.mul_le_mul_right _ hij
    have hm' : (i + 1) * chunkSize items cpus = i * chunkSize items cpus + chunkSize items cpus := by ring
    rw [hm'] at hm
    generalize i * chunkSize items cpus = a at *
    generalize j * chunkSize items cpus = b at *
    split at e
    · simp at e
    · split at e'
      · simp at e'
      · simp only [Option.some.injEq] at e e'
        subst e; subst e'
        simp only
        omega

/-! ### schedules -/

variable {β : Type _}

/-- the actions of a program that touch cell `k`, in order -/
def sub (k : Nat) (p : List (Action β)) : List (β → β) :=
  p.filterMap (fun a => if a.idx = k then some a.f else none)

/-- the functions applied one after another -/
def applyAll (fs : List (β → β)) (b : β) : β := fs.foldl (fun b f => f b) b

/-- programs of all goroutines that have not finished, spawned or not -/
def progs (body : Nat → List (β → β)) (c : Config β) : List (List (Action β)) :=
  c.pending.map (callActions body) ++ c.workers

/-- no two workers act on the same item -/
def Disj (ps : List (List (Action β))) : Prop :=
  ps.Pairwise (fun p q => ∀ k, sub k p = [] ∨ sub k q = [])

theorem Disj.perm {ps qs : List (List (Action β))} (h : ps.Perm qs) (d : Disj ps) : Disj qs := by
  refine (h.pairwise_iff ?_).1 d
  intro p q hpq k
  exact (hpq k).symm

theorem flatten_perm_of_disj {γ : Type _} {l l' : List (List γ)} (h : l.Perm l')
    (d : l.Pairwise (fun a b => a = [] ∨ b = [])) : l.flatten = l'.flatten := by
  induction h with
  | nil => rfl
  | cons x h ih =>
    rw [List.pairwise_cons] at d
    simp [ih d.2]
  | swap x y l =>
    rw [List.pairwise_cons, List.pairwise_cons] at d
    rcases d.1 x (by simp) with h | h <;> simp [h]
  | trans h₁ h₂ ih₁ ih₂ =>
    rw [ih₁ d]
    apply ih₂
    refine (h₁.pairwise_iff ?_).1 d
    intro a b hab; exact hab.symm

theorem Disj.map_sub {ps : List (List (Action β))} (d : Disj ps) (k : Nat) :
    (ps.map (sub k)).Pairwise (fun a b => a = [] ∨ b = []) := by
  rw [List.pairwise_map]
  exact d.imp (fun h => h k)

/-- everything still to be done to cell `k` -/
def todo (body : Nat → List (β → β)) (c : Config β) (k : Nat) : List (β → β) :=
  ((progs body c).map (sub k)).flatten

/-- the invariant of the machine -/
structure Inv (body : Nat → List (β → β)) (fin : Memory β) (c : Config β) : Prop where
  disj : Disj (progs body c)
  val : ∀ k, applyAll (todo body c k) (c.mem k) = fin k
  ret : c.returned = true → c.pending = [] ∧ c.workers = []

theorem inv_step {body : Nat → List (β → β)} {fin : Memory β} {c c' : Config β}
    (h : Step body c c') (i : Inv body fin c) : Inv body fin c' := by
  cases h with
  | spawn r rest ws n m =>
    have hp : (progs body ⟨r :: rest, ws, n, m, false⟩).Perm
        (progs body ⟨rest, ws ++ [callActions body r], n + 1, m, false⟩) := by
      simp only [progs, List.map_cons, List.cons_append]
      rw [← List.append_assoc]
      exact (List.perm_append_singleton _ _).symm
    refine ⟨i.disj.perm hp, fun k => ?_, by simp⟩
    rw [← i.val k]
    simp only [todo]
    rw [flatten_perm_of_disj (hp.map _) (i.disj.map_sub k)]
  | work pend A a p B n m =>
    have hsub : ∀ k, sub k p ≠ [] → sub k (a :: p) ≠ [] := by
      intro k hk
      simp only [sub, List.filterMap_cons]
      split <;> simp_all [sub]
    have hsub' : ∀ k, sub k (a :: p) = [] → sub k p = [] := fun k h => by
      by_contra h'; exact hsub k h' h
    have hd := i.disj
    simp only [progs, Disj] at hd
    rw [List.pairwise_append, List.pairwise_append, List.pairwise_cons] at hd
    obtain ⟨h1, ⟨h2, ⟨h3, h4⟩, h5⟩, h6⟩ := hd
    refine ⟨?_, fun k => ?_, by simp⟩
    · simp only [progs, Disj]
      rw [List.pairwise_append, List.pairwise_append, List.pairwise_cons]
      refine ⟨h1, ⟨h2, ⟨fun b hb k => (h3 b hb k).imp (hsub' k) id, h4⟩, ?_⟩, ?_⟩
      · intro x hx y hy k
        rcases List.mem_cons.1 hy with rfl | hy
        · exact (h5 x hx (a :: y) (by simp) k).imp id (hsub' k)
        · exact h5 x hx y (by simp [hy]) k
      · intro x hx y hy k
        rcases List.mem_append.1 hy with hy | hy
        · exact h6 x hx y (by simp [hy]) k
        · rcases List.mem_cons.1 hy with rfl | hy
          · exact (h6 x hx (a :: y) (by simp) k).imp id (hsub' k)
          · exact h6 x hx y (by simp [hy]) k
    · rw [← i.val k]
      simp only [todo, progs, List.map_append, List.map_cons, List.flatten_append, List.flatten_cons]
      by_cases hk : k = a.idx
      · subst hk
        have hne : sub a.idx (a :: p) = a.f :: sub a.idx p := by simp [sub]
        have hA : (A.map (sub a.idx)).flatten = [] := by
          rw [List.flatten_eq_nil_iff]
          intro l hl
          obtain ⟨x, hx, rfl⟩ := List.mem_map.1 hl
          rcases h5 x hx (a :: p) (by simp) a.idx with h | h
          · exact h
          · simp [hne] at h
        have hP : ((pend.map (callActions body)).map (sub a.idx)).flatten = [] := by
          rw [List.flatten_eq_nil_iff]
          intro l hl
          obtain ⟨x, hx, rfl⟩ := List.mem_map.1 hl
          rcases h6 x hx (a :: p) (by simp) a.idx with h | h
          · exact h
          · simp [hne] at h
        rw [hA, hP, hne]
        simp [applyAll, Action.run]
      · have : sub k (a :: p) = sub k p := by
          simp [sub, Ne.symm hk]
        rw [this]
        simp [Action.run, hk]
  | done pend A B n m =>
    have hd := i.disj
    simp only [progs, Disj] at hd ⊢
    have hsl : List.Sublist (pend.map (callActions body) ++ (A ++ B))
        (pend.map (callActions body) ++ (A ++ [] :: B)) := by
      apply List.Sublist.append_left
      apply List.Sublist.append_left
      exact List.sublist_cons_self _ _
    refine ⟨hd.sublist hsl, fun k => ?_, by simp⟩
    rw [← i.val k]
    simp [todo, progs, sub]
  | wait m =>
    exact ⟨i.disj, i.val, by simp⟩

theorem inv_reaches {body : Nat → List (β → β)} {fin : Memory β} {c c' : Config β}
    (h : Reaches body c c') (i : Inv body fin c) : Inv body fin c' := by
  induction h with
  | refl => exact i
  | tail _ hs ih => exact inv_step hs ih

theorem sub_callActions (body : Nat → List (β → β)) (r : Nat × Nat) (k : Nat) :
    sub k (callActions body r) = if r.1 ≤ k ∧ k < r.2 then body k else [] := by
  obtain ⟨s, e⟩ := r
  simp only [callActions]
  generalize hn : e - s = n
  induction n generalizing s with
  | zero =>
    have : ¬ (s ≤ k ∧ k < e) := by omega
    simp [this, sub]
  | succ n ih =>
    rw [List.range'_succ, List.flatMap_cons]
    simp only [sub, List.filterMap_append] at *
    rw [ih (s + 1) (by omega)]
    by_cases hk : s = k
    · subst hk
      have h1 : ¬ (s + 1 ≤ s ∧ s < e) := by omega
      have h2 : s ≤ s ∧ s < e := by omega
      rw [if_neg h1, if_pos h2]
      simp [List.filterMap_map, Function.comp_def]
    · have : List.filterMap (fun a : Action β => if a.idx = k then some a.f else none)
          (List.map (fun f => (⟨s, f⟩ : Action β)) (body s)) = [] := by
        simp [List.filterMap_map, Function.comp_def, hk]
      rw [this, List.nil_append]
      by_cases h2 : s + 1 ≤ k ∧ k < e
      · rw [if_pos h2, if_pos (by omega)]
      · rw [if_neg h2, if_neg (by omega)]

theorem sequential_at (body : Nat → List (β → β)) (n : Nat) (m : Memory β) (k : Nat) :
    sequential body n m k = if k < n then applyAll (body k) (m k) else m k := by
  unfold sequential
  induction n with
  | zero => simp
  | succ n ih =>
    rw [List.range_succ, List.foldl_append]
    simp only [List.foldl_cons, List.foldl_nil]
    generalize List.foldl _ m (List.range n) = m' at *
    have aux : ∀ (fs : List (β → β)) (m' : Memory β) (k : Nat),
        (fs.foldl (fun m f => fun i => if i = n then f (m i) else m i) m') k
          = if k = n then applyAll fs (m' k) else m' k := by
      intro fs
      induction fs with
      | nil => intro m' k; simp [applyAll]
      | cons f fs ihf =>
        intro m' k
        rw [List.foldl_cons, ihf]
        by_cases h : k = n
        · simp [h, applyAll]
        · simp [h]
    rw [aux, ih]
    by_cases h : k = n
    · subst h; simp
    · rw [if_neg h]
      by_cases h2 : k < n
      · rw [if_pos h2, if_pos (by omega)]
      · rw [if_neg h2, if_neg (by omega)]

theorem inv_ranges (body : Nat → List (β → β)) (items : Nat) (rs : List (Nat × Nat))
    (hf : rs.flatMap (fun r => List.range' r.1 (r.2 - r.1)) = List.range items)
    (hp : rs.Pairwise (fun r s => r.2 ≤ s.1)) (m : Memory β) (n : Nat) :
    Inv body (sequential body items m) ⟨rs, [], n, m, false⟩ := by
  refine ⟨?_, fun k => ?_, by simp⟩
  · simp only [progs, List.append_nil, Disj, List.pairwise_map]
    refine hp.imp ?_
    intro r s hrs k
    rw [sub_callActions, sub_callActions]
    by_cases h : r.1 ≤ k ∧ k < r.2
    · right; rw [if_neg (by omega)]
    · left; rw [if_neg h]
  · rw [sequential_at]
    have e : todo body ⟨rs, [], n, m, false⟩ k
        = (rs.flatMap
            (fun r => List.range' r.1 (r.2 - r.1))).flatMap
              (fun i => if i = k then body k else []) := by
      simp only [todo, progs, List.append_nil, List.map_map, List.flatMap_assoc]
      rw [← List.flatMap_def]
      congr 1
      funext r
      simp only [Function.comp]
      rw [sub_callActions]
      have hr : ∀ n s, (List.range' s n).flatMap (fun i => if i = k then body k else [])
          = if s ≤ k ∧ k < s + n then body k else [] := by
        intro n
        induction n with
        | zero => intro s; rw [if_neg (by omega)]; simp
        | succ n ih =>
          intro s
          rw [List.range'_succ, List.flatMap_cons, ih]
          by_cases h : s = k
          · subst h; rw [if_pos rfl, if_neg (by omega), if_pos (by omega)]; simp
          · rw [if_neg h]
            by_cases h2 : s + 1 ≤ k ∧ k < s + 1 + n
            · rw [if_pos h2, if_pos (by omega)]; simp
            · rw [if_neg h2, if_neg (by omega)]; simp
      rw [hr]
      by_cases h : r.1 ≤ k ∧ k < r.2
      · rw [if_pos h, if_pos (by omega)]
      · rw [if_neg h, if_neg (by omega)]
    rw [e, hf]
    have hr : ∀ n, (List.range n).flatMap (fun i => if i = k then body k else [])
        = if k < n then body k else [] := by
      intro n
      induction n with
      | zero => simp
      | succ n ih =>
        rw [List.range_succ, List.flatMap_append, ih]
        by_cases h : n = k
        · subst h; simp
        · by_cases h2 : k < n
          · rw [if_pos h2, if_pos (by omega)]; simp [h]
          · rw [if_neg h2, if_neg (by omega)]; simp [h]
    rw [hr]
    by_cases h : k < items <;> simp [h, applyAll]

theorem inv_start (body : Nat → List (β → β)) (items cpus : Nat) (hc : 1 ≤ cpus) (m : Memory β) :
    Inv body (sequential body items m) (Config.start items cpus m) :=
  inv_ranges body items _ (ranges_flatMap items cpus hc) (ranges_pairwise items cpus) m 0

theorem inv_returned {body : Nat → List (β → β)} {fin : Memory β} {c : Config β} (i : Inv body fin c)
    (hret : c.returned = true) : c.mem = fin := by
  obtain ⟨h1, h2⟩ := i.ret hret
  funext k
  have := i.val k
  simpa [todo, progs, h1, h2, applyAll] using this

theorem returned_mem (body : Nat → List (β → β))
    (items cpus : Nat) (hc : 1 ≤ cpus) (m : Memory β) (c : Config β)
    (hr : Reaches body (Config.start items cpus m) c) (hret : c.returned = true) :
    c.mem = sequential body items m := by
  have i := inv_reaches hr (inv_start body items cpus hc m)
  obtain ⟨h1, h2⟩ := i.ret hret
  funext k
  have := i.val k
  simpa [todo, progs, h1, h2, applyAll] using this

theorem wg_eq {body : Nat → List (β → β)} {c c' : Config β} (h : Reaches body c c')
    (e : c.wg = c.workers.length) : c'.wg = c'.workers.length := by
  induction h with
  | refl => exact e
  | tail _ hs ih => cases hs <;> simp_all <;> omega

theorem progress (body : Nat → List (β → β))
    (items cpus : Nat) (m : Memory β) (c : Config β)
    (hr : Reaches body (Config.start items cpus m) c) (hret : c.returned = false) :
    ∃ c', Step body c c' := by
  have hw := wg_eq hr (by simp [Config.start])
  obtain ⟨pend, ws, n, mem, ret⟩ := c
  simp only at hret hw
  subst hret hw
  match pend, ws with
  | r :: rest, ws => exact ⟨_, .spawn ..⟩
  | [], [] => exact ⟨_, .wait ..⟩
  | [], [] :: ws => exact ⟨_, .done [] [] ws ws.length mem⟩
  | [], (a :: p) :: ws => exact ⟨_, .work [] [] a p ws _ mem⟩

/-- steps the workers have left -/
def wsize (ws : List (List (Action β))) : Nat := (ws.map (fun p => p.length + 1)).sum

/-- steps the whole machine has left -/
def measure (body : Nat → List (β → β)) (c : Config β) : Nat :=
  (c.pending.map (fun r => (callActions body r).length + 2)).sum + wsize c.workers
    + (if c.returned then 0 else 1)

theorem measure_decreases (body : Nat → List (β → β)) {c c' : Config β} (h : Step body c c') :
    measure body c' < measure body c := by
  cases h <;> simp [measure, wsize] <;> omega

end Scigo.Parallel
