import Verif.Settings.Model
import Mathlib.Tactic.Common
import Mathlib.Data.List.Nodup

/-!
# Properties of the parameters of pipelines

**C230** (what `GetParams` of a pipeline reports), **C231** (what `SetParams` of a pipeline does).
-/

namespace Scigo.Settings

variable {W : Type _}

/-! ## Specification -/

/-- the parameters of a map are the entries of the list that stands for it -/
def Has (s : PStep W) (k : List Char) (v : PipeVal W) : Prop := ∃ l, s.params = some l ∧ (k, v) ∈ l

/-- a Go map has one value per key -/
def IsMap (s : PStep W) : Prop := ∀ l, s.params = some l → (l.map Prod.fst).Nodup

/-- no two different entries get the same name -/
def Unambiguous (p : PPipe W) : Prop :=
  ∀ s ∈ p.steps, ∀ s' ∈ p.steps, ∀ k v k' v', Has s k v → Has s' k' v' → stepKey s.name k = stepKey s'.name k' → v = v'

/-! ## Helpers -/

theorem foldl_put_not {ι : Type _} (l : List ι) (key : ι → List Char) (val : ι → PipeVal W) (m : List Char → Option (PipeVal W))
    (x : List Char) (h : ∀ e ∈ l, key e ≠ x) : l.foldl (fun m e => put m (key e) (val e)) m x = m x := by
  induction l generalizing m with
  | nil => rfl
  | cons a l ih =>
    rw [List.foldl_cons, ih _ (fun e he => h e (List.mem_cons_of_mem _ he)), put,
      if_neg (fun e => h a (List.mem_cons_self ..) e.symm)]

theorem foldl_put_some {ι : Type _} (l : List ι) (key : ι → List Char) (val : ι → PipeVal W) (m : List Char → Option (PipeVal W))
    (x : List Char) (v : PipeVal W) (h : ∀ e ∈ l, key e = x → val e = v) (h2 : (∃ e ∈ l, key e = x) ∨ m x = some v) :
    l.foldl (fun m e => put m (key e) (val e)) m x = some v := by
  induction l generalizing m with
  | nil =>
    rcases h2 with ⟨e, he, _⟩ | h2
    · simp at he
    · exact h2
  | cons a l ih =>
    rw [List.foldl_cons]
    refine ih _ (fun e he => h e (List.mem_cons_of_mem _ he)) ?_
    by_cases ha : key a = x
    · right
      rw [put, if_pos ha.symm, h a (List.mem_cons_self ..) ha]
    · rcases h2 with ⟨e, he, hx⟩ | h2
      · rcases List.mem_cons.1 he with rfl | he
        · exact absurd hx ha
        · exact Or.inl ⟨e, he, hx⟩
      · right
        rw [put, if_neg (fun e => ha e.symm), h2]

/-- all writes of the second loop in the order in which they happen -/
def writes (p : PPipe W) : List (List Char × PipeVal W) :=
  p.steps.flatMap fun s => (s.params.getD []).map fun e => (stepKey s.name e.1, e.2)

theorem get_eq (p : PPipe W) : p.get = (writes p).foldl (fun m e => put m e.1 e.2)
    (put (put (put (fun _ => none) "steps".toList .steps) "memory".toList .memory) "verbose".toList (.bool p.verbose)) := by
  unfold PPipe.get writes
  generalize put (put (put (fun _ => none) "steps".toList PipeVal.steps) "memory".toList .memory) "verbose".toList
    (.bool p.verbose) = m
  induction p.steps generalizing m with
  | nil => rfl
  | cons s l ih =>
    rw [List.foldl_cons, List.flatMap_cons, List.foldl_append, ih]
    congr 1
    unfold putStep
    rw [List.foldl_map]

theorem mem_writes (p : PPipe W) (x : List Char) (v : PipeVal W) :
    (x, v) ∈ writes p ↔ ∃ s ∈ p.steps, ∃ k, Has s k v ∧ x = stepKey s.name k := by
  unfold writes
  simp only [List.mem_flatMap, List.mem_map, Prod.mk.injEq, Prod.exists]
  constructor
  · rintro ⟨s, hs, k, v', hk, rfl, rfl⟩
    refine ⟨s, hs, k, ?_, rfl⟩
    cases hp : s.params with
    | none => rw [hp] at hk; simp at hk
    | some l => rw [hp] at hk; exact ⟨l, hp, hk⟩
  · rintro ⟨s, hs, k, ⟨l, hl, hk⟩, rfl⟩
    exact ⟨s, hs, k, v, by rw [hl]; exact hk, rfl, rfl⟩

/-- two underscores in a row -/
theorem stepKey_ne (name key : List Char) (x : List Char) (hx : '_' ∉ x) : stepKey name key ≠ x := by
  rintro rfl
  apply hx
  simp [stepKey]

/-- names without underscores can be read off -/
theorem stepKey_inj (n n' k k' : List Char) (hn : '_' ∉ n) (hn' : '_' ∉ n') (h : stepKey n k = stepKey n' k') :
    n = n' ∧ k = k' := by
  induction n generalizing n' with
  | nil =>
    cases n' with
    | nil => simpa [stepKey] using h
    | cons c n' =>
      simp only [stepKey, List.nil_append, List.cons_append, List.cons.injEq] at h
      exact absurd (h.1 ▸ List.mem_cons_self ..) hn'
  | cons c n ih =>
    cases n' with
    | nil =>
      simp only [stepKey, List.nil_append, List.cons_append, List.cons.injEq] at h
      exact absurd (h.1 ▸ List.mem_cons_self ..) hn
    | cons c' n' =>
      simp only [stepKey, List.cons_append, List.cons.injEq] at h
      obtain ⟨rfl, h⟩ := h
      obtain ⟨rfl, rfl⟩ := ih n' (fun m => hn (List.mem_cons_of_mem _ m)) (fun m => hn' (List.mem_cons_of_mem _ m)) h
      exact ⟨rfl, rfl⟩

/-! ## C230 -/

/-- **C230** Whatever the steps are called, `steps`, `memory` and `verbose` report the pipeline's own values; every other name
reported is `name__key` for a step and one of its parameters, with the value of such a parameter. -/
theorem pipe_own_params (p : PPipe W) :
    p.get "steps".toList = some .steps ∧ p.get "memory".toList = some .memory ∧ p.get "verbose".toList = some (.bool p.verbose) ∧
    ∀ x v, p.get x = some v → x = "steps".toList ∨ x = "memory".toList ∨ x = "verbose".toList ∨
      ∃ s ∈ p.steps, ∃ k, Has s k v ∧ x = stepKey s.name k := by
  have key : ∀ x, '_' ∉ x → ∀ e ∈ writes p, e.1 ≠ x := by
    rintro x hx ⟨a, v⟩ he
    obtain ⟨s, _, k, _, rfl⟩ := (mem_writes p a v).1 he
    exact stepKey_ne _ _ _ hx
  refine ⟨?_, ?_, ?_, ?_⟩
  · rw [get_eq, foldl_put_not _ _ _ _ _ (key _ (by decide))]
    simp [put]
  · rw [get_eq, foldl_put_not _ _ _ _ _ (key _ (by decide))]
    simp [put]
  · rw [get_eq, foldl_put_not _ _ _ _ _ (key _ (by decide))]
    simp [put]
  · intro x v h
    rw [get_eq] at h
    have aux : ∀ (l : List (List Char × PipeVal W)) (m : List Char → Option (PipeVal W)),
        l.foldl (fun m e => put m e.1 e.2) m x = some v → (x, v) ∈ l ∨ m x = some v := by
      intro l
      induction l with
      | nil => intro m h; exact Or.inr h
      | cons a l ih =>
        intro m h
        rcases ih _ h with h1 | h1
        · exact Or.inl (List.mem_cons_of_mem _ h1)
        · clear h
          rename' h1 => h
          unfold put at h
          dsimp only at h
          split at h
          · rename_i hx
            left
            obtain ⟨a, b⟩ := a
            simp only [Option.some.injEq] at h
            dsimp only at hx
            rw [hx, h]
            exact List.mem_cons_self ..
          · exact Or.inr h
    rcases aux _ _ h with h | h
    · exact Or.inr (Or.inr (Or.inr ((mem_writes p x v).1 h)))
    · unfold put at h
      split at h
      · rename_i h'; exact Or.inr (Or.inr (Or.inl h'))
      · split at h
        · rename_i h'; exact Or.inr (Or.inl h')
        · split at h
          · rename_i h'; exact Or.inl h'
          · simp at h

/-- **C230** A step's parameter is reported under `name__key` if no other parameter of a step has the same name in this sense. -/
theorem pipe_step_params (p : PPipe W) (hu : Unambiguous p) (s : PStep W) (hs : s ∈ p.steps) (k : List Char) (v : PipeVal W)
    (h : Has s k v) : p.get (stepKey s.name k) = some v := by
  rw [get_eq]
  refine foldl_put_some _ _ _ _ _ _ ?_ (Or.inl ⟨_, (mem_writes p _ v).2 ⟨s, hs, k, h, rfl⟩, rfl⟩)
  rintro ⟨a, v'⟩ he hx
  obtain ⟨s', hs', k', h', rfl⟩ := (mem_writes p a v').1 he
  exact hu s' hs' s hs k' v' k v h' h hx

/-- **C230** Distinct step names without underscores are enough for that. -/
theorem pipe_unambiguous (p : PPipe W) (hd : (p.steps.map (·.name)).Nodup) (hn : ∀ s ∈ p.steps, '_' ∉ s.name)
    (hm : ∀ s ∈ p.steps, IsMap s) : Unambiguous p := by
  intro s hs s' hs' k v k' v' h h' e
  obtain ⟨e1, rfl⟩ := stepKey_inj _ _ _ _ (hn s hs) (hn s' hs') e
  have : s = s' := List.inj_on_of_nodup_map hd hs hs' e1
  subst this
  obtain ⟨l, hl, h⟩ := h
  obtain ⟨l', hl', h'⟩ := h'
  rw [hl] at hl'
  obtain rfl := Option.some.inj hl'
  have := List.inj_on_of_nodup_map (hm s hs l hl) h h' rfl
  exact (Prod.mk.inj this).2

/-- two steps with different names, `a` and `a__b` -/
def exPipe : PPipe Nat := ⟨[⟨"a".toList, some [("b__c".toList, .other 1)]⟩, ⟨"a__b".toList, some [("c".toList, .other 2)]⟩], false⟩

/-- **C230** Without it a parameter can be hidden although all steps have different names: of the parameters `b__c` of the step `a`
and `c` of the step `a__b` only the second is reported. -/
theorem pipe_params_collide :
    ∃ (p : PPipe Nat), (p.steps.map (·.name)).Nodup ∧ (∀ s ∈ p.steps, IsMap s) ∧
      ∃ s ∈ p.steps, ∃ k v, Has s k (.other v) ∧ ∃ w, w ≠ v ∧ p.get (stepKey s.name k) = some (.other w) := by
  refine ⟨exPipe, by decide, ?_, ⟨"a".toList, some [("b__c".toList, .other 1)]⟩, by simp [exPipe], "b__c".toList, 1, ⟨_, rfl, by simp⟩, 2,
    by decide, ?_⟩
  · intro s hs l hl
    simp only [exPipe, List.mem_cons, List.not_mem_nil, or_false] at hs
    rcases hs with rfl | rfl <;> obtain rfl := Option.some.inj hl <;> decide
  · simp [PPipe.get, exPipe, putStep, put, stepKey]

/-! ## C231 -/

/-- **C231** (the part that holds) `SetParams` of a pipeline changes `verbose` if given a boolean of that name; nothing else: every
other name reports the same as before. -/
theorem pipe_set_partial (p : PPipe W) (params : List Char → Option (PipeVal W)) :
    (∀ b, params "verbose".toList = some (.bool b) → (p.set params).get "verbose".toList = some (.bool b)) ∧
    (∀ x, x ≠ "verbose".toList → (p.set params).get x = p.get x) ∧
    (p.set params).steps = p.steps ∧
    ((∀ b, params "verbose".toList ≠ some (.bool b)) → p.set params = p) := by
  have hst : (p.set params).steps = p.steps := by
    unfold PPipe.set
    split <;> rfl
  refine ⟨fun b hb => ?_, fun x hx => ?_, hst, fun h => ?_⟩
  · rw [(pipe_own_params _).2.2.1]
    unfold PPipe.set
    rw [hb]
  · have hw : writes (p.set params) = writes p := by unfold writes; rw [hst]
    rw [get_eq, get_eq, hw]
    generalize writes p = l
    have h0 : ∀ b, put (put (put (fun _ => none) "steps".toList (PipeVal.steps : PipeVal W)) "memory".toList .memory) "verbose".toList
        (.bool b) x = put (put (fun _ => none) "steps".toList .steps) "memory".toList .memory x := fun b => if_neg hx
    have aux : ∀ (m m' : List Char → Option (PipeVal W)), m x = m' x →
        l.foldl (fun m e => put m e.1 e.2) m x = l.foldl (fun m e => put m e.1 e.2) m' x := by
      induction l with
      | nil => intro m m' h; exact h
      | cons a l ih =>
        intro m m' h
        refine ih _ _ ?_
        simp only [put, h]
    exact aux _ _ ((h0 _).trans (h0 _).symm)
  · unfold PPipe.set
    split
    · rename_i b hb; exact absurd hb (h b)
    · rfl

/-- one step with a parameter -/
def exKnn : PPipe Nat := ⟨[⟨"knn".toList, some [("k".toList, .other 3)]⟩], false⟩

/-- **C231** is false: setting a step's parameter by the very name under which `GetParams` reports it leaves it as it was, and so does
giving back a changed copy of what `GetParams` returned; no error is reported, `SetParams` has none to report. -/
theorem pipe_set_false :
    ∃ (p : PPipe Nat) (x : List Char) (v w : Nat), v ≠ w ∧ p.get x = some (.other v) ∧
      (p.set (put p.get x (.other w))).get x = some (.other v) := by
  have h : exKnn.get (stepKey "knn".toList "k".toList) = some (.other 3) := by
    refine pipe_step_params exKnn (pipe_unambiguous exKnn (by decide) ?_ ?_) ⟨"knn".toList, some [("k".toList, .other 3)]⟩
      (by simp [exKnn]) _ _ ⟨_, rfl, by simp⟩
    · intro s hs
      simp only [exKnn, List.mem_cons, List.not_mem_nil, or_false] at hs
      subst hs
      decide
    · intro s hs l hl
      simp only [exKnn, List.mem_cons, List.not_mem_nil, or_false] at hs
      subst hs
      obtain rfl := Option.some.inj hl
      decide
  exact ⟨exKnn, _, 3, 5, by decide, h, ((pipe_set_partial exKnn _).2.1 _ (by decide)).trans h⟩

/-- turning on messages -/
example : ((exPipe.set fun x => if x = "verbose".toList then some (.bool true) else none).get "verbose".toList) =
    some (.bool true) := (pipe_set_partial _ _).1 true (if_pos rfl)

end Scigo.Settings
