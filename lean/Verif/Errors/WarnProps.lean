import Verif.Errors.Warn

/-!
# Properties of the warnings (C212)
-/

namespace Scigo.Warn

variable {H W : Type}

/-! ## Specification -/

/-- what a list of calls, one after another, delivers: the handler given last, the zerolog function first if there is one -/
def spec : Option H × Option H → List (Op H W) → List (H × W)
  | _, [] => []
  | (_, z), .setHandler h :: q => spec (h, z) q
  | (d, _), .setZerolog z :: q => spec (d, z) q
  | (d, none), .warn w :: q => (match d with | some h => [(h, w)] | none => []) ++ spec (d, none) q
  | (d, some z), .warn w :: q => (z, w) :: spec (d, some z) q

/-- the handlers after a list of calls -/
def after : Option H × Option H → List (Op H W) → Option H × Option H
  | e, [] => e
  | (_, z), .setHandler h :: q => after (h, z) q
  | (d, _), .setZerolog z :: q => after (d, z) q
  | e, .warn _ :: q => after e q

theorem spec_append (e : Option H × Option H) (l r : List (Op H W)) : spec e (l ++ r) = spec e l ++ spec (after e l) r := by
  induction l generalizing e with
  | nil => rfl
  | cons x l ih =>
    obtain ⟨d, z⟩ := e
    cases x with
    | setHandler h => simpa [spec, after] using ih (h, z)
    | setZerolog h => simpa [spec, after] using ih (d, h)
    | warn w =>
      cases z with
      | none => simp [spec, after, ih (d, none)]
      | some z => simp [spec, after, ih (d, some z)]

theorem after_append (e : Option H × Option H) (l r : List (Op H W)) : after e (l ++ r) = after (after e l) r := by
  induction l generalizing e with
  | nil => rfl
  | cons x l ih =>
    obtain ⟨d, z⟩ := e
    cases x <;> simp [after, ih]

/-- the calls goroutine `i` has made -/
def made (s : St H W) (i : Nat) : List (Op H W) := (s.calls.filter (fun c => decide (c.1 = i))).map (·.2)

/-! ## Invariant -/

structure Inv (dflt : H) (progs : List (List (Op H W))) (s : St H W) : Prop where
  log : s.delivered = spec (some dflt, none) (s.calls.map (·.2))
  vars : (s.handler, s.zerolog) = after (some dflt, none) (s.calls.map (·.2))
  len : s.threads.length = progs.length
  prog : ∀ (i : Nat) (t : Thread H W), s.threads[i]? = some t → progs[i]? = some (made s i ++ t.todo)
  own : ∀ (i : Nat) (t : Thread H W), s.threads[i]? = some t → (t.inside.isSome = true ↔ s.owner = some i)
  range : ∀ i, s.owner = some i → i < s.threads.length

theorem get_set (l : List (Thread H W)) (i j : Nat) (x : Thread H W) (h : i < l.length) : (l.set i x)[j]? = if j = i then some x else l[j]? := by
  rw [List.getElem?_set]
  by_cases e : j = i
  · subst e; simp [h]
  · simp [e, Ne.symm e]

theorem lt_of {l : List (Thread H W)} {i : Nat} {x : Thread H W} (h : l[i]? = some x) : i < l.length := (List.getElem?_eq_some_iff.1 h).1

theorem made_snoc (l : List (Nat × Op H W)) (i j : Nat) (o : Op H W) :
    ((l ++ [(i, o)]).filter (fun c => decide (c.1 = j))).map (·.2) =
      (l.filter (fun c => decide (c.1 = j))).map (·.2) ++ if j = i then [o] else [] := by
  rw [List.filter_append, List.map_append]
  congr 1
  by_cases h : j = i
  · subst h; simp
  · simp [h, Ne.symm h]

/-- one goroutine makes its next call -/
theorem prog_step {dflt : H} {progs : List (List (Op H W))} {s : St H W} (hi : Inv dflt progs s) {i : Nat} {t : Thread H W} {o : Op H W}
    {q : List (Op H W)} (ht : s.threads[i]? = some t) (htodo : t.todo = o :: q) (x : Option (List (Op H W))) (s' : St H W)
    (h1 : s'.threads = s.threads.set i ⟨q, x⟩) (h2 : s'.calls = s.calls ++ [(i, o)]) :
    s'.threads.length = progs.length ∧
    ∀ (j : Nat) (u : Thread H W), s'.threads[j]? = some u → progs[j]? = some (made s' j ++ u.todo) := by
  refine ⟨by rw [h1, List.length_set, hi.len], fun j u hu => ?_⟩
  rw [h1, get_set _ _ _ _ (lt_of ht)] at hu
  unfold made
  rw [h2, made_snoc]
  by_cases hj : j = i
  · subst hj
    rw [if_pos rfl] at hu
    injection hu with hu
    subst hu
    have := hi.prog j t ht
    rw [htodo] at this
    simpa [made, List.append_assoc] using this
  · rw [if_neg hj] at hu
    have := hi.prog j u hu
    simpa [hj, made] using this

theorem inv_step {acts : H → W → List (Op H W)} {dflt : H} {progs : List (List (Op H W))} {s s' : St H W} (hi : Inv dflt progs s) (hs : Step acts s s') :
    Inv dflt progs s' := by
  cases hs with
  | setHandler i t h q ho ht hin htodo =>
    obtain ⟨p1, p2⟩ := prog_step hi ht htodo none
      { s with handler := h, threads := s.threads.set i ⟨q, none⟩, calls := s.calls ++ [(i, Op.setHandler h)] } rfl rfl
    refine ⟨?_, ?_, p1, p2, ?_, ?_⟩
    · show s.delivered = spec (some dflt, none) ((s.calls ++ [(i, Op.setHandler h)]).map Prod.snd)
      rw [List.map_append, spec_append, ← hi.log]; simp [spec]
    · show (h, s.zerolog) = after (some dflt, none) ((s.calls ++ [(i, Op.setHandler h)]).map Prod.snd)
      rw [List.map_append, after_append, ← hi.vars]; simp [after]
    · intro j u hu
      change (s.threads.set i ⟨q, none⟩)[j]? = some u at hu
      rw [get_set _ _ _ _ (lt_of ht)] at hu
      by_cases hj : j = i
      · rw [if_pos hj] at hu; injection hu with hu; subst hu
        change _ ↔ s.owner = some j
        simp [ho]
      · rw [if_neg hj] at hu; exact hi.own j u hu
    · intro j hj; change s.owner = some j at hj; rw [ho] at hj; cases hj
  | setZerolog i t h q ho ht hin htodo =>
    obtain ⟨p1, p2⟩ := prog_step hi ht htodo none
      { s with zerolog := h, threads := s.threads.set i ⟨q, none⟩, calls := s.calls ++ [(i, Op.setZerolog h)] } rfl rfl
    refine ⟨?_, ?_, p1, p2, ?_, ?_⟩
    · show s.delivered = spec (some dflt, none) ((s.calls ++ [(i, Op.setZerolog h)]).map Prod.snd)
      rw [List.map_append, spec_append, ← hi.log]; simp [spec]
    · show (s.handler, h) = after (some dflt, none) ((s.calls ++ [(i, Op.setZerolog h)]).map Prod.snd)
      rw [List.map_append, after_append, ← hi.vars]; simp [after]
    · intro j u hu
      change (s.threads.set i ⟨q, none⟩)[j]? = some u at hu
      rw [get_set _ _ _ _ (lt_of ht)] at hu
      by_cases hj : j = i
      · rw [if_pos hj] at hu; injection hu with hu; subst hu
        change _ ↔ s.owner = some j
        simp [ho]
      · rw [if_neg hj] at hu; exact hi.own j u hu
    · intro j hj; change s.owner = some j at hj; rw [ho] at hj; cases hj
  | warnNone i t w q ho ht hin htodo htar =>
    obtain ⟨p1, p2⟩ := prog_step hi ht htodo none
      { s with threads := s.threads.set i ⟨q, none⟩, calls := s.calls ++ [(i, Op.warn w)] } rfl rfl
    have hz : s.zerolog = none ∧ s.handler = none := by
      unfold St.target at htar
      cases hz : s.zerolog with
      | none => rw [hz] at htar; exact ⟨rfl, htar⟩
      | some z => rw [hz] at htar; cases htar
    refine ⟨?_, ?_, p1, p2, ?_, ?_⟩
    · show s.delivered = spec (some dflt, none) ((s.calls ++ [(i, Op.warn w)]).map Prod.snd)
      rw [List.map_append, spec_append, ← hi.log, ← hi.vars, hz.1, hz.2]; simp [spec]
    · show (s.handler, s.zerolog) = after (some dflt, none) ((s.calls ++ [(i, Op.warn w)]).map Prod.snd)
      rw [List.map_append, after_append, ← hi.vars]; simp [after]
    · intro j u hu
      change (s.threads.set i ⟨q, none⟩)[j]? = some u at hu
      rw [get_set _ _ _ _ (lt_of ht)] at hu
      by_cases hj : j = i
      · rw [if_pos hj] at hu; injection hu with hu; subst hu
        change _ ↔ s.owner = some j
        simp [ho]
      · rw [if_neg hj] at hu; exact hi.own j u hu
    · intro j hj; change s.owner = some j at hj; rw [ho] at hj; cases hj
  | warn i t w q h ho ht hin htodo htar =>
    obtain ⟨p1, p2⟩ := prog_step hi ht htodo (some (acts h w))
      { s with owner := some i, threads := s.threads.set i ⟨q, some (acts h w)⟩, calls := s.calls ++ [(i, Op.warn w)],
               delivered := s.delivered ++ [(h, w)] } rfl rfl
    refine ⟨?_, ?_, p1, p2, ?_, ?_⟩
    · show s.delivered ++ [(h, w)] = spec (some dflt, none) ((s.calls ++ [(i, Op.warn w)]).map Prod.snd)
      rw [List.map_append, spec_append, ← hi.log, ← hi.vars]
      unfold St.target at htar
      cases hz : s.zerolog with
      | none =>
        rw [hz] at htar
        have htar : s.handler = some h := htar
        rw [htar]; simp [spec]
      | some z =>
        rw [hz] at htar
        have htar : some z = some h := htar
        injection htar with htar; subst htar; simp [spec]
    · show (s.handler, s.zerolog) = after (some dflt, none) ((s.calls ++ [(i, Op.warn w)]).map Prod.snd)
      rw [List.map_append, after_append, ← hi.vars]; simp [after]
    · intro j u hu
      change (s.threads.set i ⟨q, some (acts h w)⟩)[j]? = some u at hu
      rw [get_set _ _ _ _ (lt_of ht)] at hu
      change _ ↔ some i = some j
      by_cases hj : j = i
      · rw [if_pos hj] at hu; injection hu with hu; subst hu
        simp [hj]
      · rw [if_neg hj] at hu
        have := hi.own j u hu
        rw [ho] at this
        simp only [Option.some.injEq, Ne.symm hj, iff_false]
        intro h'
        cases this.1 h'
    · intro j hj
      change some i = some j at hj
      injection hj with hj; subst hj
      show i < (s.threads.set i _).length
      rw [List.length_set]; exact lt_of ht
  | leave i t ho ht hin =>
    refine ⟨hi.log, hi.vars, ?_, ?_, ?_, ?_⟩
    · show (s.threads.set i _).length = _
      rw [List.length_set, hi.len]
    · intro j u hu
      change (s.threads.set i ⟨t.todo, none⟩)[j]? = some u at hu
      rw [get_set _ _ _ _ (lt_of ht)] at hu
      by_cases hj : j = i
      · rw [if_pos hj] at hu; injection hu with hu; subst hu; subst hj
        exact hi.prog j t ht
      · rw [if_neg hj] at hu; exact hi.prog j u hu
    · intro j u hu
      change (s.threads.set i ⟨t.todo, none⟩)[j]? = some u at hu
      rw [get_set _ _ _ _ (lt_of ht)] at hu
      change _ ↔ none = some j
      by_cases hj : j = i
      · rw [if_pos hj] at hu; injection hu with hu; subst hu; simp
      · rw [if_neg hj] at hu
        have := hi.own j u hu
        rw [ho] at this
        simp only [Option.some.injEq, Ne.symm hj, iff_false] at this
        simp only [reduceCtorEq, iff_false]; exact this
    · intro j hj; cases hj

theorem inv_start (dflt : H) (progs : List (List (Op H W))) : Inv dflt progs (St.start dflt progs) := by
  refine ⟨rfl, rfl, by simp [St.start], ?_, ?_, ?_⟩
  · intro i t ht
    simp only [St.start, List.getElem?_map] at ht
    cases hp : progs[i]? with
    | none => rw [hp] at ht; cases ht
    | some p => rw [hp] at ht; injection ht with ht; subst ht; rfl
  · intro i t ht
    simp only [St.start, List.getElem?_map] at ht
    cases hp : progs[i]? with
    | none => rw [hp] at ht; cases ht
    | some p => rw [hp] at ht; injection ht with ht; subst ht; simp [St.start]
  · intro i hi; cases hi

theorem inv_steps {acts : H → W → List (Op H W)} {dflt : H} {progs : List (List (Op H W))} {s : St H W} (h : Steps acts (St.start dflt progs) s) :
    Inv dflt progs s := by
  generalize hs : St.start dflt progs = s0 at h
  induction h with
  | refl => subst hs; exact inv_start dflt progs
  | tail _ h2 ih => exact inv_step ih h2

/-! ## Theorems -/

/-- **C212.** Under every schedule the warnings delivered are exactly those of the calls made, in the order in which the calls got their turn, each to the
handler in force at that moment and once; the calls of one goroutine get their turn in the order of its program; and at most one handler runs at a time. -/
theorem warnings_delivered {acts : H → W → List (Op H W)} {dflt : H} {progs : List (List (Op H W))} {s : St H W}
    (h : Steps acts (St.start dflt progs) s) :
    s.delivered = spec (some dflt, none) (s.calls.map (·.2)) ∧
    (∀ (i : Nat) (t : Thread H W), s.threads[i]? = some t → progs[i]? = some (made s i ++ t.todo)) ∧
    ∀ (i j : Nat) (t u : Thread H W), s.threads[i]? = some t → s.threads[j]? = some u → t.inside.isSome = true → u.inside.isSome = true → i = j := by
  have hi := inv_steps h
  refine ⟨hi.log, hi.prog, fun i j t u ht hu h1 h2 => ?_⟩
  have e1 := (hi.own i t ht).1 h1
  have e2 := (hi.own j u hu).1 h2
  rw [e1] at e2
  injection e2

/-- what is left to do -/
def left (s : St H W) : Nat := (s.threads.map (fun t => 2 * t.todo.length + if t.inside.isSome then 1 else 0)).sum

theorem sum_set (l : List (Thread H W)) (f : Thread H W → Nat) (i : Nat) (t x : Thread H W) (h : l[i]? = some t) :
    ((l.set i x).map f).sum + f t = (l.map f).sum + f x := by
  induction l generalizing i with
  | nil => cases h
  | cons a l ih =>
    cases i with
    | zero => injection h with h; subst h; simp [List.set]; omega
    | succ i =>
      have := ih i h
      simp only [List.set_cons_succ, List.map_cons, List.sum_cons]
      omega

/-- **C212.** Every step lowers what is left to do, so no execution goes on for ever. -/
theorem warn_step_lowers {acts : H → W → List (Op H W)} {s s' : St H W} (hs : Step acts s s') : left s' < left s := by
  cases hs with
  | setHandler i t h q ho ht hin htodo =>
    have := sum_set s.threads (fun t => 2 * t.todo.length + if t.inside.isSome then 1 else 0) i t ⟨q, none⟩ ht
    simp only [htodo, hin, List.length_cons] at this
    show left { s with handler := h, threads := s.threads.set i ⟨q, none⟩, calls := s.calls ++ [(i, Op.setHandler h)] } < left s
    unfold left
    simp at this ⊢
    omega
  | setZerolog i t h q ho ht hin htodo =>
    have := sum_set s.threads (fun t => 2 * t.todo.length + if t.inside.isSome then 1 else 0) i t ⟨q, none⟩ ht
    simp only [htodo, hin, List.length_cons] at this
    unfold left
    simp at this ⊢
    omega
  | warnNone i t w q ho ht hin htodo htar =>
    have := sum_set s.threads (fun t => 2 * t.todo.length + if t.inside.isSome then 1 else 0) i t ⟨q, none⟩ ht
    simp only [htodo, hin, List.length_cons] at this
    unfold left
    simp at this ⊢
    omega
  | warn i t w q h ho ht hin htodo htar =>
    have := sum_set s.threads (fun t => 2 * t.todo.length + if t.inside.isSome then 1 else 0) i t ⟨q, some (acts h w)⟩ ht
    simp only [htodo, hin, List.length_cons] at this
    unfold left
    simp at this ⊢
    omega
  | leave i t ho ht hin =>
    have := sum_set s.threads (fun t => 2 * t.todo.length + if t.inside.isSome then 1 else 0) i t ⟨t.todo, none⟩ ht
    simp only [hin] at this
    unfold left
    simp at this ⊢
    omega

/-- **C212**, what holds of progress: if no handler calls this package, no call waits for ever — as long as some goroutine has calls to make or is
inside a handler, some goroutine can go on. -/
theorem warn_progress_partial {acts : H → W → List (Op H W)} (ha : ∀ h w, acts h w = []) {dflt : H} {progs : List (List (Op H W))} {s : St H W}
    (h : Steps acts (St.start dflt progs) s) (hleft : ∃ (i : Nat) (t : Thread H W), s.threads[i]? = some t ∧ (t.todo ≠ [] ∨ t.inside.isSome = true)) :
    ∃ s', Step acts s s' := by
  have hin : ∀ (s : St H W), Steps acts (St.start dflt progs) s → ∀ (i : Nat) (t : Thread H W) (l : List (Op H W)), s.threads[i]? = some t → t.inside = some l → l = [] := by
    intro s h
    generalize hs : St.start dflt progs = s0 at h
    induction h with
    | refl =>
      subst hs
      intro i t l ht hl
      simp only [St.start, List.getElem?_map] at ht
      cases hp : progs[i]? with
      | none => rw [hp] at ht; cases ht
      | some p => rw [hp] at ht; injection ht with ht; subst ht; cases hl
    | tail _ h2 ih =>
      intro j u l hu hl
      cases h2 with
      | setHandler i t h q ho ht hi htodo =>
        rw [get_set _ _ _ _ (lt_of ht)] at hu
        by_cases hj : j = i
        · rw [if_pos hj] at hu; injection hu with hu; subst hu; cases hl
        · rw [if_neg hj] at hu; exact ih j u l hu hl
      | setZerolog i t h q ho ht hi htodo =>
        rw [get_set _ _ _ _ (lt_of ht)] at hu
        by_cases hj : j = i
        · rw [if_pos hj] at hu; injection hu with hu; subst hu; cases hl
        · rw [if_neg hj] at hu; exact ih j u l hu hl
      | warnNone i t w q ho ht hi htodo htar =>
        rw [get_set _ _ _ _ (lt_of ht)] at hu
        by_cases hj : j = i
        · rw [if_pos hj] at hu; injection hu with hu; subst hu; cases hl
        · rw [if_neg hj] at hu; exact ih j u l hu hl
      | warn i t w q h ho ht hi htodo htar =>
        rw [get_set _ _ _ _ (lt_of ht)] at hu
        by_cases hj : j = i
        · rw [if_pos hj] at hu; injection hu with hu; subst hu
          injection hl with hl; rw [← hl]; exact ha h w
        · rw [if_neg hj] at hu; exact ih j u l hu hl
      | leave i t ho ht hi =>
        rw [get_set _ _ _ _ (lt_of ht)] at hu
        by_cases hj : j = i
        · rw [if_pos hj] at hu; injection hu with hu; subst hu; cases hl
        · rw [if_neg hj] at hu; exact ih j u l hu hl
  have hi := inv_steps h
  cases ho : s.owner with
  | some i =>
    have hlt := hi.range i ho
    have ht : s.threads[i]? = some s.threads[i] := List.getElem?_eq_getElem hlt
    have h1 := (hi.own i _ ht).2 ho
    cases hq : s.threads[i].inside with
    | none => rw [hq] at h1; cases h1
    | some l =>
      have := hin s h i _ l ht hq
      subst this
      exact ⟨_, .leave s i _ ho ht hq⟩
  | none =>
    obtain ⟨i, t, ht, hor⟩ := hleft
    have hnin : t.inside = none := by
      cases hq : t.inside with
      | none => rfl
      | some l =>
        have := (hi.own i t ht).1 (by rw [hq]; rfl)
        rw [ho] at this; cases this
    have htodo : t.todo ≠ [] := by
      rcases hor with h | h
      · exact h
      · rw [hnin] at h; cases h
    cases hq : t.todo with
    | nil => exact absurd hq htodo
    | cons o q =>
      cases o with
      | setHandler x => exact ⟨_, .setHandler s i t x q ho ht hnin hq⟩
      | setZerolog x => exact ⟨_, .setZerolog s i t x q ho ht hnin hq⟩
      | warn w =>
        cases htar : s.target with
        | none => exact ⟨_, .warnNone s i t w q ho ht hnin hq htar⟩
        | some x => exact ⟨_, .warn s i t w q x ho ht hnin hq htar⟩

/-- **C212 is false for handlers that use the package.** A handler that itself raises a warning or sets a handler never returns, and from then on no
goroutine can make any call: the warning that `Fit` of some estimator raises in another goroutine waits for ever. -/
theorem reentrant_handler_blocks {acts : H → W → List (Op H W)} {s : St H W} {i : Nat} {t : Thread H W} {w : W} {q : List (Op H W)} {h : H}
    (ho : s.owner = none) (ht : s.threads[i]? = some t) (hin : t.inside = none) (htodo : t.todo = .warn w :: q) (htar : s.target = some h)
    (ha : acts h w ≠ []) : ∃ s', Step acts s s' ∧ s'.delivered = s.delivered ++ [(h, w)] ∧ ∀ s'', Steps acts s' s'' → s'' = s' := by
  refine ⟨_, .warn s i t w q h ho ht hin htodo htar, rfl, fun s'' hs => ?_⟩
  generalize he : ({ s with owner := some i, threads := s.threads.set i ⟨q, some (acts h w)⟩, calls := s.calls ++ [(i, Op.warn w)],
                            delivered := s.delivered ++ [(h, w)] } : St H W) = s1 at hs
  induction hs with
  | refl => rfl
  | tail _ h2 ih =>
    subst ih
    subst he
    exfalso
    cases h2 with
    | setHandler j u x p ho' => cases ho'
    | setZerolog j u x p ho' => cases ho'
    | warnNone j u x p ho' => cases ho'
    | warn j u x p g ho' => cases ho'
    | leave j u ho' hu' hi' =>
      injection ho' with ho'
      subst ho'
      change (s.threads.set i ⟨q, some (acts h w)⟩)[i]? = some u at hu'
      rw [get_set _ _ _ _ (lt_of ht), if_pos rfl] at hu'
      injection hu' with hu'
      subst hu'
      injection hi' with hi'
      exact ha hi'

theorem spec_zerolog (z : H) (d : Option H) (l : List (Op H W)) (hl : ∀ x, Op.setZerolog x ∉ l) : ∀ p ∈ spec (d, some z) l, p.1 = z := by
  induction l generalizing d with
  | nil => intro p hp; cases hp
  | cons o l ih =>
    have hl' : ∀ x, Op.setZerolog x ∉ l := fun x hx => hl x (List.mem_cons_of_mem _ hx)
    cases o with
    | setHandler h => exact ih h hl'
    | setZerolog x => exact absurd List.mem_cons_self (hl x)
    | warn w =>
      intro p hp
      rcases List.mem_cons.1 hp with rfl | hp
      · rfl
      · exact ih d hl' p hp

/-- **C212.** Once a zerolog function is set, setting a warning handler — nil to silence warnings included — has no effect until the zerolog function
is changed: all later warnings still go to the zerolog function. -/
theorem zerolog_takes_all (e : Option H × Option H) (z : H) (before rest : List (Op H W)) (hl : ∀ x, Op.setZerolog x ∉ rest) :
    ∃ l, spec e (before ++ .setZerolog (some z) :: rest) = spec e before ++ l ∧ ∀ p ∈ l, p.1 = z := by
  rw [spec_append]
  refine ⟨_, rfl, ?_⟩
  have : spec (after e before) (.setZerolog (some z) :: rest) = spec ((after e before).1, some z) rest := rfl
  rw [this]
  exact spec_zerolog z _ rest hl

/-! ## Examples -/

/-- two goroutines: one sets a handler and warns, the other warns -/
def exProgs : List (List (Op Nat String)) := [[.setHandler (some 7), .warn "a"], [.warn "b"]]

/-- a handler that does nothing with the package; the second goroutine's warning goes first, to the default handler -/
example : ∃ s, Steps (fun _ _ => []) (St.start 0 exProgs) s ∧ s.delivered = [(0, "b"), (7, "a")] ∧ left s = 0 := by
  refine ⟨_, .tail (.tail (.tail (.tail (.tail (.refl _) (.warn _ 1 _ "b" [] 0 rfl rfl rfl rfl rfl)) (.leave _ 1 _ rfl rfl rfl))
    (.setHandler _ 0 _ (some 7) _ rfl rfl rfl rfl)) (.warn _ 0 _ "a" [] 7 rfl rfl rfl rfl rfl)) (.leave _ 0 _ rfl rfl rfl), ?_, ?_⟩
  · rfl
  · rfl

/-- the hypotheses of `reentrant_handler_blocks` are met at the start when the default handler warns again -/
example : ∃ s', Step (fun _ w => [.warn w]) (St.start 0 exProgs) s' ∧ s'.delivered = [(0, "b")] ∧
    ∀ s'', Steps (fun _ w => [.warn w]) s' s'' → s'' = s' :=
  reentrant_handler_blocks (i := 1) (t := ⟨[.warn "b"], none⟩) (w := "b") (q := []) (h := 0) rfl rfl rfl rfl rfl (by simp)

example : spec (some 0, none) [.warn "a", .setZerolog (some 5), .setHandler none, .warn "b"] = [(0, "a"), (5, "b")] := rfl

end Scigo.Warn
