import Verif.State.Spec
import Mathlib.Tactic.Common

namespace Scigo.State

/-- the accesses done one after another -/
def runMicro (ms : List Micro) (x : Fields × List Val) : Fields × List Val :=
  ms.foldl (fun x a => a.exec x) x

/-- does the access only read? -/
def Micro.isRead : Micro → Bool
  | .rdFitted => true
  | .rdFeatures => true
  | .rdSamples => true
  | _ => false

theorem exec_read {a : Micro} (h : a.isRead = true) (m : Fields) (r : List Val) :
    (a.exec (m, r)).1 = m := by
  cases a <;> simp_all [Micro.isRead, Micro.exec]

theorem body_spec (op : Op) (m : Fields) : runMicro op.body (m, []) = op.spec m := by
  cases op <;> rfl

theorem body_reads (op : Op) (h : op.reads = true) : ∀ a ∈ op.body, a.isRead = true := by
  cases op <;> simp_all [Op.reads, Op.body, Micro.isRead]

theorem spec_read (op : Op) (h : op.reads = true) (s : Fields) : (op.spec s).1 = s := by
  cases op <;> simp_all [Op.reads, Op.spec]

theorem replay_append (s : Fields) (l : List Op) (op : Op) :
    replay s (l ++ [op]) =
      ((op.spec (replay s l).1).1, (replay s l).2 ++ [(op.spec (replay s l).1).2]) := by
  induction l generalizing s with
  | nil => simp [replay]
  | cons o l ih => simp [replay, ih]

/-- is the goroutine inside a reading call? -/
def Gor.reading (g : Gor) : Bool :=
  match g.active with
  | some a => a.op.reads
  | none => false

/-- is the goroutine inside a writing call? -/
def Gor.writing (g : Gor) : Bool :=
  match g.active with
  | some a => !a.op.reads
  | none => false

/-- state after all finished calls -/
def cur (s0 : Fields) (log : List (Op × List Val)) : Fields := (replay s0 (log.map Prod.fst)).1

/-- the invariant of the machine -/
structure Inv (s0 : Fields) (c : Config) : Prop where
  readers : c.readers = c.gors.countP Gor.reading
  writers : c.gors.countP Gor.writing = if c.writer = true then 1 else 0
  excl : c.writer = true → c.readers = 0
  act : ∀ g ∈ c.gors, ∀ a, g.active = some a →
    runMicro a.rem (c.mem, a.regs) = a.op.spec (cur s0 c.log) ∧
    (a.op.reads = true → ∀ x ∈ a.rem, x.isRead = true)
  idle : c.writer = false → c.mem = cur s0 c.log
  results : (replay s0 (c.log.map Prod.fst)).2 = c.log.map Prod.snd

theorem cur_append (s0 : Fields) (log : List (Op × List Val)) (op : Op) (r : List Val) :
    cur s0 (log ++ [(op, r)]) = (op.spec (cur s0 log)).1 := by
  simp [cur, replay_append]

theorem not_active_of_counts {gs : List Gor} (h1 : gs.countP Gor.reading = 0)
    (h2 : gs.countP Gor.writing = 0) : ∀ g ∈ gs, g.active = none := by
  intro g hg
  rw [List.countP_eq_zero] at h1 h2
  have a := h1 g hg
  have b := h2 g hg
  cases h : g.active with
  | none => rfl
  | some x => simp [Gor.reading, Gor.writing, h] at a b; simp [a] at b

theorem writer_alone {A B : List Gor} {g : Gor} (hg : g.writing = true)
    (h1 : (A ++ g :: B).countP Gor.reading = 0) (h2 : (A ++ g :: B).countP Gor.writing ≤ 1) :
    (∀ g ∈ A, g.active = none) ∧ ∀ g ∈ B, g.active = none := by
  simp only [List.countP_append, List.countP_cons, hg, if_true] at h1 h2
  exact ⟨not_active_of_counts (by omega) (by omega), not_active_of_counts (by omega) (by omega)⟩

theorem inv_step {s0 : Fields} {c c' : Config} (h : Step c c') (i : Inv s0 c) : Inv s0 c' := by
  cases h with
  | rlock n m A d op ops B log hop =>
    obtain ⟨i1, i2, i3, i4, i5, i6⟩ := i
    have hm : m = cur s0 log := i5 rfl
    refine ⟨?_, ?_, by simp, ?_, i5, i6⟩
    · simp only [List.countP_append, List.countP_cons, Gor.reading] at i1 ⊢
      simp [hop] at i1 ⊢; omega
    · simp only [List.countP_append, List.countP_cons, Gor.writing] at i2 ⊢
      simp [hop] at i2 ⊢; omega
    · intro g hg a ha
      simp only [List.mem_append, List.mem_cons] at hg i4
      rcases hg with hg | rfl | hg
      · exact i4 g (.inl hg) a ha
      · simp only [Option.some.injEq] at ha
        subst ha
        exact ⟨by rw [← hm]; exact body_spec op m, fun h => body_reads op h⟩
      · exact i4 g (.inr (.inr hg)) a ha
  | lock m A d op ops B log hop =>
    obtain ⟨i1, i2, i3, i4, i5, i6⟩ := i
    have hm : m = cur s0 log := i5 rfl
    refine ⟨?_, ?_, by simp, ?_, by simp, i6⟩
    · simp only [List.countP_append, List.countP_cons, Gor.reading] at i1 ⊢
      simp [hop] at i1 ⊢; omega
    · have e1 : (⟨d, none, op :: ops⟩ : Gor).writing = false := rfl
      have e2 : (⟨d, some ⟨op, op.body, []⟩, ops⟩ : Gor).writing = true := by
        simp [Gor.writing, hop]
      simp only [List.countP_append, List.countP_cons, e1, e2, Bool.false_eq_true, if_false,
        if_true] at i2 ⊢
      omega
    · intro g hg a ha
      simp only [List.mem_append, List.mem_cons] at hg i4
      rcases hg with hg | rfl | hg
      · exact i4 g (.inl hg) a ha
      · simp only [Option.some.injEq] at ha
        subst ha
        exact ⟨by rw [← hm]; exact body_spec op m, fun h => body_reads op h⟩
      · exact i4 g (.inr (.inr hg)) a ha
  | access n w m A d op a rem regs ops B log =>
    obtain ⟨i1, i2, i3, i4, i5, i6⟩ := i
    have hme := i4 ⟨d, some ⟨op, a :: rem, regs⟩, ops⟩ (by simp) _ rfl
    simp only at hme i1 i2 i3 i5
    cases hop : op.reads with
    | true =>
      have hr : a.isRead = true := hme.2 hop a (by simp)
      have hmem : (a.exec (m, regs)).1 = m := exec_read hr m regs
      refine ⟨?_, ?_, i3, ?_, ?_, i6⟩
      · simp only [List.countP_append, List.countP_cons, Gor.reading] at i1 ⊢
        simpa [hop] using i1
      · simp only [List.countP_append, List.countP_cons, Gor.writing] at i2 ⊢
        simpa [hop] using i2
      · intro g hg b hb
        simp only [List.mem_append, List.mem_cons] at hg i4
        rcases hg with hg | rfl | hg
        · simp only [hmem]; exact i4 g (.inl hg) b hb
        · simp only [Option.some.injEq] at hb
          subst hb
          refine ⟨?_, fun h x hx => hme.2 h x (by simp [hx])⟩
          have := hme.1
          simpa [runMicro] using this
        · simp only [hmem]; exact i4 g (.inr (.inr hg)) b hb
      · simp only [hmem]; exact i5
    | false =>
      have hg : (⟨d, some ⟨op, a :: rem, regs⟩, ops⟩ : Gor).writing = true := by
        simp [Gor.writing, hop]
      have hw : w = true := by
        cases w with
        | true => rfl
        | false => simp [List.countP_append, List.countP_cons, hg] at i2
      subst hw
      have hn := i3 rfl
      subst hn
      obtain ⟨hA, hB⟩ := writer_alone hg i1.symm (by rw [i2]; simp)
      refine ⟨?_, ?_, fun _ => rfl, ?_, by simp, i6⟩
      · simp only [List.countP_append, List.countP_cons] at i1 ⊢
        simpa [Gor.reading, hop] using i1
      · simp only [List.countP_append, List.countP_cons] at i2 ⊢
        simpa [Gor.writing, hop] using i2
      · intro g hg b hb
        simp only [List.mem_append, List.mem_cons] at hg
        rcases hg with hg | rfl | hg
        · rw [hA g hg] at hb; cases hb
        · simp only [Option.some.injEq] at hb
          subst hb
          refine ⟨?_, fun h x hx => hme.2 h x (by simp [hx])⟩
          have := hme.1
          simpa [runMicro] using this
        · rw [hB g hg] at hb; cases hb
  | runlock n w m A d op regs ops B log hop =>
    obtain ⟨i1, i2, i3, i4, i5, i6⟩ := i
    have hme := i4 ⟨d, some ⟨op, [], regs⟩, ops⟩ (by simp) _ rfl
    simp only at hme i1 i2 i3 i5 i6
    have hw : w = false := by
      cases w with
      | false => rfl
      | true => exact absurd (i3 rfl) (by omega)
    subst hw
    have hcur : cur s0 (log ++ [(op, regs)]) = cur s0 log := by
      rw [cur_append, spec_read op hop]
    have hregs : regs = (op.spec (cur s0 log)).2 := by
      have := hme.1; simp only [runMicro, List.foldl_nil] at this; rw [← this]
    refine ⟨?_, ?_, by simp, ?_, ?_, ?_⟩
    · simp only [List.countP_append, List.countP_cons, Gor.reading] at i1 ⊢
      simp [hop] at i1 ⊢; omega
    · simp only [List.countP_append, List.countP_cons, Gor.writing] at i2 ⊢
      simpa [hop] using i2
    · intro g hg b hb
      simp only [List.mem_append, List.mem_cons] at hg i4
      simp only [hcur]
      rcases hg with hg | rfl | hg
      · exact i4 g (.inl hg) b hb
      · simp at hb
      · exact i4 g (.inr (.inr hg)) b hb
    · intro _; simp only [hcur]; exact i5 rfl
    · simp only [List.map_append, List.map_cons, List.map_nil, replay_append, i6]
      rw [hregs]; rfl
  | unlock n m A d op regs ops B log hop =>
    obtain ⟨i1, i2, i3, i4, i5, i6⟩ := i
    have hme := i4 ⟨d, some ⟨op, [], regs⟩, ops⟩ (by simp) _ rfl
    simp only at hme i1 i2 i3 i5 i6
    have hn := i3 trivial
    subst hn
    have hg : (⟨d, some ⟨op, [], regs⟩, ops⟩ : Gor).writing = true := by
      simp [Gor.writing, hop]
    obtain ⟨hA, hB⟩ := writer_alone hg i1.symm (by rw [i2]; simp)
    have hrun : (m, regs) = op.spec (cur s0 log) := by
      have := hme.1; simpa only [runMicro, List.foldl_nil] using this
    refine ⟨?_, ?_, by simp, ?_, ?_, ?_⟩
    · simp only [List.countP_append, List.countP_cons] at i1 ⊢
      simpa [Gor.reading, hop] using i1
    · simp only [Bool.false_eq_true, if_false]
      rw [List.countP_eq_zero]
      intro g hg
      simp only [List.mem_append, List.mem_cons] at hg
      rcases hg with hg | rfl | hg
      · simp [Gor.writing, hA g hg]
      · simp [Gor.writing]
      · simp [Gor.writing, hB g hg]
    · intro g hg b hb
      simp only [List.mem_append, List.mem_cons] at hg
      rcases hg with hg | rfl | hg
      · rw [hA g hg] at hb; cases hb
      · simp at hb
      · rw [hB g hg] at hb; cases hb
    · intro _; simp only [cur_append]; rw [← hrun]
    · simp only [List.map_append, List.map_cons, List.map_nil, replay_append, i6]
      unfold cur at hrun
      rw [← hrun]

theorem inv_start (s0 : Fields) (progs : List (List Op)) : Inv s0 (Config.start s0 progs) := by
  refine ⟨?_, ?_, by simp [Config.start], ?_, ?_, ?_⟩
  · simp only [Config.start]; symm; rw [List.countP_eq_zero]; intro g hg
    obtain ⟨o, _, rfl⟩ := List.mem_map.1 hg; simp [Gor.reading]
  · simp only [Config.start]
    simp only [Bool.false_eq_true, if_false]
    rw [List.countP_eq_zero]; intro g hg
    obtain ⟨o, _, rfl⟩ := List.mem_map.1 hg; simp [Gor.writing]
  · intro g hg a ha
    obtain ⟨o, _, rfl⟩ := List.mem_map.1 hg; simp at ha
  · intro _; rfl
  · rfl

theorem inv_reaches {s0 : Fields} {c c' : Config} (h : Reaches c c') (i : Inv s0 c) :
    Inv s0 c' := by
  induction h with
  | refl => exact i
  | tail _ hs ih => exact inv_step hs ih

theorem program_step {c c' : Config} (h : Step c c') :
    c'.gors.map Gor.program = c.gors.map Gor.program := by
  cases h <;> simp [Gor.program]

theorem program_reaches {c c' : Config} (h : Reaches c c') :
    c'.gors.map Gor.program = c.gors.map Gor.program := by
  induction h with
  | refl => rfl
  | tail _ hs ih => rw [program_step hs, ih]

/-- the log agrees with the results of the goroutines -/
def LogOK (c : Config) : Prop :=
  c.log.Perm (c.gors.flatMap Gor.done) ∧ ∀ g ∈ c.gors, g.done.Sublist c.log

theorem logOK_step {c c' : Config} (h : Step c c') (i : LogOK c) : LogOK c' := by
  cases h with
  | rlock n m A d op ops B log hop =>
    obtain ⟨i1, i2⟩ := i
    refine ⟨by simpa using i1, fun g hg => ?_⟩
    simp only [List.mem_append, List.mem_cons] at hg i2
    rcases hg with hg | rfl | hg
    · exact i2 g (.inl hg)
    · exact i2 ⟨d, none, op :: ops⟩ (.inr (.inl rfl))
    · exact i2 g (.inr (.inr hg))
  | lock m A d op ops B log hop =>
    obtain ⟨i1, i2⟩ := i
    refine ⟨by simpa using i1, fun g hg => ?_⟩
    simp only [List.mem_append, List.mem_cons] at hg i2
    rcases hg with hg | rfl | hg
    · exact i2 g (.inl hg)
    · exact i2 ⟨d, none, op :: ops⟩ (.inr (.inl rfl))
    · exact i2 g (.inr (.inr hg))
  | access n w m A d op a rem regs ops B log =>
    obtain ⟨i1, i2⟩ := i
    refine ⟨by simpa using i1, fun g hg => ?_⟩
    simp only [List.mem_append, List.mem_cons] at hg i2
    rcases hg with hg | rfl | hg
    · exact i2 g (.inl hg)
    · exact i2 ⟨d, some ⟨op, a :: rem, regs⟩, ops⟩ (.inr (.inl rfl))
    · exact i2 g (.inr (.inr hg))
  | runlock n w m A d op regs ops B log hop =>
    obtain ⟨i1, i2⟩ := i
    refine ⟨?_, fun g hg => ?_⟩
    · simp only [List.flatMap_append, List.flatMap_cons] at i1 ⊢
      have := i1.append_right [(op, regs)]
      refine this.trans ?_
      simp only [List.append_assoc]
      apply List.Perm.append_left
      apply List.Perm.append_left
      exact List.perm_append_comm
    · simp only [List.mem_append, List.mem_cons] at hg i2
      rcases hg with hg | rfl | hg
      · exact (i2 g (.inl hg)).trans (List.sublist_append_left _ _)
      · exact (i2 ⟨d, some ⟨op, [], regs⟩, ops⟩ (.inr (.inl rfl))).append (List.Sublist.refl _)
      · exact (i2 g (.inr (.inr hg))).trans (List.sublist_append_left _ _)
  | unlock n m A d op regs ops B log hop =>
    obtain ⟨i1, i2⟩ := i
    refine ⟨?_, fun g hg => ?_⟩
    · simp only [List.flatMap_append, List.flatMap_cons] at i1 ⊢
      have := i1.append_right [(op, regs)]
      refine this.trans ?_
      simp only [List.append_assoc]
      apply List.Perm.append_left
      apply List.Perm.append_left
      exact List.perm_append_comm
    · simp only [List.mem_append, List.mem_cons] at hg i2
      rcases hg with hg | rfl | hg
      · exact (i2 g (.inl hg)).trans (List.sublist_append_left _ _)
      · exact (i2 ⟨d, some ⟨op, [], regs⟩, ops⟩ (.inr (.inl rfl))).append (List.Sublist.refl _)
      · exact (i2 g (.inr (.inr hg))).trans (List.sublist_append_left _ _)

theorem logOK_reaches {c c' : Config} (h : Reaches c c') (i : LogOK c) : LogOK c' := by
  induction h with
  | refl => exact i
  | tail _ hs ih => exact logOK_step hs ih

theorem logOK_start (s0 : Fields) (progs : List (List Op)) : LogOK (Config.start s0 progs) := by
  refine ⟨?_, ?_⟩
  · simp [Config.start, List.flatMap_map]
  · intro g hg
    obtain ⟨o, _, rfl⟩ := List.mem_map.1 hg; simp

theorem progress {s0 : Fields} {c : Config} (i : Inv s0 c)
    (h : ∃ g ∈ c.gors, g.active.isSome = true ∨ g.pending ≠ []) : ∃ c', Step c c' := by
  obtain ⟨n, w, m, gs, log⟩ := c
  by_cases hact : ∃ g ∈ gs, g.active.isSome = true
  · obtain ⟨g, hg, ha⟩ := hact
    obtain ⟨A, B, rfl⟩ := List.append_of_mem hg
    obtain ⟨d, a, ops⟩ := g
    cases a with
    | none => simp at ha
    | some a =>
      obtain ⟨op, rem, regs⟩ := a
      cases rem with
      | cons a rem => exact ⟨_, .access ..⟩
      | nil =>
        cases hop : op.reads with
        | true =>
          have h1 := i.readers
          simp only [List.countP_append, List.countP_cons, Gor.reading, hop] at h1
          simp only [if_true] at h1
          obtain ⟨k, rfl⟩ : ∃ k, n = k + 1 := ⟨n - 1, by omega⟩
          exact ⟨_, .runlock _ _ _ _ _ _ _ _ _ _ hop⟩
        | false =>
          have h1 := i.writers
          simp only [List.countP_append, List.countP_cons, Gor.writing, hop] at h1
          cases w with
          | true => exact ⟨_, .unlock _ _ _ _ _ _ _ _ _ hop⟩
          | false => simp at h1
  · have hnone : ∀ g ∈ gs, g.active = none := by
      intro g hg
      cases ha : g.active with
      | none => rfl
      | some x => exact absurd ⟨g, hg, by simp [ha]⟩ hact
    have h1 : n = 0 := by
      have := i.readers
      simp only at this
      rw [this, List.countP_eq_zero]; intro g hg; simp [Gor.reading, hnone g hg]
    have h2 : w = false := by
      have := i.writers
      have h0 : gs.countP Gor.writing = 0 := by
        rw [List.countP_eq_zero]; intro g hg; simp [Gor.writing, hnone g hg]
      simp only [h0] at this
      cases w with
      | false => rfl
      | true => simp at this
    subst h1 h2
    obtain ⟨g, hg, hp⟩ := h
    have hn := hnone g hg
    obtain ⟨d, a, ops⟩ := g
    simp only at hn
    subst hn
    simp at hp
    obtain ⟨A, B, rfl⟩ := List.append_of_mem hg
    cases ops with
    | nil => exact absurd rfl hp
    | cons op ops =>
      cases hop : op.reads with
      | true => exact ⟨_, .rlock _ _ _ _ _ _ _ _ hop⟩
      | false => exact ⟨_, .lock _ _ _ _ _ _ _ hop⟩

theorem replay_dims (s0 : Fields) (l : List Op) :
    ((replay s0 l).1.nFeatures, (replay s0 l).1.nSamples) = (s0.nFeatures, s0.nSamples) ∨
    ∃ op ∈ l, op.storesDims = some ((replay s0 l).1.nFeatures, (replay s0 l).1.nSamples) := by
  induction l generalizing s0 with
  | nil => left; rfl
  | cons o l ih =>
    rcases ih (o.spec s0).1 with h | ⟨op, hop, h⟩
    · simp only [replay]
      rw [h]
      cases o with
      | isFitted => left; rfl
      | setFitted => left; rfl
      | getDimensions => left; rfl
      | getState => left; rfl
      | reset => right; exact ⟨_, List.mem_cons_self .., rfl⟩
      | setDimensions a b => right; exact ⟨_, List.mem_cons_self .., rfl⟩
      | setState t => right; exact ⟨_, List.mem_cons_self .., rfl⟩
    · right; exact ⟨op, by simp [hop], h⟩

end Scigo.State
