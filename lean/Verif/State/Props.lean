import Verif.State.Lemmas

/-!
# Properties of the state manager (C03)
-/

namespace Scigo.State

/-- **C03** (law-free, every schedule, any number of goroutines and calls). In every reachable
configuration the finished calls, taken in the order of their unlock, behave as if each had
been executed indivisibly: the recorded results are those of the sequential
specification, and when no writer holds the lock the fields are the sequential final
state. -/
theorem state_linearizable (s0 : Fields) (progs : List (List Op)) (c : Config)
    (h : Reaches (Config.start s0 progs) c) :
    c.log.map Prod.snd = (replay s0 (c.log.map Prod.fst)).2 ∧
    (c.writer = false → c.mem = (replay s0 (c.log.map Prod.fst)).1) :=
  let i := inv_reaches h (inv_start s0 progs)
  ⟨i.results.symm, i.idle⟩

/-- **C03**. The sequential order is an interleaving of what each goroutine did: the log
consists of exactly the finished calls, contains each goroutine's calls in program order,
and no goroutine's program is changed. -/
theorem state_log_is_interleaving (s0 : Fields) (progs : List (List Op)) (c : Config)
    (h : Reaches (Config.start s0 progs) c) :
    c.log.Perm (c.gors.flatMap Gor.done) ∧ (∀ g ∈ c.gors, g.done.Sublist c.log) ∧
    c.gors.map Gor.program = progs := by
  have l := logOK_reaches h (logOK_start s0 progs)
  refine ⟨l.1, l.2, ?_⟩
  rw [program_reaches h]
  simp [Config.start, List.map_map, Function.comp_def, Gor.program]

/-- **C03**, no torn read: every finished `GetDimensions` returned a pair that was stored by
*one* earlier finished call (or is the initial pair). -/
theorem getDimensions_not_torn (s0 : Fields) (progs : List (List Op)) (c : Config)
    (h : Reaches (Config.start s0 progs) c) (l₁ l₂ : List (Op × List Val)) (r : List Val)
    (hl : c.log = l₁ ++ (.getDimensions, r) :: l₂) :
    ∃ nf ns : Int, r = [.n nf, .n ns] ∧
      ((nf, ns) = (s0.nFeatures, s0.nSamples) ∨
        ∃ op ∈ l₁.map Prod.fst, op.storesDims = some (nf, ns)) := by
  have hr := (state_linearizable s0 progs c h).1
  rw [hl] at hr
  have key : ∀ (l : List Op) (s : Fields) (l' : List Op) (rs : List (List Val)),
      rs.length = l.length → rs ++ r :: l₂.map Prod.snd = (replay s (l ++ .getDimensions :: l')).2 →
      r = (Op.getDimensions.spec (replay s l).1).2 := by
    intro l
    induction l with
    | nil => intro s l' rs hlen he
             cases rs with
             | nil => simp [replay] at he; simpa [replay] using he.1
             | cons => simp at hlen
    | cons o l ih =>
      intro s l' rs hlen he
      cases rs with
      | nil => simp at hlen
      | cons x rs =>
        simp only [List.cons_append, replay, List.cons.injEq] at he
        exact ih _ l' rs (by simpa using hlen) he.2
  have h1 := key (l₁.map Prod.fst) s0 (l₂.map Prod.fst) (l₁.map Prod.snd) (by simp)
    (by simpa using hr)
  exact ⟨_, _, h1, replay_dims s0 (l₁.map Prod.fst)⟩

/-- **C03**, no lost wake-up at this level: while some goroutine has work left, some goroutine
can take a step (no method of the state manager blocks for ever on the lock). -/
theorem state_no_deadlock (s0 : Fields) (progs : List (List Op)) (c : Config)
    (h : Reaches (Config.start s0 progs) c)
    (hw : ∃ g ∈ c.gors, g.active.isSome = true ∨ g.pending ≠ []) : ∃ c', Step c c' :=
  progress (inv_reaches h (inv_start s0 progs)) hw

/-- A concrete run: a writer stores (3, 10); two readers overlap and both read (3, 10). -/
example : ∃ c, Reaches (Config.start ⟨false, 0, 0⟩
      [[.setDimensions 3 10], [.getDimensions], [.getDimensions]]) c ∧
    c.log = [(.setDimensions 3 10, []), (.getDimensions, [.n 3, .n 10]),
      (.getDimensions, [.n 3, .n 10])] := by
  have step : ∀ {a b : Config} {P : Config → Prop},
      Step a b → (∃ c, Reaches b c ∧ P c) → ∃ c, Reaches a c ∧ P c :=
    fun h ⟨c, hr, hp⟩ => ⟨c, .head h hr, hp⟩
  refine step (.lock _ [] [] _ _ _ _ rfl) ?_
  refine step (.access _ _ _ [] [] _ _ _ _ _ _ _) (step (.access _ _ _ [] [] _ _ _ _ _ _ _) ?_)
  refine step (.unlock _ _ [] [] _ _ _ _ _ rfl) ?_
  refine step (.rlock _ _ [_] [] _ _ _ _ rfl) (step (.rlock _ _ [_, _] [] _ _ _ _ rfl) ?_)
  refine step (.access _ _ _ [_] [] _ _ _ _ _ _ _) (step (.access _ _ _ [_, _] [] _ _ _ _ _ _ _) ?_)
  refine step (.access _ _ _ [_] [] _ _ _ _ _ _ _) (step (.access _ _ _ [_, _] [] _ _ _ _ _ _ _) ?_)
  refine step (.runlock _ _ _ [_, _] [] _ _ _ _ _ rfl) ?_
  refine step (.runlock _ _ _ [_] [] _ _ _ _ _ rfl) ?_
  exact ⟨_, .refl, rfl⟩

end Scigo.State
