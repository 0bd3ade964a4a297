import Verif.State.Nested

/-!
# What a callback under the lock may do (C249)
-/

namespace Scigo.State.Nested

/-! ## Specification -/

/-- a call that does not nest: the method's or callback's own computation only -/
def Flat : Call → Prop
  | .act => True
  | .read b => ∀ x ∈ b, x = .act
  | .write b => ∀ x ∈ b, x = .act

mutual
/-- no `Lock` anywhere inside -/
def Call.ReadOnly : Call → Prop
  | .act => True
  | .read b => AllReadOnly b
  | .write _ => False
def AllReadOnly : List Call → Prop
  | [] => True
  | c :: cs => c.ReadOnly ∧ AllReadOnly cs
end

/-- all goroutines are through -/
def Finished (c : List Gor) : Prop := ∀ g ∈ c, g.todo = []

/-! ## Lemmas -/

theorem codes_append (a b : List Call) : codes (a ++ b) = codes a ++ codes b := by
  induction a with
  | nil => rfl
  | cons c cs ih => simp only [List.cons_append, codes, ih, List.append_assoc]

theorem codes_acts (l : List Call) (h : ∀ x ∈ l, x = .act) : codes l = List.replicate l.length .act := by
  induction l with
  | nil => rfl
  | cons c cs ih =>
    obtain rfl := h c (List.mem_cons_self)
    rw [codes, Call.code, ih (fun x hx => h x (List.mem_cons_of_mem _ hx))]; rfl

theorem invariant (i : Nat) (J : Gor → Prop) (hmove : ∀ c g g', c[i]? = some g → Move c g g' → J g → J g') {c c' : List Gor}
    (h : Reaches c c') (h0 : ∀ g, c[i]? = some g → J g) : ∀ g, c'[i]? = some g → J g := by
  induction h with
  | refl => exact h0
  | tail _ hs ih =>
    obtain ⟨k, g, g', hk, hm, rfl⟩ := hs
    intro x hx
    by_cases e : k = i
    · subst e
      rw [List.getElem?_set_self (by rw [List.getElem?_eq_some_iff] at hk; exact hk.1)] at hx
      obtain rfl := Option.some.inj hx
      exact hmove _ _ _ hk hm (ih g hk)
    · rw [List.getElem?_set_ne e] at hx
      exact ih x hx

theorem invariant_all (J : Gor → Prop) (hmove : ∀ c g g', Move c g g' → J g → J g') {c c' : List Gor}
    (h : Reaches c c') (h0 : ∀ g ∈ c, J g) : ∀ g ∈ c', J g := by
  intro g hg
  obtain ⟨i, hi⟩ := List.getElem?_of_mem hg
  exact invariant i J (fun c g g' _ => hmove c g g') h (fun g hg => h0 g (List.mem_of_getElem? hg)) g hi

theorem start_get {progs : List (List Call)} {i : Nat} {p : List Call} (hp : progs[i]? = some p) :
    (start progs)[i]? = some ⟨0, false, false, codes p⟩ := by
  unfold start; rw [List.getElem?_map, hp]; rfl

theorem not_open {c : List Gor} {i : Nat} {g : Gor} (h : c[i]? = some g) (hb : g.busy = true) : ¬ open' c := fun ho => by
  rw [ho g (List.mem_of_getElem? h)] at hb; exact nomatch hb

/-! ### inside a write lock -/

/-- before the `Lock` of the callback, or inside it before its first use of the state manager -/
def InWrite (mid : List Instr) (y : Instr) (post : List Instr) (g : Gor) : Prop :=
  (g.w = true → g.waiting = false) ∧
  ((∃ pre, g.todo = pre ++ .lock :: (mid ++ y :: post)) ∨
   (∃ m, (∀ a ∈ m, a = .act) ∧ g.todo = m ++ y :: post ∧ g.w = true))

theorem inWrite_move (mid : List Instr) (hmid : ∀ a ∈ mid, a = .act) (y : Instr) (hy : y = .rlock ∨ y = .lock) (post : List Instr) (i : Nat)
    (c : List Gor) (g g' : Gor) (hi : c[i]? = some g) (hm : Move c g g') (h : InWrite mid y post g) : InWrite mid y post g' := by
  obtain ⟨hw, h⟩ := h
  have busyw : g.w = true → g.busy = true := fun e => by simp [Gor.busy, e]
  have hw' : g'.w = true → g'.waiting = false := by
    cases hm with
    | act r q w t => exact hw
    | rlock r q w t ho => exact hw
    | runlock r q w t => exact hw
    | announce r w t ho =>
      intro e; exact absurd ho (not_open hi (busyw e))
    | lock r w t ha => intro _; rfl
    | unlock r q t => intro e; exact nomatch e
  refine ⟨hw', ?_⟩
  have step : ∀ (h : Instr) (t : List Instr), g.todo = h :: t → g'.todo = t → (h = .lock → g'.w = true) → (h ≠ .lock → h ≠ .unlock → g'.w = g.w) →
      (h = .rlock → ¬ g.w = true) → (h = .lock → g.w = true → False) →
      (∃ pre, g'.todo = pre ++ .lock :: (mid ++ y :: post)) ∨ (∃ m, (∀ a ∈ m, a = .act) ∧ g'.todo = m ++ y :: post ∧ g'.w = true) := by
    intro x t e e' h1 h2 h3 h4
    rcases h with ⟨pre, hp⟩ | ⟨m, ha, hp, hww⟩
    · cases pre with
      | nil =>
        rw [e] at hp
        obtain ⟨rfl, rfl⟩ := List.cons.inj hp
        exact .inr ⟨mid, hmid, e', h1 rfl⟩
      | cons a pre =>
        rw [e] at hp
        obtain ⟨rfl, rfl⟩ := List.cons.inj hp
        exact .inl ⟨pre, e'⟩
    · cases m with
      | nil =>
        rw [e] at hp
        obtain ⟨rfl, rfl⟩ := List.cons.inj hp
        rcases hy with rfl | rfl
        · exact absurd hww (h3 rfl)
        · exact (h4 rfl hww).elim
      | cons a m =>
        rw [e] at hp
        obtain ⟨rfl, rfl⟩ := List.cons.inj hp
        have := ha x (List.mem_cons_self)
        subst this
        refine .inr ⟨m, fun b hb => ha b (List.mem_cons_of_mem _ hb), e', ?_⟩
        rw [h2 (by decide) (by decide)]; exact hww
  cases hm with
  | act r q w t => exact step _ _ rfl rfl (nomatch ·) (fun _ _ => rfl) (nomatch ·) (nomatch ·)
  | rlock r q w t ho => exact step _ _ rfl rfl (nomatch ·) (fun _ _ => rfl) (fun _ e => not_open hi (busyw e) ho) (nomatch ·)
  | runlock r q w t => exact step _ _ rfl rfl (nomatch ·) (fun _ _ => rfl) (nomatch ·) (nomatch ·)
  | announce r w t ho =>
    rcases h with h | ⟨m, ha, hp, hww⟩
    · exact .inl h
    · exact absurd ho (not_open hi (busyw hww))
  | lock r w t ha => exact step _ _ rfl rfl (fun _ => rfl) (fun e _ => absurd rfl e) (nomatch ·) (fun _ e => nomatch (hw e))
  | unlock r q t => exact step _ _ rfl rfl (nomatch ·) (fun _ e => absurd rfl e) (nomatch ·) (nomatch ·)

/-! ### a write lock inside a read lock -/

/-- before the `RLock` of the callback, or inside it before its first use of the state manager, a `Lock` -/
def InRead (mid : List Instr) (post : List Instr) (g : Gor) : Prop :=
  (∃ pre, g.todo = pre ++ .rlock :: (mid ++ .lock :: post)) ∨ (∃ m, (∀ a ∈ m, a = .act) ∧ g.todo = m ++ .lock :: post ∧ 0 < g.r)

theorem inRead_move (mid : List Instr) (hmid : ∀ a ∈ mid, a = .act) (post : List Instr) (i : Nat)
    (c : List Gor) (g g' : Gor) (hi : c[i]? = some g) (hm : Move c g g') (h : InRead mid post g) : InRead mid post g' := by
  have step : ∀ (h : Instr) (t : List Instr), g.todo = h :: t → g'.todo = t → (h = .rlock → 0 < g'.r) → (h = .act → g'.r = g.r) →
      (h = .lock → ¬ 0 < g.r) → InRead mid post g' := by
    intro x t e e' h1 h2 h3
    rcases h with ⟨pre, hp⟩ | ⟨m, ha, hp, hr⟩
    · cases pre with
      | nil =>
        rw [e] at hp
        obtain ⟨rfl, rfl⟩ := List.cons.inj hp
        exact .inr ⟨mid, hmid, e', h1 rfl⟩
      | cons a pre =>
        rw [e] at hp
        obtain ⟨rfl, rfl⟩ := List.cons.inj hp
        exact .inl ⟨pre, e'⟩
    · cases m with
      | nil =>
        rw [e] at hp
        obtain ⟨rfl, rfl⟩ := List.cons.inj hp
        exact absurd hr (h3 rfl)
      | cons a m =>
        rw [e] at hp
        obtain ⟨rfl, rfl⟩ := List.cons.inj hp
        have := ha x (List.mem_cons_self)
        subst this
        exact .inr ⟨m, fun b hb => ha b (List.mem_cons_of_mem _ hb), e', by rw [h2 rfl]; exact hr⟩
  cases hm with
  | act r q w t => exact step _ _ rfl rfl (nomatch ·) (fun _ => rfl) (nomatch ·)
  | rlock r q w t ho => exact step _ _ rfl rfl (fun _ => Nat.succ_pos _) (nomatch ·) (nomatch ·)
  | runlock r q w t => exact step _ _ rfl rfl (nomatch ·) (nomatch ·) (nomatch ·)
  | announce r w t ho => exact h
  | lock r w t ha => exact step _ _ rfl rfl (nomatch ·) (nomatch ·) (fun _ e => by have := ha _ (List.mem_of_getElem? hi); omega)
  | unlock r q t => exact step _ _ rfl rfl (nomatch ·) (nomatch ·) (nomatch ·)

/-! ### calls that do not nest -/

/-- where a goroutine of calls that do not nest can be -/
inductive Shape : Gor → Prop
  | idle (cs) : (∀ x ∈ cs, Flat x) → Shape ⟨0, false, false, codes cs⟩
  | reading (k cs) : (∀ x ∈ cs, Flat x) → Shape ⟨1, false, false, List.replicate k .act ++ .runlock :: codes cs⟩
  | waiting (k cs) : (∀ x ∈ cs, Flat x) → Shape ⟨0, true, false, .lock :: (List.replicate k .act ++ .unlock :: codes cs)⟩
  | writing (k cs) : (∀ x ∈ cs, Flat x) → Shape ⟨0, false, true, List.replicate k .act ++ .unlock :: codes cs⟩

theorem codes_flat_cons (x : Call) (hx : Flat x) (cs : List Call) :
    codes (x :: cs) = .act :: codes cs ∨ (∃ k, codes (x :: cs) = .rlock :: (List.replicate k .act ++ .runlock :: codes cs)) ∨
      ∃ k, codes (x :: cs) = .lock :: (List.replicate k .act ++ .unlock :: codes cs) := by
  cases x with
  | act => exact .inl rfl
  | read b => exact .inr (.inl ⟨b.length, by simp only [codes, Call.code, codes_acts b hx, List.cons_append, List.append_assoc, List.nil_append]⟩)
  | write b => exact .inr (.inr ⟨b.length, by simp only [codes, Call.code, codes_acts b hx, List.cons_append, List.append_assoc, List.nil_append]⟩)

theorem shape_move (c : List Gor) (g g' : Gor) (hm : Move c g g') (h : Shape g) : Shape g' := by
  cases h with
  | idle cs hcs =>
    cases cs with
    | nil => exact nomatch hm
    | cons x cs =>
      have hcs' := fun y hy => hcs y (List.mem_cons_of_mem _ hy)
      rcases codes_flat_cons x (hcs x List.mem_cons_self) cs with e | ⟨k, e⟩ | ⟨k, e⟩ <;> rw [e] at hm <;> cases hm
      · exact .idle cs hcs'
      · exact .reading k cs hcs'
      · exact .waiting k cs hcs'
  | reading k cs hcs =>
    cases k with
    | zero => cases hm; exact .idle cs hcs
    | succ k => cases hm; exact .reading k cs hcs
  | waiting k cs hcs => cases hm; exact .writing k cs hcs
  | writing k cs hcs =>
    cases k with
    | zero => cases hm; exact .idle cs hcs
    | succ k => cases hm; exact .writing k cs hcs

/-! ### brackets without `Lock` -/

/-- `t` closes `r` open read locks and takes no write lock -/
def Closes : Nat → List Instr → Prop
  | r, [] => r = 0
  | r, .act :: t => Closes r t
  | r, .rlock :: t => Closes (r + 1) t
  | 0, .runlock :: _ => False
  | r + 1, .runlock :: t => Closes r t
  | _, .lock :: _ => False
  | _, .unlock :: _ => False

mutual
theorem closes_code : ∀ (x : Call) (_ : x.ReadOnly) (r : Nat) (t : List Instr), Closes r t → Closes r (x.code ++ t)
  | .act, _, r, t, h => h
  | .read b, hx, r, t, h => by
    rw [Call.code, List.cons_append, List.append_assoc]
    exact closes_codes b hx (r + 1) (.runlock :: t) h
  | .write _, hx, _, _, _ => hx.elim
theorem closes_codes : ∀ (cs : List Call) (_ : AllReadOnly cs) (r : Nat) (t : List Instr), Closes r t → Closes r (codes cs ++ t)
  | [], _, r, t, h => h
  | x :: cs, hx, r, t, h => by
    rw [codes, List.append_assoc]
    exact closes_code x hx.1 r _ (closes_codes cs hx.2 r t h)
end

/-- nobody writes and the goroutine closes what it has opened -/
def Reading (g : Gor) : Prop := g.waiting = false ∧ g.w = false ∧ Closes g.r g.todo

theorem reading_move (c : List Gor) (g g' : Gor) (hm : Move c g g') (h : Reading g) : Reading g' := by
  obtain ⟨h1, h2, h3⟩ := h
  cases hm with
  | act r q w t => exact ⟨h1, h2, h3⟩
  | rlock r q w t ho => exact ⟨h1, h2, h3⟩
  | runlock r q w t => exact ⟨h1, h2, h3⟩
  | announce r w t ho => exact h3.elim
  | lock r w t ha => exact nomatch h1
  | unlock r q t => exact nomatch h2

/-! ## Properties -/

/-- **C249**. While a `Lock` is held — a setter or the callback of `WithStateMut` runs — no other goroutine holds a lock of either kind; in
particular readers, the callbacks of `WithState` among them, never overlap with it. Any calls, nested or not, any schedule. -/
theorem callback_exclusive (progs : List (List Call)) (c : List Gor) (h : Reaches (start progs) c) (i j : Nat) (g g' : Gor)
    (hi : c[i]? = some g) (hj : c[j]? = some g') (hg : g.w = true) : (i ≠ j → g'.w = false ∧ g'.waiting = false) ∧ g'.r = 0 := by
  have inv : (∀ (i j : Nat) (g g' : Gor), c[i]? = some g → c[j]? = some g' → i ≠ j → g.busy = true → g'.busy = false) ∧
      ∀ (i j : Nat) (g g' : Gor), c[i]? = some g → c[j]? = some g' → g.w = true → g'.r = 0 := by
    clear hi hj hg
    induction h with
    | refl =>
      have hs : ∀ (i : Nat) (g : Gor), (start progs)[i]? = some g → g.r = 0 ∧ g.busy = false := by
        intro i g hg
        unfold start at hg
        rw [List.getElem?_map] at hg
        obtain ⟨p, _, rfl⟩ := Option.map_eq_some_iff.1 hg
        exact ⟨rfl, rfl⟩
      exact ⟨fun i j g g' _ hj _ _ => (hs j g' hj).2, fun i j g g' _ hj _ => (hs j g' hj).1⟩
    | tail _ hs ih =>
      rename_i b _ _
      obtain ⟨ih1, ih2⟩ := ih
      obtain ⟨k, x, x', hk, hm, rfl⟩ := hs
      have hlen : k < b.length := by rw [List.getElem?_eq_some_iff] at hk; exact hk.1
      have get : ∀ (i : Nat) (g : Gor), (b.set k x')[i]? = some g → (i = k ∧ g = x') ∨ (i ≠ k ∧ b[i]? = some g) := by
        intro i g hg
        by_cases e : k = i
        · subst e; rw [List.getElem?_set_self hlen] at hg; exact .inl ⟨rfl, (Option.some.inj hg).symm⟩
        · rw [List.getElem?_set_ne e] at hg; exact .inr ⟨Ne.symm e, hg⟩
      -- what the move does to the two facts
      have busy' : x'.busy = true → x.busy = true ∨ open' b := by
        cases hm with
        | act r q w t => exact .inl
        | rlock r q w t ho => exact .inl
        | runlock r q w t => exact .inl
        | announce r w t ho => exact fun _ => .inr ho
        | lock r w t ha => exact fun _ => .inl rfl
        | unlock r q t => exact fun _ => .inl (by simp [Gor.busy])
      have w' : x'.w = true → x.w = true ∨ ∀ g ∈ b, g.r = 0 := by
        cases hm with
        | act r q w t => exact .inl
        | rlock r q w t ho => exact .inl
        | runlock r q w t => exact .inl
        | announce r w t ho => exact .inl
        | lock r w t ha => exact fun _ => .inr ha
        | unlock r q t => exact fun e => nomatch e
      have r' : x'.r = 0 ∨ open' b ∨ x'.r ≤ x.r := by
        cases hm with
        | act r q w t => exact .inr (.inr (Nat.le_refl _))
        | rlock r q w t ho => exact .inr (.inl ho)
        | runlock r q w t => exact .inr (.inr (Nat.le_succ _))
        | announce r w t ho => exact .inr (.inr (Nat.le_refl _))
        | lock r w t ha => exact .inr (.inr (Nat.le_refl _))
        | unlock r q t => exact .inr (.inr (Nat.le_refl _))
      have rw' : x'.w = true → x'.r = 0 := by
        cases hm with
        | act r q w t => exact fun e => (ih2 k k _ _ hk hk e :)
        | rlock r q w t ho => exact fun e => absurd ho (not_open hk (by simp only [Gor.busy]; simp at e; simp [e]))
        | runlock r q w t => exact fun e => nomatch (ih2 k k _ _ hk hk e)
        | announce r w t ho => exact fun e => (ih2 k k _ _ hk hk e :)
        | lock r w t ha => exact fun _ => (ha _ (List.mem_of_getElem? hk) :)
        | unlock r q t => exact fun e => nomatch e
      constructor
      · intro i j g g' hi hj hij hb
        rcases get i g hi with ⟨rfl, rfl⟩ | ⟨ni, hi'⟩ <;> rcases get j g' hj with ⟨rfl, rfl⟩ | ⟨nj, hj'⟩
        · exact absurd rfl hij
        · rcases busy' hb with e | e
          · exact ih1 i j _ _ hk hj' hij e
          · exact e g' (List.mem_of_getElem? hj')
        · cases hc : g'.busy with
          | false => rfl
          | true =>
            rcases busy' hc with e | e
            · rw [ih1 i j _ _ hi' hk hij hb] at e; exact nomatch e
            · rw [e g (List.mem_of_getElem? hi')] at hb; exact nomatch hb
        · exact ih1 i j _ _ hi' hj' hij hb
      · intro i j g g' hi hj hw
        rcases get i g hi with ⟨rfl, rfl⟩ | ⟨ni, hi'⟩ <;> rcases get j g' hj with ⟨rfl, rfl⟩ | ⟨nj, hj'⟩
        · exact rw' hw
        · rcases w' hw with e | e
          · exact ih2 i j _ _ hk hj' e
          · exact e g' (List.mem_of_getElem? hj')
        · rcases r' with e | e | e
          · exact e
          · have := e g (List.mem_of_getElem? hi'); simp [Gor.busy, hw] at this
          · have := ih2 i j _ _ hi' hk hw; omega
        · exact ih2 i j _ _ hi' hj' hw
  refine ⟨fun hij => ?_, inv.2 i j g g' hi hj hg⟩
  have := inv.1 i j g g' hi hj hij (by simp [Gor.busy, hg])
  simp only [Gor.busy, Bool.or_eq_false_iff] at this
  exact ⟨this.2, this.1⟩

/-- **C249**, negation. A `WithStateMut` whose callback uses the state manager at all — `IsFitted`, say — never returns: under every schedule
and whatever the other goroutines do, the goroutine stays inside that call. -/
theorem withStateMut_never_returns (progs : List (List Call)) (i : Nat) (p1 p2 fn : List Call)
    (hp : progs[i]? = some (p1 ++ withStateMut fn :: p2)) (hfn : ∃ x ∈ fn, x ≠ .act) (c : List Gor) (h : Reaches (start progs) c)
    (g : Gor) (hg : c[i]? = some g) : (codes p2).length < g.todo.length := by
  obtain ⟨acts, x, rest, rfl, hacts, hx⟩ : ∃ acts x rest, fn = acts ++ x :: rest ∧ (∀ a ∈ acts, a = Call.act) ∧ x ≠ .act := by
    clear hp
    induction fn with
    | nil => obtain ⟨x, hx, _⟩ := hfn; exact nomatch hx
    | cons a fn ih =>
      by_cases ha : a = .act
      · obtain ⟨x, hx, hne⟩ := hfn
        rcases List.mem_cons.1 hx with rfl | hx
        · exact absurd ha hne
        · obtain ⟨acts, y, rest, rfl, h1, h2⟩ := ih ⟨x, hx, hne⟩
          exact ⟨a :: acts, y, rest, rfl, by intro b hb; rcases List.mem_cons.1 hb with rfl | hb; exact ha; exact h1 b hb, h2⟩
      · exact ⟨[], a, fn, rfl, fun b hb => (nomatch hb), ha⟩
  obtain ⟨y, post, hy, hcode⟩ : ∃ y post, (y = Instr.rlock ∨ y = .lock) ∧ x.code = y :: post := by
    cases x with
    | act => exact absurd rfl hx
    | read b => exact ⟨_, _, .inl rfl, by rw [Call.code]⟩
    | write b => exact ⟨_, _, .inr rfl, by rw [Call.code]⟩
  have hprog : codes (p1 ++ withStateMut (acts ++ x :: rest) :: p2)
      = codes p1 ++ .lock :: (List.replicate acts.length .act ++ y :: (post ++ codes rest ++ [.unlock] ++ codes p2)) := by
    simp only [codes_append, codes, withStateMut, Call.code, codes_acts acts hacts, hcode, List.cons_append, List.append_assoc, List.nil_append]
  have hJ := invariant i (InWrite (List.replicate acts.length .act) y (post ++ codes rest ++ [.unlock] ++ codes p2))
    (fun c g g' => inWrite_move _ (fun a ha => (List.mem_replicate.1 ha).2) y hy _ i c g g') h
    (fun g hg => by
      rw [start_get hp] at hg
      obtain rfl := Option.some.inj hg
      exact ⟨fun e => (nomatch e), .inl ⟨codes p1, hprog⟩⟩) g hg
  rcases hJ.2 with ⟨pre, e⟩ | ⟨m, _, e, _⟩ <;> rw [e] <;> simp only [List.length_append, List.length_cons] <;> omega

/-- **C249**, negation. A `WithState` whose callback's first use of the state manager is a setter never returns either. -/
theorem withState_setter_never_returns (progs : List (List Call)) (i : Nat) (p1 p2 acts rest b : List Call) (hacts : ∀ a ∈ acts, a = .act)
    (hp : progs[i]? = some (p1 ++ withState (acts ++ .write b :: rest) :: p2)) (c : List Gor) (h : Reaches (start progs) c)
    (g : Gor) (hg : c[i]? = some g) : (codes p2).length < g.todo.length := by
  have hprog : codes (p1 ++ withState (acts ++ .write b :: rest) :: p2)
      = codes p1 ++ .rlock :: (List.replicate acts.length .act ++ .lock :: (codes b ++ [.unlock] ++ codes rest ++ [.runlock] ++ codes p2)) := by
    simp only [codes_append, codes, withState, Call.code, codes_acts acts hacts, List.cons_append, List.append_assoc, List.nil_append]
  have hJ := invariant i (InRead (List.replicate acts.length .act) (codes b ++ [.unlock] ++ codes rest ++ [.runlock] ++ codes p2))
    (fun c g g' => inRead_move _ (fun a ha => (List.mem_replicate.1 ha).2) _ i c g g') h
    (fun g hg => by
      rw [start_get hp] at hg
      obtain rfl := Option.some.inj hg
      exact .inl ⟨codes p1, hprog⟩) g hg
  rcases hJ with ⟨pre, e⟩ | ⟨m, _, e, _⟩ <;> rw [e] <;> simp only [List.length_append, List.length_cons] <;> omega

/-- **C249**, negation. Even a `WithState` whose callback only reads can hang: if another goroutine's `SetFitted` comes in between the two
read locks, both wait for each other for ever. -/
theorem withState_getter_may_deadlock :
    ∃ c, Reaches (start [[withState [getter 1]], [setter 1]]) c ∧ (∀ g ∈ c, g.todo ≠ []) ∧ ∀ c', ¬ Step c c' := by
  refine ⟨[⟨1, false, false, [.rlock, .act, .runlock, .runlock]⟩, ⟨0, true, false, [.lock, .act, .unlock]⟩], ?_, ?_, ?_⟩
  · have s1 : Step (start [[withState [getter 1]], [setter 1]])
        [⟨1, false, false, [.rlock, .act, .runlock, .runlock]⟩, ⟨0, false, false, [.lock, .act, .unlock]⟩] :=
      ⟨0, _, _, rfl, .rlock 0 false false [.rlock, .act, .runlock, .runlock] (by
        intro g hg; simp [start] at hg; rcases hg with rfl | rfl <;> rfl), rfl⟩
    have s2 : Step [⟨1, false, false, [.rlock, .act, .runlock, .runlock]⟩, ⟨0, false, false, [.lock, .act, .unlock]⟩]
        [⟨1, false, false, [.rlock, .act, .runlock, .runlock]⟩, ⟨0, true, false, [.lock, .act, .unlock]⟩] :=
      ⟨1, _, _, rfl, .announce 0 false [.act, .unlock] (by
        intro g hg; simp at hg; rcases hg with rfl | rfl <;> rfl), rfl⟩
    exact .tail (.tail .refl s1) s2
  · intro g hg; simp at hg; rcases hg with rfl | rfl <;> simp
  · rintro c' ⟨i, g, g', hi, hm, -⟩
    match i, hi with
    | 0, hi =>
      obtain rfl := Option.some.inj hi
      cases hm with
      | rlock r q w t ho => have := ho ⟨0, true, false, [.lock, .act, .unlock]⟩ (by simp); exact nomatch this
    | 1, hi =>
      obtain rfl := Option.some.inj hi
      cases hm with
      | lock r w t ha => have := ha ⟨1, false, false, [.rlock, .act, .runlock, .runlock]⟩ (by simp); exact nomatch this
    | n + 2, hi => exact nomatch hi

/-- **C249** and **C03**, the part that holds: if no callback uses the state manager, then — also with the rule that a waiting `Lock` holds back
new readers — no schedule deadlocks: until every goroutine is through, some goroutine can move. Missing: callbacks that do use it, see
the negations above. -/
theorem callbacks_progress_partial (progs : List (List Call)) (hflat : ∀ p ∈ progs, ∀ x ∈ p, Flat x) (c : List Gor)
    (h : Reaches (start progs) c) (hn : ¬ Finished c) : ∃ c', Step c c' := by
  have hS := invariant_all Shape shape_move h (by
    intro g hg
    unfold start at hg
    obtain ⟨p, hp, rfl⟩ := List.mem_map.1 hg
    exact .idle p (hflat p hp))
  have go : ∀ g ∈ c, (∃ g', Move c g g') → ∃ c', Step c c' := by
    rintro g hg ⟨g', hm⟩
    obtain ⟨i, hi⟩ := List.getElem?_of_mem hg
    exact ⟨_, i, g, g', hi, hm, rfl⟩
  by_cases hw : ∃ g ∈ c, g.w = true
  · obtain ⟨g, hg, hw⟩ := hw
    refine go g hg ?_
    cases hS g hg with
    | idle cs hcs => exact nomatch hw
    | reading k cs hcs => exact nomatch hw
    | waiting k cs hcs => exact nomatch hw
    | writing k cs hcs =>
      cases k with
      | zero => exact ⟨_, .unlock _ _ _⟩
      | succ k => exact ⟨_, .act _ _ _ _⟩
  by_cases hr : ∃ g ∈ c, g.r ≠ 0
  · obtain ⟨g, hg, hr⟩ := hr
    refine go g hg ?_
    cases hS g hg with
    | idle cs hcs => exact absurd rfl hr
    | waiting k cs hcs => exact absurd rfl hr
    | writing k cs hcs => exact absurd rfl hr
    | reading k cs hcs =>
      cases k with
      | zero => exact ⟨_, .runlock _ _ _ _⟩
      | succ k => exact ⟨_, .act _ _ _ _⟩
  have hr0 : ∀ g ∈ c, g.r = 0 := by intro g hg; by_contra e; exact hr ⟨g, hg, e⟩
  by_cases hq : ∃ g ∈ c, g.waiting = true
  · obtain ⟨g, hg, hq⟩ := hq
    refine go g hg ?_
    cases hS g hg with
    | idle cs hcs => exact nomatch hq
    | reading k cs hcs => exact nomatch hq
    | writing k cs hcs => exact nomatch hq
    | waiting k cs hcs => exact ⟨_, .lock _ _ _ hr0⟩
  have hopen : open' c := by
    intro g hg
    cases e1 : g.waiting with
    | true => exact absurd ⟨g, hg, e1⟩ hq
    | false =>
      cases e2 : g.w with
      | true => exact absurd ⟨g, hg, e2⟩ hw
      | false => simp [Gor.busy, e1, e2]
  obtain ⟨g, hg, hne⟩ : ∃ g ∈ c, g.todo ≠ [] := by
    by_contra e; exact hn fun g hg => by by_contra e'; exact e ⟨g, hg, e'⟩
  refine go g hg ?_
  cases hS g hg with
  | reading k cs hcs => exact absurd (hr0 _ hg) (by simp)
  | waiting k cs hcs => exact absurd ⟨_, hg, rfl⟩ hq
  | writing k cs hcs => exact absurd ⟨_, hg, rfl⟩ hw
  | idle cs hcs =>
    cases cs with
    | nil => exact absurd rfl hne
    | cons x cs =>
      rcases codes_flat_cons x (hcs x List.mem_cons_self) cs with e | ⟨k, e⟩ | ⟨k, e⟩ <;> rw [e]
      · exact ⟨_, .act _ _ _ _⟩
      · exact ⟨_, .rlock _ _ _ _ hopen⟩
      · exact ⟨_, .announce _ _ _ hopen⟩

/-- **C249**, the part that holds: as long as nobody calls a setter or `WithStateMut`, callbacks may nest reads as they like. -/
theorem nested_reads_progress_partial (progs : List (List Call)) (hro : ∀ p ∈ progs, AllReadOnly p) (c : List Gor)
    (h : Reaches (start progs) c) (hn : ¬ Finished c) : ∃ c', Step c c' := by
  have hS := invariant_all Reading reading_move h (by
    intro g hg
    unfold start at hg
    obtain ⟨p, hp, rfl⟩ := List.mem_map.1 hg
    have := closes_codes p (hro p hp) 0 [] rfl
    rw [List.append_nil] at this
    exact ⟨rfl, rfl, this⟩)
  have hopen : open' c := fun g hg => by simp [Gor.busy, (hS g hg).1, (hS g hg).2.1]
  obtain ⟨g, hg, hne⟩ : ∃ g ∈ c, g.todo ≠ [] := by
    by_contra e; exact hn fun g hg => by by_contra e'; exact e ⟨g, hg, e'⟩
  obtain ⟨i, hi⟩ := List.getElem?_of_mem hg
  obtain ⟨h1, h2, h3⟩ := hS g hg
  obtain ⟨r, q, w, todo⟩ := g
  have : ∃ g', Move c ⟨r, q, w, todo⟩ g' := by
    match todo, r, h3, hne with
    | [], _, _, hne => exact absurd rfl hne
    | .act :: t, r, _, _ => exact ⟨_, .act _ _ _ _⟩
    | .rlock :: t, r, _, _ => exact ⟨_, .rlock _ _ _ _ hopen⟩
    | .runlock :: t, r + 1, _, _ => exact ⟨_, .runlock _ _ _ _⟩
    | .runlock :: t, 0, h3, _ => exact h3.elim
    | .lock :: t, _, h3, _ => exact h3.elim
    | .unlock :: t, _, h3, _ => exact h3.elim
  obtain ⟨g', hm⟩ := this
  exact ⟨_, i, _, g', hi, hm, rfl⟩

/-- what is left to do, a waiting `Lock` counting half -/
def work (c : List Gor) : Nat := (c.map fun g => 2 * g.todo.length + if g.waiting then 0 else 1).sum

theorem sum_set (f : Gor → Nat) : ∀ (c : List Gor) (i : Nat) (g g' : Gor), c[i]? = some g → f g' < f g → ((c.set i g').map f).sum < (c.map f).sum
  | [], i, g, g', h, _ => nomatch h
  | x :: c, 0, g, g', h, hf => by
    obtain rfl := Option.some.inj h
    simpa using hf
  | x :: c, i + 1, g, g', h, hf => by
    have := sum_set f c i g g' h hf
    simpa using this

/-- **C249**. Every schedule is finite, so "some goroutine can move until all are through" means that all calls return. -/
theorem callbacks_terminate (c c' : List Gor) (h : Step c c') : work c' < work c := by
  obtain ⟨i, g, g', hi, hm, rfl⟩ := h
  refine sum_set _ c i g g' hi ?_
  cases hm with
  | act r q w t => simp only [List.length_cons]; omega
  | rlock r q w t ho => simp only [List.length_cons]; omega
  | runlock r q w t => simp only [List.length_cons]; omega
  | announce r w t ho => simp
  | lock r w t ha => simp only [List.length_cons, if_true, Bool.false_eq_true, if_false]; omega
  | unlock r q t => simp only [List.length_cons]; omega

/-- the hypotheses are met: a `WithStateMut` whose callback asks `IsFitted`, another goroutine that reads -/
example (c : List Gor) (h : Reaches (start [[getter 1, withStateMut [.act, getter 1], setter 1], [getter 2]]) c) (g : Gor)
    (hg : c[0]? = some g) : 3 < g.todo.length :=
  withStateMut_never_returns _ 0 [getter 1] [setter 1] [.act, getter 1] rfl ⟨getter 1, by simp, by simp [getter]⟩ c h g hg
example : ∀ p ∈ [[withStateMut [.act, .act], getter 1], [withState [.act], setter 3]], ∀ x ∈ p, Flat x := by
  intro p hp x hx
  simp at hp
  rcases hp with rfl | rfl <;> simp at hx <;> rcases hx with rfl | rfl <;> intro y hy <;> simp at hy <;> exact hy
example : AllReadOnly [withState [getter 1, .act, withState [getter 2]]] := by simp [AllReadOnly, withState, getter, Call.ReadOnly, List.replicate]

end Scigo.State.Nested
