import Verif.Own.Model

/-! Helper lemmas for `Verif.Own.Props`. -/

set_option linter.unusedSectionVars false

namespace Scigo.Own

variable {α : Type}

theorem upd_same {β : Type} (m : Nat → β) (p : Nat) (b : β) : upd m p b p = b := by simp [upd]

theorem upd_other {β : Type} (m : Nat → β) {p q : Nat} (b : β) (h : q ≠ p) : upd m p b q = m q := by
  simp [upd, h]

/-- `h'` has all that was allocated in `h`, unchanged. -/
structure Ext (h h' : Heap α) : Prop where
  nr : h.nextR ≤ h'.nextR
  nt : h.nextT ≤ h'.nextT
  row : ∀ p, p < h.nextR → h'.row p = h.row p
  tab : ∀ t, t < h.nextT → h'.tab t = h.tab t

theorem Ext.refl (h : Heap α) : Ext h h := ⟨Nat.le_refl _, Nat.le_refl _, fun _ _ => rfl, fun _ _ => rfl⟩

theorem Ext.trans {a b c : Heap α} (x : Ext a b) (y : Ext b c) : Ext a c :=
  ⟨Nat.le_trans x.nr y.nr, Nat.le_trans x.nt y.nt,
   fun p hp => (y.row p (Nat.lt_of_lt_of_le hp x.nr)).trans (x.row p hp),
   fun p hp => (y.tab p (Nat.lt_of_lt_of_le hp x.nt)).trans (x.tab p hp)⟩

theorem ext_newRow (h : Heap α) (l : List α) :
    Ext h { h with nextR := h.nextR + 1, row := upd h.row h.nextR l } :=
  ⟨Nat.le_succ _, Nat.le_refl _, fun _ hp => upd_other _ _ (Nat.ne_of_lt hp), fun _ _ => rfl⟩

theorem ext_newTab (h : Heap α) (l : List (Option Nat)) :
    Ext h { h with nextT := h.nextT + 1, tab := upd h.tab h.nextT l } :=
  ⟨Nat.le_refl _, Nat.le_succ _, fun _ _ => rfl, fun _ hp => upd_other _ _ (Nat.ne_of_lt hp)⟩

theorem ext_copyRow (h : Heap α) (p : Option Nat) : Ext h (h.copyRow p).1 := ext_newRow h _

/-- What the loop over rows leaves behind. -/
structure Made (h : Heap α) (want : List (List α)) (h' : Heap α) (new : List (Option Nat)) : Prop where
  ext : Ext h h'
  nt : h'.nextT = h.nextT
  fresh : ∀ p, some p ∈ new → h.nextR ≤ p ∧ p < h'.nextR
  see : new.map h'.see1 = want

theorem see1_ext {h h' : Heap α} (x : Ext h h') {p : Option Nat} (hp : ∀ q, p = some q → q < h.nextR) :
    h'.see1 p = h.see1 p := by
  cases p with
  | none => rfl
  | some q => exact x.row q (hp q rfl)

theorem see1_map_ext {h h' : Heap α} (x : Ext h h') {l : List (Option Nat)}
    (hl : ∀ q, some q ∈ l → q < h.nextR) : l.map h'.see1 = l.map h.see1 :=
  List.map_congr_left fun p hp => see1_ext x fun q hq => hl q (hq ▸ hp)

theorem Made.cons {h h1 h' : Heap α} {x : List α} {want : List (List α)} {p : Nat}
    {new : List (Option Nat)} (e : Ext h h1) (nt : h1.nextT = h.nextT) (hp : h.nextR ≤ p)
    (hp1 : p < h1.nextR) (hx : h1.row p = x) (m : Made h1 want h' new) :
    Made h (x :: want) h' (some p :: new) where
  ext := e.trans m.ext
  nt := m.nt.trans nt
  fresh := by
    intro q hq
    rcases List.mem_cons.1 hq with hq | hq
    · obtain rfl := Option.some.inj hq
      exact ⟨hp, Nat.lt_of_lt_of_le hp1 m.ext.nr⟩
    · exact ⟨Nat.le_trans e.nr (m.fresh q hq).1, (m.fresh q hq).2⟩
  see := by
    have : h'.see1 (some p) = x := (m.ext.row p hp1).trans hx
    rw [List.map_cons, this, m.see]

theorem copyRows_made (l : List (Option Nat)) : ∀ (h : Heap α) (acc : List (Option Nat)),
    (∀ q, some q ∈ l → q < h.nextR) →
    ∃ new, (h.copyRows l acc).2 = acc ++ new ∧ Made h (l.map h.see1) (h.copyRows l acc).1 new := by
  induction l with
  | nil =>
    intro h acc _
    exact ⟨[], by simp [Heap.copyRows], Ext.refl h, rfl, fun _ hp => (nomatch hp), rfl⟩
  | cons p l ih =>
    intro h acc hl
    have hlt : ∀ q, some q ∈ l → q < (h.copyRow p).1.nextR := fun q hq =>
      Nat.lt_succ_of_lt (hl q (List.mem_cons_of_mem _ hq))
    obtain ⟨new, e, m⟩ := ih (h.copyRow p).1 (acc ++ [some (h.copyRow p).2]) hlt
    refine ⟨some (h.copyRow p).2 :: new, ?_, ?_⟩
    · show ((h.copyRow p).1.copyRows l (acc ++ [some (h.copyRow p).2])).2 = _
      rw [e, List.append_assoc]; rfl
    · have hs : l.map (h.copyRow p).1.see1 = l.map h.see1 :=
        see1_map_ext (ext_copyRow h p) fun q hq => hl q (List.mem_cons_of_mem _ hq)
      rw [hs] at m
      refine Made.cons (ext_copyRow h p) rfl (Nat.le_refl _) (Nat.lt_succ_self _) ?_ m
      show upd h.row h.nextR _ h.nextR = _
      rw [upd_same]
      cases p <;> rfl

theorem newRows_made (l : List (List α)) : ∀ (h : Heap α) (acc : List (Option Nat)),
    ∃ new, (h.newRows l acc).2 = acc ++ new ∧ Made h l (h.newRows l acc).1 new := by
  induction l with
  | nil =>
    intro h acc
    exact ⟨[], by simp [Heap.newRows], Ext.refl h, rfl, fun _ hp => (nomatch hp), rfl⟩
  | cons x l ih =>
    intro h acc
    obtain ⟨new, e, m⟩ := ih { h with nextR := h.nextR + 1, row := upd h.row h.nextR x }
      (acc ++ [some h.nextR])
    refine ⟨some h.nextR :: new, ?_, ?_⟩
    · show (Heap.newRows _ l (acc ++ [some h.nextR])).2 = _
      rw [e, List.append_assoc]; rfl
    · exact Made.cons (ext_newRow h x) rfl (Nat.le_refl _) (Nat.lt_succ_self _) (upd_same _ _ _) m

/-- The slices behind the fields. -/
def OwnT (w : World α) (t : Nat) : Prop := ∃ f, w.est.s2 f = some t
def OwnR (w : World α) (p : Nat) : Prop :=
  (∃ f, w.est.s1 f = some p) ∨ ∃ t, OwnT w t ∧ some p ∈ w.heap.tab t
/-- The slices the caller can reach. -/
def CliR (w : World α) (p : Nat) : Prop := p ∈ w.rows ∨ ∃ t ∈ w.tabs, some p ∈ w.heap.tab t

/-- Estimator and caller share nothing. -/
structure Apart (w : World α) : Prop where
  ownR : ∀ p, OwnR w p → p < w.heap.nextR
  ownT : ∀ t, OwnT w t → t < w.heap.nextT
  cliR : ∀ p, CliR w p → p < w.heap.nextR
  cliT : ∀ t, t ∈ w.tabs → t < w.heap.nextT
  disjR : ∀ p, OwnR w p → ¬ CliR w p
  disjT : ∀ t, OwnT w t → t ∉ w.tabs

/-- The new slices belong to the caller or to the estimator. -/
theorem Apart.grow {w w' : World α} (h : Apart w) (x : Ext w.heap w'.heap)
    (o1 : ∀ f p, w'.est.s1 f = some p →
      w.est.s1 f = some p ∨ (w.heap.nextR ≤ p ∧ p < w'.heap.nextR ∧ ¬ CliR w' p))
    (o2 : ∀ f t, w'.est.s2 f = some t → w.est.s2 f = some t ∨
      (w.heap.nextT ≤ t ∧ t < w'.heap.nextT ∧ t ∉ w'.tabs ∧
        ∀ p, some p ∈ w'.heap.tab t → w.heap.nextR ≤ p ∧ p < w'.heap.nextR ∧ ¬ CliR w' p))
    (c1 : ∀ p ∈ w'.rows, CliR w p ∨ (w.heap.nextR ≤ p ∧ p < w'.heap.nextR))
    (c2 : ∀ t ∈ w'.tabs, t ∈ w.tabs ∨
      (w.heap.nextT ≤ t ∧ t < w'.heap.nextT ∧
        ∀ p, some p ∈ w'.heap.tab t → w.heap.nextR ≤ p ∧ p < w'.heap.nextR)) :
    Apart w' := by
  have cR : ∀ p, CliR w' p → CliR w p ∨ (w.heap.nextR ≤ p ∧ p < w'.heap.nextR) := by
    rintro p (hp | ⟨t, ht, hp⟩)
    · exact c1 p hp
    · rcases c2 t ht with h2 | ⟨_, _, h2⟩
      · rw [x.tab t (h.cliT t h2)] at hp
        exact Or.inl (Or.inr ⟨t, h2, hp⟩)
      · exact Or.inr (h2 p hp)
  have oR : ∀ p, OwnR w' p → OwnR w p ∨ (w.heap.nextR ≤ p ∧ p < w'.heap.nextR ∧ ¬ CliR w' p) := by
    rintro p (⟨f, hf⟩ | ⟨t, ⟨f, hf⟩, hp⟩)
    · rcases o1 f p hf with h1 | h1
      · exact Or.inl (Or.inl ⟨f, h1⟩)
      · exact Or.inr h1
    · rcases o2 f t hf with h2 | ⟨_, _, _, h2⟩
      · rw [x.tab t (h.ownT t ⟨f, h2⟩)] at hp
        exact Or.inl (Or.inr ⟨t, ⟨f, h2⟩, hp⟩)
      · exact Or.inr (h2 p hp)
  refine ⟨?_, ?_, ?_, ?_, ?_, ?_⟩
  · intro p hp
    rcases oR p hp with h1 | h1
    · exact Nat.lt_of_lt_of_le (h.ownR p h1) x.nr
    · exact h1.2.1
  · rintro t ⟨f, hf⟩
    rcases o2 f t hf with h2 | h2
    · exact Nat.lt_of_lt_of_le (h.ownT t ⟨f, h2⟩) x.nt
    · exact h2.2.1
  · intro p hp
    rcases cR p hp with h1 | h1
    · exact Nat.lt_of_lt_of_le (h.cliR p h1) x.nr
    · exact h1.2
  · intro t ht
    rcases c2 t ht with h2 | h2
    · exact Nat.lt_of_lt_of_le (h.cliT t h2) x.nt
    · exact h2.2.1
  · intro p hp hc
    rcases oR p hp with h1 | h1
    · rcases cR p hc with h2 | h2
      · exact h.disjR p h1 h2
      · exact absurd (h.ownR p h1) (Nat.not_lt.2 h2.1)
    · exact h1.2.2 hc
  · rintro t ⟨f, hf⟩ hc
    rcases o2 f t hf with h1 | h1
    · rcases c2 t hc with h2 | h2
      · exact h.disjT t ⟨f, h1⟩ h2
      · exact absurd (h.ownT t ⟨f, h1⟩) (Nat.not_lt.2 h2.1)
    · exact h1.2.2.1 hc

/-- Changing the contents of rows changes nothing of the sharing. -/
theorem Apart.rowsChange {w : World α} (h : Apart w) (m : Nat → List α) :
    Apart { w with heap := { w.heap with row := m } } :=
  ⟨h.ownR, h.ownT, h.cliR, h.cliT, h.disjR, h.disjT⟩

/-- What a fresh slice looks like to the one who gets it. -/
def Fresh (h h' : Heap α) : Out → Prop
  | .null => True
  | .row p => h.nextR ≤ p ∧ p < h'.nextR
  | .tab t => h.nextT ≤ t ∧ t < h'.nextT ∧ ∀ p, some p ∈ h'.tab t → h.nextR ≤ p ∧ p < h'.nextR

/-- What is behind a result. -/
def Out.see1 (h : Heap α) : Out → List α
  | .row p => h.row p
  | _ => []

/-- What is behind a result with two levels. -/
def Out.see2 (h : Heap α) : Out → List (List α)
  | .tab t => h.see2 (some t)
  | _ => []

theorem copyRow_good (h : Heap α) (p : Option Nat) :
    Ext h (h.copyRow p).1 ∧ Fresh h (h.copyRow p).1 (.row (h.copyRow p).2) ∧
      (Out.row (h.copyRow p).2).see1 (h.copyRow p).1 = h.see1 p := by
  refine ⟨ext_copyRow h p, ⟨Nat.le_refl _, Nat.lt_succ_self _⟩, ?_⟩
  show upd h.row h.nextR _ h.nextR = _
  rw [upd_same]
  cases p <;> rfl

theorem copyTab_good (h : Heap α) (p : Option Nat)
    (hp : ∀ t, p = some t → ∀ q, some q ∈ h.tab t → q < h.nextR) :
    Ext h (h.copyTab p).1 ∧ Fresh h (h.copyTab p).1 (.tab (h.copyTab p).2) ∧
      (Out.tab (h.copyTab p).2).see2 (h.copyTab p).1 = h.see2 p := by
  have hl : ∀ q, some q ∈ (match p with | some q => h.tab q | none => []) → q < h.nextR := by
    cases p with
    | none => intro q hq; exact nomatch hq
    | some t => exact hp t rfl
  obtain ⟨new, e, m⟩ := copyRows_made _ h [] hl
  rw [List.nil_append] at e
  have e2 := ext_newTab (h.copyRows (match p with | some q => h.tab q | none => []) []).1
    (h.copyRows (match p with | some q => h.tab q | none => []) []).2
  have ht : ((h.copyTab p).1).tab (h.copyTab p).2 = new := by
    exact (upd_same _ _ _).trans e
  refine ⟨m.ext.trans e2, ⟨m.ext.nt, Nat.lt_succ_self _, ?_⟩, ?_⟩
  · intro q hq
    rw [ht] at hq
    exact m.fresh q hq
  · show (((h.copyTab p).1).tab (h.copyTab p).2).map ((h.copyTab p).1).see1 = _
    rw [ht]
    have hsee : new.map ((h.copyTab p).1).see1 = _ := m.see
    rw [hsee]
    cases p <;> rfl

theorem Apart.tabRows {w : World α} (h : Apart w) (f : F2) :
    ∀ t, w.est.s2 f = some t → ∀ q, some q ∈ w.heap.tab t → q < w.heap.nextR :=
  fun t ht q hq => h.ownR q (Or.inr ⟨t, ⟨f, ht⟩, hq⟩)

theorem Acc.good {w : World α} (h : Apart w) (a : Acc) :
    Ext w.heap (a.run w.heap w.est).1 ∧ Fresh w.heap (a.run w.heap w.est).1 (a.run w.heap w.est).2 := by
  have r : ∀ p, Ext w.heap (w.heap.copyRow p).1 ∧ Fresh w.heap (w.heap.copyRow p).1
      (.row (w.heap.copyRow p).2) := fun p => ⟨(copyRow_good _ p).1, (copyRow_good _ p).2.1⟩
  have t : ∀ f, Ext w.heap (w.heap.copyTab (w.est.s2 f)).1 ∧
      Fresh w.heap (w.heap.copyTab (w.est.s2 f)).1 (.tab (w.heap.copyTab (w.est.s2 f)).2) :=
    fun f => ⟨(copyTab_good _ _ (h.tabRows f)).1, (copyTab_good _ _ (h.tabRows f)).2.1⟩
  have rn : ∀ p, Ext w.heap (copyRowUnlessNil w.heap p).1 ∧
      Fresh w.heap (copyRowUnlessNil w.heap p).1 (copyRowUnlessNil w.heap p).2 := by
    intro p
    cases p with
    | none => exact ⟨Ext.refl _, trivial⟩
    | some q => exact r (some q)
  have tn : ∀ f, Ext w.heap (copyTabUnlessNil w.heap (w.est.s2 f)).1 ∧
      Fresh w.heap (copyTabUnlessNil w.heap (w.est.s2 f)).1
        (copyTabUnlessNil w.heap (w.est.s2 f)).2 := by
    intro f
    have := t f
    revert this
    cases w.est.s2 f with
    | none => exact fun _ => ⟨Ext.refl _, trivial⟩
    | some q => exact id
  cases a with
  | sgdRegCoef => simp only [Acc.run]; split <;> exact r _
  | lossHistory => exact r _
  | sgdClfCoef => simp only [Acc.run]; split <;> exact t _
  | sgdClfIntercept => simp only [Acc.run]; split <;> exact r _
  | sgdClfClasses => exact r _
  | linCoef => exact rn _
  | clusterCenters => exact t _
  | labels => exact rn _
  | nbClasses => exact rn _
  | featureLogProb => exact tn _
  | classLogPrior => exact rn _
  | importances => exact rn _

theorem learn_apart {w : World α} (h : Apart w) {h' : Heap α} (x : Ext w.heap h') {o : Out}
    (f : Fresh w.heap h' o) : Apart (w.learn h' o) := by
  cases o with
  | null =>
    exact h.grow (w' := { w with heap := h' }) x (fun _ _ hf => Or.inl hf) (fun _ _ hf => Or.inl hf)
      (fun p hp => Or.inl (Or.inl hp)) (fun t ht => Or.inl ht)
  | row p =>
    refine h.grow (w' := { w with heap := h', rows := p :: w.rows }) x
      (fun _ _ hf => Or.inl hf) (fun _ _ hf => Or.inl hf) ?_ (fun t ht => Or.inl ht)
    intro q hq
    rcases List.mem_cons.1 hq with rfl | hq
    · exact Or.inr f
    · exact Or.inl (Or.inl hq)
  | tab t =>
    refine h.grow (w' := { w with heap := h', tabs := t :: w.tabs }) x
      (fun _ _ hf => Or.inl hf) (fun _ _ hf => Or.inl hf) (fun p hp => Or.inl (Or.inl hp)) ?_
    intro q hq
    rcases List.mem_cons.1 hq with rfl | hq
    · exact Or.inr f
    · exact Or.inl hq

theorem mem_of_mem_set {β : Type} {l : List β} {i : Nat} {b x : β} (h : x ∈ l.set i b) :
    x ∈ l ∨ x = b := List.mem_or_eq_of_mem_set h

theorem client_apart {w : World α} (h : Apart w) (c : Client α) : Apart (w.client c) := by
  cases c with
  | call a => exact learn_apart h (Acc.good h a).1 (Acc.good h a).2
  | newRow l =>
    refine h.grow (w' := _) (ext_newRow w.heap l) (fun _ _ hf => Or.inl hf)
      (fun _ _ hf => Or.inl hf) ?_ (fun t ht => Or.inl ht)
    intro q hq
    rcases List.mem_cons.1 hq with rfl | hq
    · exact Or.inr ⟨Nat.le_refl _, Nat.lt_succ_self _⟩
    · exact Or.inl (Or.inl hq)
  | look t i =>
    simp only [World.client]
    split
    · rename_i ht
      split
      · rename_i p hp
        refine h.grow (w' := { w with rows := p :: w.rows }) (Ext.refl _) (fun _ _ hf => Or.inl hf)
          (fun _ _ hf => Or.inl hf) ?_ (fun t ht => Or.inl ht)
        intro q hq
        rcases List.mem_cons.1 hq with rfl | hq
        · exact Or.inl (Or.inr ⟨t, ht, List.mem_of_getElem? hp⟩)
        · exact Or.inl (Or.inl hq)
      · exact h
    · exact h
  | write r i x =>
    simp only [World.client]
    split
    · exact h.rowsChange _
    · exact h
  | store t i r =>
    simp only [World.client]
    split
    · rename_i hh
      obtain ⟨ht, hr⟩ := hh
      have own : ∀ t', OwnT w t' →
          upd w.heap.tab t ((w.heap.tab t).set i r) t' = w.heap.tab t' := fun t' ho =>
        upd_other _ _ (fun e => h.disjT t' ho (e ▸ ht))
      have oR : ∀ p, OwnR { w with heap := { w.heap with
          tab := upd w.heap.tab t ((w.heap.tab t).set i r) } } p → OwnR w p := by
        rintro p (h1 | ⟨t', h1, h2⟩)
        · exact Or.inl h1
        · have h2' : some p ∈ upd w.heap.tab t ((w.heap.tab t).set i r) t' := h2
          rw [own t' h1] at h2'
          exact Or.inr ⟨t', h1, h2'⟩
      have cR : ∀ p, CliR { w with heap := { w.heap with
          tab := upd w.heap.tab t ((w.heap.tab t).set i r) } } p → CliR w p := by
        rintro p (h1 | ⟨t', h1, h2⟩)
        · exact Or.inl h1
        · have h2' : some p ∈ upd w.heap.tab t ((w.heap.tab t).set i r) t' := h2
          by_cases e : t' = t
          · subst e
            rw [upd_same] at h2'
            rcases mem_of_mem_set h2' with h3 | h3
            · exact Or.inr ⟨t', h1, h3⟩
            · exact Or.inl (hr p h3.symm)
          · rw [upd_other _ _ e] at h2'
            exact Or.inr ⟨t', h1, h2'⟩
      exact ⟨fun p hp => h.ownR p (oR p hp), h.ownT, fun p hp => h.cliR p (cR p hp), h.cliT,
        fun p hp hc => h.disjR p (oR p hp) (cR p hc), h.disjT⟩
    · exact h

theorem put1_some {e : Est} {f g : F1} {q : Option Nat} {p : Nat} (h : (e.put1 f q).s1 g = some p) :
    e.s1 g = some p ∨ q = some p := by
  simp only [Est.put1] at h
  split at h
  · exact Or.inr h
  · exact Or.inl h

theorem put2_some {e : Est} {f g : F2} {q : Option Nat} {p : Nat} (h : (e.put2 f q).s2 g = some p) :
    e.s2 g = some p ∨ q = some p := by
  simp only [Est.put2] at h
  split at h
  · exact Or.inr h
  · exact Or.inl h

/-- The caller reaches only old rows when it got nothing new. -/
theorem cli_old {w w' : World α} (h : Apart w) (x : Ext w.heap w'.heap) (er : w'.rows = w.rows)
    (et : w'.tabs = w.tabs) {p : Nat} (hc : CliR w' p) : p < w.heap.nextR := by
  rcases hc with hc | ⟨t, ht, hp⟩
  · exact h.cliR p (Or.inl (er ▸ hc))
  · rw [et] at ht
    rw [x.tab t (h.cliT t ht)] at hp
    exact h.cliR p (Or.inr ⟨t, ht, hp⟩)

theorem fresh1_apart {w w' : World α} (h : Apart w) (x : Ext w.heap w'.heap)
    (hn : w.heap.nextR < w'.heap.nextR) (er : w'.rows = w.rows) (et : w'.tabs = w.tabs) {f : F1}
    (ee : w'.est = w.est.put1 f (some w.heap.nextR)) : Apart w' := by
  refine h.grow x ?_ ?_ (fun p hp => Or.inl (Or.inl (er ▸ hp))) (fun t ht => Or.inl (et ▸ ht))
  · intro g p hp
    rw [ee] at hp
    rcases put1_some hp with h1 | h1
    · exact Or.inl h1
    · obtain rfl := Option.some.inj h1
      exact Or.inr ⟨Nat.le_refl _, hn, fun hc => Nat.lt_irrefl _ (cli_old h x er et hc)⟩
  · intro g t ht
    rw [ee] at ht
    exact Or.inl ht

theorem train_apart {w : World α} (h : Apart w) (t : Train α) : Apart (w.train t) := by
  cases t with
  | set1 f i x =>
    simp only [World.train]
    split
    · exact h.rowsChange _
    · exact h
  | set2 f i j x =>
    simp only [World.train]
    split
    · split
      · exact h.rowsChange _
      · exact h
    · exact h
  | fresh1 f l => exact fresh1_apart h (ext_newRow w.heap l) (Nat.lt_succ_self _) rfl rfl rfl
  | fresh2 f l =>
    obtain ⟨new, e, m⟩ := newRows_made l w.heap []
    rw [List.nil_append] at e
    have x : Ext w.heap (w.train (.fresh2 f l)).heap :=
      m.ext.trans (ext_newTab (w.heap.newRows l []).1 (w.heap.newRows l []).2)
    refine h.grow x (fun _ _ hf => Or.inl hf) ?_ (fun p hp => Or.inl (Or.inl hp))
      (fun t ht => Or.inl ht)
    intro g t ht
    rcases put2_some ht with h1 | h1
    · exact Or.inl h1
    · obtain rfl := Option.some.inj h1
      refine Or.inr ⟨m.ext.nt, Nat.lt_succ_self _, ?_, ?_⟩
      · intro hc
        have hlt : (w.heap.newRows l []).1.nextT < w.heap.nextT := h.cliT _ hc
        exact absurd m.ext.nt (Nat.not_le.2 hlt)
      · intro p hp
        have hp' : some p ∈ upd (w.heap.newRows l []).1.tab (w.heap.newRows l []).1.nextT
          (w.heap.newRows l []).2 (w.heap.newRows l []).1.nextT := hp
        rw [upd_same, e] at hp'
        exact ⟨(m.fresh p hp').1, (m.fresh p hp').2,
          fun hc => absurd (cli_old h x rfl rfl hc) (Nat.not_lt.2 (m.fresh p hp').1)⟩
  | drop1 f =>
    refine h.grow (w' := { w with est := w.est.put1 f none }) (Ext.refl _) ?_
      (fun _ _ hf => Or.inl hf) (fun p hp => Or.inl (Or.inl hp)) (fun t ht => Or.inl ht)
    intro g p hp
    rcases put1_some hp with h1 | h1
    · exact Or.inl h1
    · exact nomatch h1
  | drop2 f =>
    refine h.grow (w' := { w with est := w.est.put2 f none }) (Ext.refl _)
      (fun _ _ hf => Or.inl hf) ?_ (fun p hp => Or.inl (Or.inl hp)) (fun t ht => Or.inl ht)
    intro g p hp
    rcases put2_some hp with h1 | h1
    · exact Or.inl h1
    · exact nomatch h1
  | copyArg f p =>
    simp only [World.train]
    split
    · exact fresh1_apart h (ext_copyRow w.heap (some p)) (Nat.lt_succ_self _) rfl rfl rfl
    · exact h

theorem start_apart (b : Bool) : Apart (World.start b : World α) := by
  have o : ∀ p, ¬ OwnR (World.start b : World α) p := by
    rintro p (⟨f, hf⟩ | ⟨t, ⟨f, hf⟩, _⟩) <;> exact nomatch hf
  have o2 : ∀ p, ¬ OwnT (World.start b : World α) p := by
    rintro t ⟨f, hf⟩
    exact nomatch hf
  have c : ∀ p, ¬ CliR (World.start b : World α) p := by
    rintro p (hp | ⟨t, ht, _⟩)
    · exact nomatch hp
    · exact nomatch ht
  exact ⟨fun p hp => absurd hp (o p), fun p hp => absurd hp (o2 p), fun p hp => absurd hp (c p),
    fun t ht => (nomatch ht), fun p hp => absurd hp (o p), fun p hp => absurd hp (o2 p)⟩

theorem run_apart (l : List (Op α)) : ∀ {w : World α}, Apart w → Apart (w.run l) := by
  induction l with
  | nil => intro w h; exact h
  | cons o l ih =>
    intro w h
    refine ih (w := w.step o) ?_
    cases o with
    | client c => exact client_apart h c
    | train t => exact train_apart h t

end Scigo.Own
