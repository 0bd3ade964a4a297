import Verif.Own.Lemmas

/-!
# What accessors return belongs to the caller

A program here is any interleaving of calls of accessors, writes of the caller to the slices it
holds (and to rows of tables it holds, to any depth), and training.
-/

set_option linter.unusedSectionVars false

namespace Scigo.Own

variable {α : Type}

/-! ## What the caller does, the estimator does not see -/

theorem see2_upd {h : Heap α} {m : Nat → List α} {t : Option Nat}
    (ht : ∀ q, t = some q → ∀ p, some p ∈ h.tab q → m p = h.row p) :
    ({ h with row := m } : Heap α).see2 t = h.see2 t := by
  cases t with
  | none => rfl
  | some q =>
    refine List.map_congr_left fun p hp => ?_
    cases p with
    | none => rfl
    | some p => exact ht q rfl p hp

theorem see2_ext {h h' : Heap α} (x : Ext h h') {t : Option Nat}
    (h1 : ∀ q, t = some q → q < h.nextT)
    (h2 : ∀ q, t = some q → ∀ p, some p ∈ h.tab q → p < h.nextR) : h'.see2 t = h.see2 t := by
  cases t with
  | none => rfl
  | some q =>
    show (h'.tab q).map h'.see1 = (h.tab q).map h.see1
    rw [x.tab q (h1 q rfl)]
    exact see1_map_ext x (h2 q rfl)

theorem shows_ext {w : World α} (h : Apart w) {h' : Heap α} (x : Ext w.heap h') (r t : List Nat) :
    (⟨h', w.est, r, t⟩ : World α).shows = w.shows := by
  refine Prod.ext (funext fun f => ?_) (funext fun f => ?_)
  · exact see1_ext x fun q hq => h.ownR q (Or.inl ⟨f, hq⟩)
  · exact see2_ext x (fun q hq => h.ownT q ⟨f, hq⟩)
      (fun q hq p hp => h.ownR p (Or.inr ⟨q, ⟨f, hq⟩, hp⟩))

theorem client_shows {w : World α} (h : Apart w) (c : Client α) : (w.client c).shows = w.shows := by
  cases c with
  | call a =>
    have x := (Acc.good h a).1
    show (w.learn (a.run w.heap w.est).1 (a.run w.heap w.est).2).shows = w.shows
    cases (a.run w.heap w.est).2 <;> exact shows_ext h x _ _
  | newRow l => exact shows_ext h (ext_newRow w.heap l) _ _
  | look t i =>
    simp only [World.client]
    split
    · split
      · rfl
      · rfl
    · rfl
  | write r i x =>
    simp only [World.client]
    split
    · rename_i hr
      have key : ∀ p, OwnR w p → upd w.heap.row r ((w.heap.row r).set i x) p = w.heap.row p :=
        fun p hp => upd_other _ _ fun e => h.disjR p hp (Or.inl (e ▸ hr))
      refine Prod.ext (funext fun f => ?_) (funext fun f => ?_)
      · show Heap.see1 _ (w.est.s1 f) = Heap.see1 _ (w.est.s1 f)
        cases e : w.est.s1 f with
        | none => rfl
        | some p => exact key p (Or.inl ⟨f, e⟩)
      · exact see2_upd fun q hq p hp => key p (Or.inr ⟨q, ⟨f, hq⟩, hp⟩)
    · rfl
  | store t i r =>
    simp only [World.client]
    split
    · rename_i hh
      refine Prod.ext rfl (funext fun f => ?_)
      show Heap.see2 _ (w.est.s2 f) = Heap.see2 _ (w.est.s2 f)
      cases e : w.est.s2 f with
      | none => rfl
      | some q =>
        show (upd w.heap.tab t ((w.heap.tab t).set i r) q).map _ = _
        have hne : q ≠ t := fun e' => h.disjT q ⟨f, e⟩ (e' ▸ hh.1)
        rw [upd_other _ _ hne]
        rfl
    · rfl

/-- C235.  After every program, nothing the caller does with the slices it holds changes what the
estimator contains: not its coefficients, intercepts, classes, centres, labels, probabilities,
importances or loss history. -/
theorem attributes_safe (average : Bool) (prog : List (Op α)) (acts : List (Client α)) :
    (((World.start average).run prog).run (acts.map Op.client)).shows =
      ((World.start average).run prog).shows := by
  have : ∀ (acts : List (Client α)) (w : World α), Apart w →
      (w.run (acts.map Op.client)).shows = w.shows := by
    intro acts
    induction acts with
    | nil => intro w _; rfl
    | cons c l ih =>
      intro w h
      exact (ih (w.client c) (client_apart h c)).trans (client_shows h c)
  exact this acts _ (run_apart prog (start_apart average))

/-! ## What training does, the caller does not see -/

theorem train_keeps {w : World α} (h : Apart w) (s : Train α) :
    (w.train s).rows = w.rows ∧ (w.train s).tabs = w.tabs ∧
      (∀ p, CliR w p → (w.train s).heap.row p = w.heap.row p) ∧
      ∀ t ∈ w.tabs, (w.train s).heap.tab t = w.heap.tab t := by
  have ext : ∀ w' : World α, Ext w.heap w'.heap → w'.rows = w.rows → w'.tabs = w.tabs →
      w'.rows = w.rows ∧ w'.tabs = w.tabs ∧ (∀ p, CliR w p → w'.heap.row p = w.heap.row p) ∧
        ∀ t ∈ w.tabs, w'.heap.tab t = w.heap.tab t := fun w' x er et =>
    ⟨er, et, fun p hp => x.row p (h.cliR p hp), fun t ht => x.tab t (h.cliT t ht)⟩
  have own : ∀ q (l : List α), OwnR w q → ∀ p, CliR w p → upd w.heap.row q l p = w.heap.row p :=
    fun q l hq p hp => upd_other _ _ fun e => h.disjR q hq (e ▸ hp)
  cases s with
  | set1 f i x =>
    simp only [World.train]
    split
    · rename_i q hq
      exact ⟨rfl, rfl, own q _ (Or.inl ⟨f, hq⟩), fun _ _ => rfl⟩
    · exact ext w (Ext.refl _) rfl rfl
  | set2 f i j x =>
    simp only [World.train]
    split
    · rename_i t ht
      split
      · rename_i q hq
        exact ⟨rfl, rfl, own q _ (Or.inr ⟨t, ⟨f, ht⟩, List.mem_of_getElem? hq⟩), fun _ _ => rfl⟩
      · exact ext w (Ext.refl _) rfl rfl
    · exact ext w (Ext.refl _) rfl rfl
  | fresh1 f l => exact ext _ (ext_newRow w.heap l) rfl rfl
  | fresh2 f l =>
    obtain ⟨new, e, m⟩ := newRows_made l w.heap []
    exact ext _ (m.ext.trans (ext_newTab (w.heap.newRows l []).1 (w.heap.newRows l []).2)) rfl rfl
  | drop1 f => exact ext { w with est := w.est.put1 f none } (Ext.refl _) rfl rfl
  | drop2 f => exact ext { w with est := w.est.put2 f none } (Ext.refl _) rfl rfl
  | copyArg f p =>
    simp only [World.train]
    split
    · exact ext { w with heap := (w.heap.copyRow (some p)).1,
                         est := w.est.put1 f (some (w.heap.copyRow (some p)).2) }
        (ext_copyRow w.heap (some p)) rfl rfl
    · exact ext w (Ext.refl _) rfl rfl

/-- C235.  A slice the caller holds keeps its contents, and so do the rows of a table it holds,
however much the estimator is trained afterwards. -/
theorem results_are_snapshots (average : Bool) (prog : List (Op α)) (ts : List (Train α)) :
    let w := (World.start average).run prog
    let w' := w.run (ts.map Op.train)
    (∀ p ∈ w.rows, p ∈ w'.rows ∧ w'.heap.see1 (some p) = w.heap.see1 (some p)) ∧
      ∀ t ∈ w.tabs, t ∈ w'.tabs ∧ w'.heap.see2 (some t) = w.heap.see2 (some t) := by
  have : ∀ (ts : List (Train α)) (w : World α), Apart w →
      (w.run (ts.map Op.train)).rows = w.rows ∧ (w.run (ts.map Op.train)).tabs = w.tabs ∧
      (∀ p, CliR w p → (w.run (ts.map Op.train)).heap.row p = w.heap.row p) ∧
      ∀ t ∈ w.tabs, (w.run (ts.map Op.train)).heap.tab t = w.heap.tab t := by
    intro ts
    induction ts with
    | nil => intro w _; exact ⟨rfl, rfl, fun _ _ => rfl, fun _ _ => rfl⟩
    | cons s l ih =>
      intro w h
      obtain ⟨a1, a2, a3, a4⟩ := train_keeps h s
      obtain ⟨b1, b2, b3, b4⟩ := ih (w.train s) (train_apart h s)
      have c : ∀ p, CliR w p → CliR (w.train s) p := by
        rintro p (hp | ⟨t, ht, hp⟩)
        · exact Or.inl (a1.symm ▸ hp)
        · exact Or.inr ⟨t, a2.symm ▸ ht, (a4 t ht).symm ▸ hp⟩
      exact ⟨b1.trans a1, b2.trans a2, fun p hp => (b3 p (c p hp)).trans (a3 p hp),
        fun t ht => (b4 t (a2.symm ▸ ht)).trans (a4 t ht)⟩
  intro w w'
  obtain ⟨k1, k2, k3, k4⟩ := this ts w (run_apart prog (start_apart average))
  refine ⟨fun p hp => ⟨k1.symm ▸ hp, k3 p (Or.inl hp)⟩, fun t ht => ⟨k2.symm ▸ ht, ?_⟩⟩
  show (w'.heap.tab t).map w'.heap.see1 = (w.heap.tab t).map w.heap.see1
  rw [show w'.heap.tab t = w.heap.tab t from k4 t ht]
  refine List.map_congr_left fun p hp => ?_
  cases p with
  | none => rfl
  | some p => exact k3 p (Or.inr ⟨t, ht, hp⟩)

/-! ## What an accessor returns -/

/-- Specification: the attribute an accessor is named after, as it is now.  With averaging the
averaged coefficients and intercepts are meant, once there are any. -/
def attrNow (w : World α) : Acc → List α ⊕ List (List α)
  | .sgdRegCoef =>
    .inl (if w.est.average = true ∧ w.est.s1 .avgCoef ≠ none then w.shows.1 .avgCoef
      else w.shows.1 .coef)
  | .lossHistory => .inl (w.shows.1 .lossHistory)
  | .sgdClfCoef =>
    .inr (if w.est.average = true ∧ w.est.s2 .avgCoefs ≠ none then w.shows.2 .avgCoefs
      else w.shows.2 .coefs)
  | .sgdClfIntercept =>
    .inl (if w.est.average = true ∧ w.est.s1 .avgIntercept ≠ none then w.shows.1 .avgIntercept
      else w.shows.1 .intercept)
  | .sgdClfClasses => .inl (w.shows.1 .classes)
  | .linCoef => .inl (w.shows.1 .coef)
  | .clusterCenters => .inr (w.shows.2 .centers)
  | .labels => .inl (w.shows.1 .labels)
  | .nbClasses => .inl (w.shows.1 .classes)
  | .featureLogProb => .inr (w.shows.2 .featureLogProb)
  | .classLogPrior => .inl (w.shows.1 .classLogPrior)
  | .importances => .inl (w.shows.1 .importances)

/-- Specification: what is read from the slice an accessor returned; a nil slice shows as empty. -/
def Out.reads (h : Heap α) (o : Out) : List α ⊕ List (List α) → Prop
  | .inl l => o.see1 h = l ∧ ∀ t, o ≠ .tab t
  | .inr l => o.see2 h = l ∧ ∀ p, o ≠ .row p

/-- C235.  After every program, every accessor returns the present contents of its attribute. -/
theorem accessor_reports (average : Bool) (prog : List (Op α)) (a : Acc) :
    let w := (World.start average).run prog
    (a.run w.heap w.est).2.reads (a.run w.heap w.est).1 (attrNow w a) := by
  intro w
  have h : Apart w := run_apart prog (start_apart average)
  have r : ∀ p, (Out.row (w.heap.copyRow p).2).reads (w.heap.copyRow p).1 (.inl (w.heap.see1 p)) :=
    fun p => ⟨(copyRow_good _ p).2.2, fun _ e => nomatch e⟩
  have t : ∀ f, (Out.tab (w.heap.copyTab (w.est.s2 f)).2).reads (w.heap.copyTab (w.est.s2 f)).1
      (.inr (w.shows.2 f)) :=
    fun f => ⟨(copyTab_good _ _ (h.tabRows f)).2.2, fun _ e => nomatch e⟩
  have rn : ∀ p, (copyRowUnlessNil w.heap p).2.reads (copyRowUnlessNil w.heap p).1
      (.inl (w.heap.see1 p)) := by
    intro p
    cases p with
    | none => exact ⟨rfl, fun _ e => nomatch e⟩
    | some q => exact r (some q)
  have tn : ∀ f, (copyTabUnlessNil w.heap (w.est.s2 f)).2.reads
      (copyTabUnlessNil w.heap (w.est.s2 f)).1 (.inr (w.shows.2 f)) := by
    intro f
    have := t f
    revert this
    show _ → Out.reads _ _ (.inr (w.heap.see2 (w.est.s2 f)))
    cases e : w.est.s2 f with
    | none => exact fun _ => ⟨rfl, fun _ e => nomatch e⟩
    | some q =>
      intro hh
      have : w.shows.2 f = w.heap.see2 (some q) := by
        show w.heap.see2 (w.est.s2 f) = _
        rw [e]
      rw [this] at hh
      exact hh
  cases a with
  | sgdRegCoef =>
    simp only [Acc.run, attrNow, Bool.and_eq_true, Option.isSome_iff_ne_none]
    split <;> exact r _
  | lossHistory => exact r _
  | sgdClfCoef =>
    simp only [Acc.run, attrNow, Bool.and_eq_true, Option.isSome_iff_ne_none]
    split <;> exact t _
  | sgdClfIntercept =>
    simp only [Acc.run, attrNow, Bool.and_eq_true, Option.isSome_iff_ne_none]
    split <;> exact r _
  | sgdClfClasses => exact r _
  | linCoef => exact rn _
  | clusterCenters => exact t _
  | labels => exact rn _
  | nbClasses => exact rn _
  | featureLogProb => exact tn _
  | classLogPrior => exact rn _
  | importances => exact rn _

/-! ## What is handed over -/

/-- C236, the part that holds: `classes` given to `PartialFit` and the coefficients given to
`ImportWeights` are taken as they are at that moment; what the caller writes into its slice later
does not matter. -/
theorem handed_over_partial (average : Bool) (prog : List (Op α)) (f : F1) (p : Nat)
    (acts : List (Client α)) :
    let w := (World.start average).run prog
    p ∈ w.rows →
      (w.train (.copyArg f p)).shows.1 f = w.heap.see1 (some p) ∧
      ((w.train (.copyArg f p)).run (acts.map Op.client)).shows.1 f = w.heap.see1 (some p) := by
  intro w hp
  have k : (w.train (.copyArg f p)).shows.1 f = w.heap.see1 (some p) := by
    have e : w.train (.copyArg f p) = ⟨(w.heap.copyRow (some p)).1,
        w.est.put1 f (some (w.heap.copyRow (some p)).2), w.rows, w.tabs⟩ := by
      simp only [World.train]
      rw [if_pos hp]
    rw [e]
    show Heap.see1 _ ((w.est.put1 f (some (w.heap.copyRow (some p)).2)).s1 f) = _
    simp only [Est.put1, if_true]
    exact (copyRow_good w.heap (some p)).2.2
  refine ⟨k, ?_⟩
  have := attributes_safe average (prog ++ [Op.train (.copyArg f p)]) acts
  rw [show (World.start average).run (prog ++ [Op.train (.copyArg f p)])
    = w.train (.copyArg f p) from by simp [World.run, w, World.step]] at this
  rw [this]
  exact k

/-- C236 is false for `WithClassPrior`: the naive Bayes classifier keeps the caller's slice, so a
later write of the caller changes the priors the next training uses. -/
theorem class_prior_is_live :
    ∃ (w : World Int) (p : Nat) (x : Int), p ∈ w.rows ∧
      (w.keepPrior p).shows.1 .classPrior = [3, 7] ∧
      ((w.keepPrior p).client (.write p 0 x)).shows.1 .classPrior = [x, 7] ∧ x ≠ 3 := by
  refine ⟨(World.start false).client (.newRow [3, 7]), 0, 9, ?_⟩
  decide +kernel

/-! ## Examples -/

/-- A classifier with two classes and two features, its coefficients fetched; then the caller
overwrites what it got, and training goes on. -/
def exOwn : World Int :=
  (World.start false).run
    [.client (.newRow [0, 1]), .train (.copyArg .classes 0),
     .train (.fresh2 .coefs [[1, 2], [3, 4]]), .client (.call .sgdClfCoef),
     .client (.look 1 0), .client (.write 4 0 100), .train (.set2 .coefs 0 1 (-5)),
     .client (.write 0 1 77)]

example : exOwn.shows.2 .coefs = [[1, -5], [3, 4]] ∧ exOwn.shows.1 .classes = [0, 1] ∧
    exOwn.heap.see2 (some 1) = [[100, 2], [3, 4]] ∧ exOwn.heap.see1 (some 0) = [0, 77] ∧
    4 ∈ exOwn.rows ∧ 1 ∈ exOwn.tabs := by
  decide +kernel

end Scigo.Own
