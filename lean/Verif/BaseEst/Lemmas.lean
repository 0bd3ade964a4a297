import Verif.BaseEst.Model

/-! # Memory invariant of programs that use base estimators -/

namespace Scigo.BaseEst

/-- `addressOf w i a`: estimator `i` exists and its hyperparameter map is at `a` -/
def Has (w : World) (i a : Nat) : Prop := ∃ e, w.ests[i]? = some e ∧ e.params = some a

/-- invariant of reachable memories -/
structure Inv (w : World) : Prop where
  hand : ∀ h ∈ w.handles, h.addr < w.next
  est : ∀ i a, Has w i a → a < w.next
  apart : ∀ i j a, Has w i a → Has w j a → i = j
  origin : ∀ h ∈ w.handles, ∀ i, Has w i h.addr → h.origin = some i
  live : ∀ h ∈ w.handles, ∀ i, h.origin = some i → Has w i h.addr
  wts : ∀ x ∈ w.weights, ∀ a, x.params = some a → ⟨a, none⟩ ∈ w.handles

theorem Inv.start : Inv World.start := by
  constructor <;> simp [World.start, Has]

theorem getElem?_set' {α : Type} (l : List α) (i j : Nat) (x : α) (h : i < l.length) :
    (l.set i x)[j]? = if j = i then some x else l[j]? := by
  rw [List.getElem?_set]
  by_cases e : j = i
  · subst e; simp [h]
  · simp [e, Ne.symm e]

theorem lt_of_some {α : Type} {l : List α} {i : Nat} {x : α} (h : l[i]? = some x) : i < l.length := by
  rcases Nat.lt_or_ge i l.length with hc | hc
  · exact hc
  · rw [List.getElem?_eq_none hc] at h
    cases h

/-- changes that leave addresses alone -/
theorem Inv.congr {w w' : World} (h : Inv w) (hn : w.next ≤ w'.next) (hh : w'.handles = w.handles)
    (hw : w'.weights = w.weights) (he : ∀ i a, Has w' i a ↔ Has w i a) : Inv w' where
  hand := by rw [hh]; exact fun x hx => Nat.lt_of_lt_of_le (h.hand x hx) hn
  est := fun i a hi => Nat.lt_of_lt_of_le (h.est i a ((he i a).1 hi)) hn
  apart := fun i j a hi hj => h.apart i j a ((he i a).1 hi) ((he j a).1 hj)
  origin := by rw [hh]; exact fun x hx i hi => h.origin x hx i ((he _ _).1 hi)
  live := by rw [hh]; exact fun x hx i hi => (he _ _).2 (h.live x hx i hi)
  wts := by rw [hw, hh]; exact h.wts

theorem has_ests {w w' : World} (h : w'.ests = w.ests) (i a : Nat) : Has w' i a ↔ Has w i a := by
  unfold Has; rw [h]

theorem has_set {w : World} {i : Nat} {e e' : Est} (h : w.ests[i]? = some e) (hp : e'.params = e.params) (j a : Nat) :
    Has (w.setEst i e') j a ↔ Has w j a := by
  unfold Has World.setEst
  show (∃ f, (w.ests.set i e')[j]? = some f ∧ _) ↔ _
  rw [getElem?_set' _ _ _ _ (lt_of_some h)]
  by_cases hj : j = i
  · subst hj
    simp only [if_true, h, Option.some.injEq]
    constructor
    · rintro ⟨f, rfl, hf⟩; exact ⟨e, rfl, hp ▸ hf⟩
    · rintro ⟨f, rfl, hf⟩; exact ⟨e', rfl, hp ▸ hf⟩
  · rw [if_neg hj]

theorem Inv.alloc {w : World} (h : Inv w) (m : GoMap) : Inv (w.alloc m).1 :=
  h.congr (Nat.le_succ _) rfl rfl (has_ests rfl)

theorem Inv.store {w : World} (h : Inv w) (a : Nat) (m : GoMap) : Inv (w.store a m) :=
  h.congr (Nat.le_refl _) rfl rfl (has_ests rfl)

theorem Inv.setEst {w : World} (h : Inv w) {i : Nat} {e e' : Est} (he : w.ests[i]? = some e) (hp : e'.params = e.params) :
    Inv (w.setEst i e') :=
  h.congr (Nat.le_refl _) rfl rfl (has_set he hp)

theorem Inv.hold {w : World} (h : Inv w) (x : Handle) (hx : x.addr < w.next)
    (ho : ∀ i, Has w i x.addr → x.origin = some i) (hl : ∀ i, x.origin = some i → Has w i x.addr) : Inv (w.hold x) where
  hand := by
    intro y hy
    rcases List.mem_append.1 hy with hy | hy
    · exact h.hand y hy
    · rw [List.mem_singleton.1 hy]; exact hx
  est := h.est
  apart := h.apart
  origin := by
    intro y hy
    rcases List.mem_append.1 hy with hy | hy
    · exact h.origin y hy
    · rw [List.mem_singleton.1 hy]; exact ho
  live := by
    intro y hy
    rcases List.mem_append.1 hy with hy | hy
    · exact h.live y hy
    · rw [List.mem_singleton.1 hy]; exact hl
  wts := fun y hy a ha => List.mem_append_left _ (h.wts y hy a ha)

/-- an address nobody has is held by no estimator -/
theorem Inv.fresh {w : World} (h : Inv w) (i : Nat) : ¬ Has w i w.next := fun hc => Nat.lt_irrefl _ (h.est i _ hc)

/-- estimator `i` receives a fresh map -/
theorem Inv.give {w : World} (h : Inv w) {i : Nat} {e e' : Est} (he : w.ests[i]? = some e) (hn : e.params = none) (m : GoMap)
    (hp : e'.params = some w.next) : Inv ((w.alloc m).1.setEst i e') := by
  have hh : ∀ j a, Has ((w.alloc m).1.setEst i e') j a ↔ (j = i ∧ a = w.next) ∨ Has w j a := by
    intro j a
    unfold Has
    show (∃ f, (w.ests.set i e')[j]? = some f ∧ _) ↔ _
    rw [getElem?_set' _ _ _ _ (lt_of_some he)]
    by_cases hj : j = i
    · subst hj
      simp only [if_true, Option.some.injEq, he, true_and]
      constructor
      · rintro ⟨f, rfl, hf⟩
        rw [hp] at hf; exact Or.inl (Option.some.inj hf).symm
      · rintro (rfl | ⟨f, rfl, hf⟩)
        · exact ⟨e', rfl, hp⟩
        · rw [hn] at hf; cases hf
    · simp [hj]
  refine ⟨?_, ?_, ?_, ?_, ?_, ?_⟩
  · exact fun x hx => Nat.lt_succ_of_lt (h.hand x hx)
  · intro j a hj
    rcases (hh j a).1 hj with ⟨_, rfl⟩ | hj
    · exact Nat.lt_succ_self _
    · exact Nat.lt_succ_of_lt (h.est j a hj)
  · intro j k a hj hk
    rcases (hh j a).1 hj with ⟨h1, h2⟩ | hj' <;> rcases (hh k a).1 hk with ⟨h3, h4⟩ | hk'
    · rw [h1, h3]
    · exact absurd (h2 ▸ hk') (h.fresh k)
    · exact absurd (h4 ▸ hj') (h.fresh j)
    · exact h.apart j k a hj' hk'
  · intro x hx j hj
    rcases (hh j x.addr).1 hj with ⟨_, h2⟩ | hj
    · exact absurd (h.hand x hx) (by omega)
    · exact h.origin x hx j hj
  · exact fun x hx j hj => (hh _ _).2 (Or.inr (h.live x hx j hj))
  · exact h.wts

/-- a new estimator with a fresh map or none -/
theorem Inv.push {w : World} (h : Inv w) (e : Est) (he : e.params = none ∨ ∃ n, w.next = n + 1 ∧ e.params = some n ∧
    (∀ i, ¬ Has w i n) ∧ ∀ x ∈ w.handles, x.addr ≠ n) : Inv { w with ests := w.ests ++ [e] } := by
  have hh : ∀ j a, Has { w with ests := w.ests ++ [e] } j a ↔ (j = w.ests.length ∧ e.params = some a) ∨ Has w j a := by
    intro j a
    unfold Has
    show (∃ f, (w.ests ++ [e])[j]? = some f ∧ _) ↔ _
    rcases Nat.lt_trichotomy j w.ests.length with hj | hj | hj
    · rw [List.getElem?_append_left hj]
      simp [Nat.ne_of_lt hj]
    · subst hj
      simp
    · rw [List.getElem?_eq_none (by simp; omega)]
      simp only [reduceCtorEq, false_and, exists_false, false_iff, not_or]
      refine ⟨fun hc => by omega, ?_⟩
      rintro ⟨f, hf, _⟩
      have := lt_of_some hf
      omega
  refine ⟨h.hand, ?_, ?_, ?_, ?_, h.wts⟩
  · intro j a hj
    rcases (hh j a).1 hj with ⟨_, h2⟩ | hj
    · rcases he with he | ⟨n, hn, he, _⟩
      · rw [he] at h2; cases h2
      · rw [he] at h2
        have := Option.some.inj h2
        show a < w.next
        omega
    · exact h.est j a hj
  · intro j k a hj hk
    rcases (hh j a).1 hj with ⟨h1, h2⟩ | hj <;> rcases (hh k a).1 hk with ⟨h3, h4⟩ | hk
    · rw [h1, h3]
    · rcases he with he | ⟨n, hn, he, hf, _⟩
      · rw [he] at h2; cases h2
      · rw [he] at h2; cases h2
        exact absurd hk (hf k)
    · rcases he with he | ⟨n, hn, he, hf, _⟩
      · rw [he] at h4; cases h4
      · rw [he] at h4; cases h4
        exact absurd hj (hf j)
    · exact h.apart j k a hj hk
  · intro x hx j hj
    rcases (hh j x.addr).1 hj with ⟨_, h2⟩ | hj
    · rcases he with he | ⟨n, hn, he, _, hf⟩
      · rw [he] at h2; cases h2
      · rw [he] at h2
        exact absurd (Option.some.inj h2).symm (hf x hx)
    · exact h.origin x hx j hj
  · exact fun x hx j hj => (hh _ _).2 (Or.inr (h.live x hx j hj))

theorem Inv.getParams {w : World} (h : Inv w) (e : Est) (deep : Bool) : Inv (getParams w e deep).1 := by
  unfold BaseEst.getParams
  rcases e.params with _ | a
  · exact h.alloc _
  · cases deep
    · exact h
    · exact h.alloc _

/-- what `GetParams` hands out -/
theorem getParams_addr {w : World} (e : Est) (deep : Bool) :
    (getParams w e deep).2 = w.next ∧ (getParams w e deep).1.next = w.next + 1 ∨
    ∃ a, e.params = some a ∧ deep = false ∧ getParams w e deep = (w, a) := by
  unfold BaseEst.getParams
  rcases hp : e.params with _ | a
  · exact Or.inl ⟨rfl, rfl⟩
  · cases deep
    · exact Or.inr ⟨a, rfl, rfl, rfl⟩
    · exact Or.inl ⟨rfl, rfl⟩

theorem getParams_frame (w : World) (e : Est) (deep : Bool) :
    (getParams w e deep).1.ests = w.ests ∧ (getParams w e deep).1.handles = w.handles ∧
    (getParams w e deep).1.weights = w.weights ∧ (getParams w e deep).1.cells = w.cells ∧
    ∀ a, a ≠ w.next → (getParams w e deep).1.maps a = w.maps a := by
  unfold BaseEst.getParams
  rcases e.params with _ | a
  · refine ⟨rfl, rfl, rfl, rfl, fun b hb => ?_⟩
    show (if b = w.next then _ else w.maps b) = _
    rw [if_neg hb]
  · cases deep
    · exact ⟨rfl, rfl, rfl, rfl, fun _ _ => rfl⟩
    · refine ⟨rfl, rfl, rfl, rfl, fun b hb => ?_⟩
      show (if b = w.next then _ else w.maps b) = _
      rw [if_neg hb]

theorem Inv.setParams {w : World} (h : Inv w) {i : Nat} {e : Est} (he : w.ests[i]? = some e) (src : Option Nat) :
    Inv (setParams w i e src) := by
  unfold BaseEst.setParams
  rcases hp : e.params with _ | a
  · have h1 := h.give (e' := { e with params := some w.next }) he hp GoMap.empty rfl
    refine h1.congr (Nat.le_refl _) rfl rfl (fun j b => ?_)
    exact has_ests rfl j b
  · exact h.store _ _

theorem setParams_est {w : World} {i : Nat} {e : Est} (he : w.ests[i]? = some e) (src : Option Nat) :
    ∃ a, (setParams w i e src).ests[i]? = some { e with params := some a } ∧
      (∀ b, e.params = some b → a = b) ∧ (e.params = none → a = w.next) := by
  unfold BaseEst.setParams
  rcases hp : e.params with _ | a
  · refine ⟨w.next, ?_, ⟨fun b hb => (nomatch hb), fun _ => rfl⟩⟩
    show (w.ests.set i _)[i]? = _
    rw [getElem?_set' _ _ _ _ (lt_of_some he), if_pos rfl]
  · refine ⟨a, ?_, ⟨fun b hb => Option.some.inj hb, fun hc => (nomatch hc)⟩⟩
    show w.ests[i]? = _
    rw [he, ← hp]

theorem Inv.import {w : World} (h : Inv w) {i : Nat} {e : Est} (he : w.ests[i]? = some e) (wt : Option Weights) :
    Inv (importWeights w i e wt).1 := by
  unfold importWeights
  rcases wt with _ | wt
  · exact h
  · by_cases hm : wt.modelType ≠ e.modelType
    · simp only [if_pos hm]; exact h
    · simp only [if_neg hm]
      have he' : (w.setEst i { e with version := wt.version }).ests[i]? = some { e with version := wt.version } := by
        show (w.ests.set i _)[i]? = _
        rw [getElem?_set' _ _ _ _ (lt_of_some he), if_pos rfl]
      have h1 : Inv (w.setEst i { e with version := wt.version }) := h.setEst he rfl
      have h2 := h1.setParams he' wt.params
      obtain ⟨a, ha, _⟩ := setParams_est he' wt.params
      rw [ha]
      by_cases hf : wt.fitted = true
      · simp only [if_pos hf]
        exact h2.setEst ha rfl
      · simp only [if_neg hf]; exact h2

theorem Inv.stepEst {w : World} (h : Inv w) {i : Nat} {e : Est} (he : w.ests[i]? = some e) (o : Op) : Inv (stepEst w i e o) := by
  cases o with
  | getParams _ deep =>
    show Inv ((BaseEst.getParams w e deep).1.hold _)
    have hi := h.getParams e deep
    obtain ⟨f1, f2, f3, f4, f5⟩ := getParams_frame w e deep
    rcases getParams_addr (w := w) e deep with ⟨ha, hn⟩ | ⟨a, hp, rfl, hg⟩
    · have hfresh : ∀ j, ¬ Has (BaseEst.getParams w e deep).1 j (BaseEst.getParams w e deep).2 := by
        intro j hj
        rw [has_ests f1, ha] at hj
        exact h.fresh j hj
      have horig : (if deep = true then none else e.params.map fun _ => i) = none := by
        cases deep
        · rcases hp : e.params with _ | a
          · rfl
          · exfalso
            have : (BaseEst.getParams w e false) = (w, a) := by unfold BaseEst.getParams; rw [hp]; rfl
            rw [this] at hn
            simp at hn
        · rfl
      refine hi.hold _ ?_ (fun j hj => absurd hj (hfresh j)) (fun j hj => ?_)
      · show (BaseEst.getParams w e deep).2 < _
        omega
      · exact absurd (horig.symm.trans hj) (by simp)
    · rw [hg, hp]
      have hw : Has w i a := ⟨e, he, hp⟩
      refine h.hold _ (h.est i a hw) (fun j hj => ?_) (fun j hj => ?_)
      · exact congrArg some (h.apart i j a hw hj)
      · cases hj; exact hw
  | setParams _ x => exact h.setParams he _
  | setFitted _ => exact h.setEst he rfl
  | reset _ => exact h.setEst he rfl
  | setLogger _ l => exact h.setEst he rfl
  | clone _ =>
    have h1 := h.alloc (GoMap.merge (w.load e.params) GoMap.empty)
    refine h1.push ⟨e.fitted, some w.next, e.modelType, e.version, none⟩ (Or.inr ⟨w.next, rfl, rfl, ?_, ?_⟩)
    · intro j hj
      exact h.fresh j ((has_ests rfl j _).1 hj)
    · intro x hx hc
      have := h.hand x hx
      omega
  | exportTo _ =>
    by_cases hf : e.fitted = true
    · have hx : exportWeights w e = ((BaseEst.getParams w e true).1,
          .ok ⟨e.modelType, e.version, e.fitted, some (BaseEst.getParams w e true).2⟩) := by
        unfold exportWeights; rw [if_pos hf]
      show Inv (match exportWeights w e with | (w', .ok wt) => _ | (w', _) => w')
      rw [hx]
      have hi := h.getParams e true
      obtain ⟨f1, f2, f3, f4, f5⟩ := getParams_frame w e true
      have ha : (BaseEst.getParams w e true).2 = w.next ∧ (BaseEst.getParams w e true).1.next = w.next + 1 := by
        rcases getParams_addr (w := w) e true with ha | ⟨_, _, hc, _⟩
        · exact ha
        · cases hc
      have h3 := hi.hold ⟨(BaseEst.getParams w e true).2, none⟩ (by rw [ha.2]; show (BaseEst.getParams w e true).2 < _; omega)
        (fun j hj => by
          exfalso
          rw [has_ests f1] at hj
          rw [ha.1] at hj
          exact h.fresh j hj) (fun j hj => by cases hj)
      refine ⟨h3.hand, h3.est, h3.apart, h3.origin, h3.live, ?_⟩
      intro y hy a hya
      rcases List.mem_append.1 hy with hy | hy
      · exact h3.wts y hy a hya
      · rw [List.mem_singleton.1 hy] at hya
        cases hya
        exact List.mem_append_right _ (by simp)
    · have hx : exportWeights w e = (w, .err (.other "model is not fitted")) := by
        unfold exportWeights; rw [if_neg hf]
      show Inv (match exportWeights w e with | (w', .ok wt) => _ | (w', _) => w')
      rw [hx]; exact h
  | importFrom _ j => exact h.import he _
  | new _ _ => exact h
  | makeMap => exact h
  | put _ _ _ => exact h
  | poke _ _ => exact h

/-- how a method call steps -/
theorem step_target {w : World} {o : Op} {i : Nat} (ht : o.target = some i) :
    step w o = match w.ests[i]? with | none => w | some e => stepEst w i e o := by
  cases o <;> simp [Op.target] at ht <;> subst ht <;> simp only [step, Op.target, Option.bind_some] <;>
    rcases w.ests[_]? with _ | e <;> rfl

theorem Inv.step {w : World} (h : Inv w) (o : Op) : Inv (step w o) := by
  rcases ht : o.target with _ | i
  · cases o <;> simp [Op.target] at ht
    · exact h.push _ (Or.inl rfl)
    · exact (h.alloc _).hold _ (Nat.lt_succ_self _) (fun j hj => absurd ((has_ests rfl j _).1 hj) (h.fresh j)) (fun j hj => by cases hj)
    · rename_i x k v
      show Inv (match w.handles[x]? with | none => w | some y => _)
      rcases w.handles[x]? with _ | y
      · exact h
      · exact h.store _ _
    · exact h.congr (Nat.le_refl _) rfl rfl (has_ests rfl)
  · rw [step_target ht]
    rcases he : w.ests[i]? with _ | e
    · exact h
    · exact h.stepEst he o

theorem inv_foldl (os : List Op) (w : World) (h : Inv w) : Inv (os.foldl BaseEst.step w) := by
  induction os generalizing w with
  | nil => exact h
  | cons o os ih => exact ih _ (h.step o)

/-- every reachable memory satisfies the invariant -/
theorem inv_run (os : List Op) : Inv (run os) := inv_foldl os _ Inv.start

end Scigo.BaseEst
