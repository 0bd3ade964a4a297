import Verif.Trainer.Callbacks

/-!
# Callbacks of the trainer: lemmas
-/

namespace Scigo.Trainer.Callbacks

set_option linter.unusedSectionVars false

variable {τ α β κ T χ : Type}

/-- the trainer goes through the states `st 0, st 1, …, st n` when nothing stops it -/
def Run (M : Machine T τ α β) (st : Nat → T) (n : Nat) : Prop := ∀ i < n, M.step i (st i) = .ok (st (i + 1))

/-- the component of a callback can be read back and written -/
structure Part.Lawful (p : Part κ χ) : Prop where
  get_set : ∀ x k, p.get (p.set x k) = x

/-- a callback that succeeds, leaves the environment and the component read by `get` alone; it may do anything
else -/
def Bystander (get : κ → χ) (c : Call (St τ α β κ)) : Prop :=
  ∀ s, (c s).2 = .ok () ∧ (c s).1.env = s.env ∧ get (c s).1.own = get s.own

/-- the whole state as a component -/
def Part.self : Part χ χ := ⟨id, fun x _ => x⟩

/-- what is left of a state for the owner of a component -/
def St.view (get : κ → χ) (s : St τ α β κ) : St τ α β χ := ⟨s.env, get s.own⟩

theorem bystander_view {get : κ → χ} {c : Call (St τ α β κ)} (h : Bystander get c) (s : St τ α β κ) :
    (c s).1.view get = s.view get := by
  unfold St.view; rw [(h s).2.1, (h s).2.2]

theorem on_view {p : Part κ χ} (hp : p.Lawful) (f : Lib τ α β χ) (s : St τ α β κ) :
    (f.on p s).1.view p.get = (f.on Part.self (s.view p.get)).1 ∧ (f.on p s).2 = (f.on Part.self (s.view p.get)).2 := by
  constructor
  · unfold St.view Lib.on Part.self; dsimp only [id]; rw [hp.get_set]
  · rfl

theorem runAfter_bystanders {get : κ → χ} : ∀ (cs : List (Call (St τ α β κ))) (_ : ∀ c ∈ cs, Bystander get c) (s : St τ α β κ),
    (runAfter cs s).2 = .ok () ∧ (runAfter cs s).1.view get = s.view get
  | [], _, s => ⟨rfl, rfl⟩
  | c :: cs, h, s => by
    have hc := h c (by simp)
    have ih := runAfter_bystanders cs (fun c' h' => h c' (by simp [h'])) (c s).1
    unfold runAfter
    rw [(hc s).1]
    exact ⟨ih.1, by rw [ih.2, bystander_view hc]⟩

theorem runBefore_bystanders {get : κ → χ} : ∀ (cs : List (Call (St τ α β κ))) (_ : ∀ c ∈ cs, Bystander get c) (s : St τ α β κ),
    (runBefore cs s).2 = .ok () ∧ (runBefore cs s).1.view get = s.view get
  | [], _, s => ⟨rfl, rfl⟩
  | c :: cs, h, s => by
    have hc := h c (by simp)
    have ih := runBefore_bystanders cs (fun c' h' => h c' (by simp [h'])) (c s).1
    unfold runBefore
    rw [(hc s).1]
    dsimp only
    by_cases hs : (c s).1.env.stop = true
    · rw [if_pos hs]; exact ⟨rfl, bystander_view hc s⟩
    · rw [if_neg hs]; exact ⟨ih.1, by rw [ih.2, bystander_view hc]⟩

theorem runAfter_among {p : Part κ χ} (hp : p.Lawful) (f : Lib τ α β χ) (post : List (Call (St τ α β κ)))
    (hpost : ∀ c ∈ post, Bystander p.get c) : ∀ (pre : List (Call (St τ α β κ))) (_ : ∀ c ∈ pre, Bystander p.get c) (s : St τ α β κ),
    (runAfter (pre ++ f.on p :: post) s).1.view p.get = (runAfter [f.on Part.self] (s.view p.get)).1 ∧
    (runAfter (pre ++ f.on p :: post) s).2 = (runAfter [f.on Part.self] (s.view p.get)).2
  | [], _, s => by
    have h := on_view hp f s
    show (runAfter (f.on p :: post) s).1.view p.get = _ ∧ (runAfter (f.on p :: post) s).2 = _
    unfold runAfter
    rw [← h.2]
    generalize hq : (f.on p s).2 = o
    rcases o with _ | e | e
    · have hb := runAfter_bystanders post hpost (f.on p s).1
      dsimp only [runAfter]
      exact ⟨by rw [hb.2, h.1], hb.1⟩
    · exact ⟨h.1, rfl⟩
    · exact ⟨h.1, rfl⟩
  | c :: pre, hpre, s => by
    have hc := hpre c (by simp)
    have ih := runAfter_among hp f post hpost pre (fun c' h' => hpre c' (by simp [h'])) (c s).1
    rw [bystander_view hc] at ih
    show (runAfter (c :: (pre ++ f.on p :: post)) s).1.view p.get = _ ∧ (runAfter (c :: (pre ++ f.on p :: post)) s).2 = _
    rw [runAfter.eq_def (c :: _) s]
    dsimp only
    rw [(hc s).1]
    exact ih

theorem view_stop (get : κ → χ) (s : St τ α β κ) : (s.view get).env.stop = s.env.stop := rfl

theorem runBefore_among {p : Part κ χ} (hp : p.Lawful) (f : Lib τ α β χ) (post : List (Call (St τ α β κ)))
    (hpost : ∀ c ∈ post, Bystander p.get c) : ∀ (pre : List (Call (St τ α β κ))) (_ : ∀ c ∈ pre, Bystander p.get c) (s : St τ α β κ)
    (_ : s.env.stop = false),
    (runBefore (pre ++ f.on p :: post) s).1.view p.get = (runBefore [f.on Part.self] (s.view p.get)).1 ∧
    (runBefore (pre ++ f.on p :: post) s).2 = (runBefore [f.on Part.self] (s.view p.get)).2
  | [], _, s, _ => by
    have h := on_view hp f s
    show (runBefore (f.on p :: post) s).1.view p.get = _ ∧ (runBefore (f.on p :: post) s).2 = _
    unfold runBefore
    rw [← h.2]
    generalize hq : (f.on p s).2 = o
    rcases o with _ | e | e
    · have hb := runBefore_bystanders post hpost (f.on p s).1
      dsimp only [runBefore]
      rw [← h.1, view_stop]
      by_cases hs : (f.on p s).1.env.stop = true
      · rw [if_pos hs, if_pos hs]; exact ⟨rfl, rfl⟩
      · rw [if_neg hs, if_neg hs]; exact ⟨hb.2, hb.1⟩
    · exact ⟨h.1, rfl⟩
    · exact ⟨h.1, rfl⟩
  | c :: pre, hpre, s, hs => by
    have hc := hpre c (by simp)
    have hs' : (c s).1.env.stop = false := by rw [(hc s).2.1]; exact hs
    have ih := runBefore_among hp f post hpost pre (fun c' h' => hpre c' (by simp [h'])) (c s).1 hs'
    rw [bystander_view hc] at ih
    show (runBefore (c :: (pre ++ f.on p :: post)) s).1.view p.get = _ ∧ (runBefore (c :: (pre ++ f.on p :: post)) s).2 = _
    rw [runBefore.eq_def (c :: _) s]
    dsimp only
    rw [(hc s).1]
    dsimp only
    rw [if_neg (by rw [hs']; decide)]
    exact ih

/-- what a callback among bystanders does is what it does alone -/
theorem fitLoop_among {p : Part κ χ} (hp : p.Lawful) (M : Machine T τ α β) (f : Lib τ α β χ) (pre post : List (Call (St τ α β κ)))
    (hpre : ∀ c ∈ pre, Bystander p.get c) (hpost : ∀ c ∈ post, Bystander p.get c) :
    ∀ (n iter : Nat) (t : T) (s : St τ α β κ) (_ : s.env.stop = false),
    ((fitLoop M (pre ++ f.on p :: post) n iter t s).1 = (fitLoop M [f.on Part.self] n iter t (s.view p.get)).1) ∧
    ((fitLoop M (pre ++ f.on p :: post) n iter t s).2.1.view p.get = (fitLoop M [f.on Part.self] n iter t (s.view p.get)).2.1) ∧
    ((fitLoop M (pre ++ f.on p :: post) n iter t s).2.2 = (fitLoop M [f.on Part.self] n iter t (s.view p.get)).2.2)
  | 0, _, _, _, _ => ⟨rfl, rfl, rfl⟩
  | n + 1, iter, t, s, hs => by
    have hb := runBefore_among hp f post hpost pre hpre (s.before iter (M.snap t)) hs
    have hv : (s.before iter (M.snap t)).view p.get = (s.view p.get).before iter (M.snap t) := rfl
    rw [hv] at hb
    have ih := fitLoop_among hp M f pre post hpre hpost n
    unfold fitLoop
    rw [← hb.2, ← hb.1]
    generalize runBefore (pre ++ f.on p :: post) (s.before iter (M.snap t)) = b
    obtain ⟨b1, o⟩ := b
    rcases o with _ | e | e
    · dsimp only
      rw [view_stop]
      by_cases hst : b1.env.stop = true
      · rw [if_pos hst, if_pos hst]; exact ⟨rfl, rfl, rfl⟩
      · rw [if_neg hst, if_neg hst]
        generalize M.step iter t = w
        rcases w with t' | e | e
        · dsimp only
          have ha := runAfter_among hp f post hpost pre hpre (b1.after iter (M.snap t') (M.eval t'))
          have hv' : (b1.after iter (M.snap t') (M.eval t')).view p.get = (b1.view p.get).after iter (M.snap t') (M.eval t') := rfl
          rw [hv'] at ha
          rw [← ha.2, ← ha.1]
          generalize runAfter (pre ++ f.on p :: post) (b1.after iter (M.snap t') (M.eval t')) = a
          obtain ⟨a1, o⟩ := a
          rcases o with _ | e | e
          · dsimp only
            rw [view_stop]
            by_cases hst' : a1.env.stop = true
            · rw [if_pos hst', if_pos hst']; exact ⟨rfl, rfl, rfl⟩
            · rw [if_neg hst', if_neg hst']
              exact ih (iter + 1) t' a1 (by simpa using hst')
          · exact ⟨rfl, rfl, rfl⟩
          · exact ⟨rfl, rfl, rfl⟩
        · exact ⟨rfl, rfl, rfl⟩
        · exact ⟨rfl, rfl, rfl⟩
    · exact ⟨rfl, rfl, rfl⟩
    · exact ⟨rfl, rfl, rfl⟩

/-- the environment of the calls before iteration `i`, if the run began with the results `e0` -/
def envBefore (M : Machine T τ α β) (st : Nat → T) (e0 : List (String × Option β)) (i : Nat) : Env τ α β :=
  ⟨some (M.snap (st i)), i, if i = 0 then e0 else M.eval (st i), false⟩

/-- the environment of the calls after iteration `i` -/
def envAfter (M : Machine T τ α β) (st : Nat → T) (i : Nat) : Env τ α β :=
  ⟨some (M.snap (st (i + 1))), i, M.eval (st (i + 1)), false⟩

/-- callbacks that never fail nor stop, and change of the environment at most the model -/
structure Calm (cbs : List (Call (St τ α β κ))) (g : Env τ α β → κ → κ) : Prop where
  before : ∀ s m, s.env.stop = false → s.env.model = some m →
    ∃ m', runBefore cbs s = (⟨{ s.env with model := m' }, g s.env s.own⟩, .ok ())
  after : ∀ s m, s.env.stop = false → s.env.model = some m →
    ∃ m', runAfter cbs s = (⟨{ s.env with model := m' }, g s.env s.own⟩, .ok ())

theorem calm_loop {M : Machine T τ α β} {cbs : List (Call (St τ α β κ))} {g : Env τ α β → κ → κ} (hc : Calm cbs g) {st : Nat → T}
    (e0 : List (String × Option β)) :
    ∀ (n iter : Nat) (s : St τ α β κ) (_ : ∀ i, iter ≤ i → i < iter + n → M.step i (st i) = .ok (st (i + 1)))
      (_ : s.env.stop = false) (_ : s.env.eval = if iter = 0 then e0 else M.eval (st iter)),
    (fitLoop M cbs n iter (st iter) s).1 = st (iter + n) ∧ (fitLoop M cbs n iter (st iter) s).2.2 = .ok () ∧
    (fitLoop M cbs n iter (st iter) s).2.1.env.stop = false ∧
    (fitLoop M cbs n iter (st iter) s).2.1.own =
      (List.range' iter n).foldl (fun x i => g (envAfter M st i) (g (envBefore M st e0 i) x)) s.own
  | 0, iter, s, _, hs, _ => ⟨rfl, rfl, hs, rfl⟩
  | n + 1, iter, s, hrun, hs, he => by
    obtain ⟨m1, h1⟩ := hc.before (s.before iter (M.snap (st iter))) _ hs rfl
    have hB : (s.before iter (M.snap (st iter))).env = envBefore M st e0 iter := by
      unfold St.before envBefore; dsimp only; rw [he, hs]
    have hO : (s.before iter (M.snap (st iter))).own = s.own := rfl
    rw [hB, hO] at h1
    unfold fitLoop
    rw [h1]
    dsimp only
    have hst : (envBefore M st e0 iter).stop = false := rfl
    rw [if_neg (by rw [hst]; decide), hrun iter (Nat.le_refl _) (by omega)]
    dsimp only
    generalize hs2 : St.after (⟨{ envBefore M st e0 iter with model := m1 }, g (envBefore M st e0 iter) s.own⟩ : St τ α β κ) iter
      (M.snap (st (iter + 1))) (M.eval (st (iter + 1))) = s2
    have hA : s2.env = envAfter M st iter := by rw [← hs2]; rfl
    have hO2 : s2.own = g (envBefore M st e0 iter) s.own := by rw [← hs2]; rfl
    obtain ⟨m2, h2⟩ := hc.after s2 (M.snap (st (iter + 1))) (by rw [hA]; rfl) (by rw [hA]; rfl)
    rw [hA, hO2] at h2
    rw [h2]
    dsimp only
    have hst' : (envAfter M st iter).stop = false := rfl
    rw [if_neg (by rw [hst']; decide)]
    have ih := calm_loop hc e0 n (iter + 1)
      ⟨{ envAfter M st iter with model := m2 }, g (envAfter M st iter) (g (envBefore M st e0 iter) s.own)⟩
      (fun i h1 h2 => hrun i (by omega) (by omega)) rfl (by rw [if_neg (by omega)]; rfl)
    rw [show iter + 1 + n = iter + (n + 1) by omega] at ih
    rw [List.range'_succ, List.foldl_cons]
    exact ih

theorem calm_single {f : Lib τ α β χ} {g : Env τ α β → χ → χ}
    (h : ∀ e x m, e.stop = false → e.model = some m → ∃ m', f e x = (({ e with model := m' }, g e x), .ok ())) :
    Calm [f.on Part.self] g := by
  constructor
  · intro s m hs hm
    obtain ⟨m', h'⟩ := h s.env s.own m hs hm
    refine ⟨m', ?_⟩
    have : f.on Part.self s = (⟨{ s.env with model := m' }, g s.env s.own⟩, .ok ()) := by
      unfold Lib.on Part.self; dsimp only [id]; rw [h']
    unfold runBefore
    rw [this]
    dsimp only [runBefore]
    rw [if_neg (by rw [hs]; decide)]
  · intro s m hs hm
    obtain ⟨m', h'⟩ := h s.env s.own m hs hm
    refine ⟨m', ?_⟩
    have : f.on Part.self s = (⟨{ s.env with model := m' }, g s.env s.own⟩, .ok ()) := by
      unfold Lib.on Part.self; dsimp only [id]; rw [h']
    unfold runAfter
    rw [this]
    rfl

/-- a callback among bystanders, never failing nor stopping: the trainer runs to its end, and the own state has
gone through all calls -/
theorem fit_calm {M : Machine T τ α β} {p : Part κ χ} (hp : p.Lawful) {f : Lib τ α β χ} {g : Env τ α β → χ → χ}
    (h : ∀ e x m, e.stop = false → e.model = some m → ∃ m', f e x = (({ e with model := m' }, g e x), .ok ()))
    {pre post : List (Call (St τ α β κ))} (hpre : ∀ c ∈ pre, Bystander p.get c) (hpost : ∀ c ∈ post, Bystander p.get c)
    {st : Nat → T} {n : Nat} (hrun : Run M st n) (own : κ) :
    (fitWithCallbacks M (pre ++ f.on p :: post) n (st 0) own).1 = st n ∧
    (fitWithCallbacks M (pre ++ f.on p :: post) n (st 0) own).2.2 = .ok () ∧
    p.get (fitWithCallbacks M (pre ++ f.on p :: post) n (st 0) own).2.1.own =
      (List.range n).foldl (fun x i => g (envAfter M st i) (g (envBefore M st [] i) x)) (p.get own) := by
  unfold fitWithCallbacks fit
  have ha := fitLoop_among hp M f pre post hpre hpost n 0 (st 0) (St.fresh own) rfl
  have hl := calm_loop (calm_single h) (M := M) (st := st) [] n 0 ((St.fresh own).view p.get) (fun i _ h2 => hrun i (by omega)) rfl rfl
  rw [show 0 + n = n by omega] at hl
  refine ⟨by rw [ha.1, hl.1], by rw [ha.2.2, hl.2.1], ?_⟩
  have h3 : p.get (fitLoop M (pre ++ f.on p :: post) n 0 (st 0) (St.fresh own)).2.1.own =
      (fitLoop M [f.on Part.self] n 0 (st 0) ((St.fresh own).view p.get)).2.1.own := by rw [← ha.2.1]; rfl
  rw [h3, hl.2.2.2, ← List.range_eq_range']
  rfl

end Scigo.Trainer.Callbacks
