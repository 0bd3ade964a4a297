import Verif.Trainer.CallbackLemmas
import Mathlib.Order.Defs.LinearOrder
import Mathlib.Order.Basic
import Mathlib.Tactic.Ring

/-!
# Callbacks of the trainer: theorems
-/

namespace Scigo.Trainer.Callbacks

set_option linter.unusedSectionVars false

variable {τ α β κ T χ : Type}

/-! ## Which iterations are made -/

/-- the trainer after `k` iterations without interference -/
def steps (M : Machine T τ α β) (t : T) : Nat → Outcome T
  | 0 => .ok t
  | k + 1 => (steps M t k).bind (M.step k)

/-- the trainer, started at iteration `iter` -/
def stepsFrom (M : Machine T τ α β) (iter : Nat) (t : T) : Nat → Outcome T
  | 0 => .ok t
  | k + 1 => (M.step iter t).bind fun t' => stepsFrom M (iter + 1) t' k

theorem stepsFrom_succ (M : Machine T τ α β) : ∀ (k iter : Nat) (t : T),
    stepsFrom M iter t (k + 1) = (stepsFrom M iter t k).bind (M.step (iter + k))
  | 0, iter, t => by
    show (M.step iter t).bind (fun t' => .ok t') = M.step (iter + 0) t
    rw [Nat.add_zero]
    rcases M.step iter t with _ | _ | _ <;> rfl
  | k + 1, iter, t => by
    show (M.step iter t).bind (fun t' => stepsFrom M (iter + 1) t' (k + 1)) =
      ((M.step iter t).bind fun t' => stepsFrom M (iter + 1) t' k).bind (M.step (iter + (k + 1)))
    rcases M.step iter t with t' | _ | _
    · show stepsFrom M (iter + 1) t' (k + 1) = (stepsFrom M (iter + 1) t' k).bind (M.step (iter + (k + 1)))
      rw [stepsFrom_succ M k (iter + 1) t', show iter + 1 + k = iter + (k + 1) by omega]
    · rfl
    · rfl

theorem stepsFrom_zero (M : Machine T τ α β) (t : T) : ∀ k, stepsFrom M 0 t k = steps M t k
  | 0 => rfl
  | k + 1 => by rw [stepsFrom_succ, stepsFrom_zero M t k, Nat.zero_add]; rfl

theorem loop_prefix (M : Machine T τ α β) (cbs : List (Call (St τ α β κ))) : ∀ (n iter : Nat) (t : T) (s : St τ α β κ),
    ∃ k ≤ n, stepsFrom M iter t k = .ok (fitLoop M cbs n iter t s).1 ∧
      ((fitLoop M cbs n iter t s).2.2 = .ok () → (fitLoop M cbs n iter t s).2.1.env.stop = false → k = n) ∧
      (0 < n → (fitLoop M cbs n iter t s).2.2 = .ok () → (fitLoop M cbs n iter t s).2.1.env.stop = true →
        ∀ m, fitLoop M cbs (n + m) iter t s = fitLoop M cbs n iter t s)
  | 0, iter, t, s => ⟨0, le_refl _, rfl, fun _ _ => rfl, fun h => absurd h (by omega)⟩
  | n + 1, iter, t, s => by
    simp only [show ∀ m, n + 1 + m = (n + m) + 1 by omega]
    unfold fitLoop
    generalize runBefore cbs (s.before iter (M.snap t)) = b
    obtain ⟨b1, o⟩ := b
    rcases o with _ | e | e
    · dsimp only
      by_cases hst : b1.env.stop = true
      · rw [if_pos hst]
        refine ⟨0, by omega, rfl, fun _ h => ?_, fun _ _ _ m => by rw [if_pos hst]⟩
        simp [hst] at h
      · simp only [if_neg hst]
        cases hw : M.step iter t with
        | ok t' =>
          dsimp only
          generalize runAfter cbs (b1.after iter (M.snap t') (M.eval t')) = a
          obtain ⟨a1, o⟩ := a
          have h1 : ∀ k, stepsFrom M iter t (k + 1) = stepsFrom M (iter + 1) t' k := by
            intro k; show (M.step iter t).bind _ = _; rw [hw]; rfl
          rcases o with _ | e | e
          · dsimp only
            by_cases hst' : a1.env.stop = true
            · simp only [if_pos hst']
              refine ⟨1, by omega, by rw [h1]; rfl, fun _ h => ?_, fun _ _ _ m => by trivial⟩
              simp [hst'] at h
            · simp only [if_neg hst']
              obtain ⟨k, hk, h2, h3, h4⟩ := loop_prefix M cbs n (iter + 1) t' a1
              refine ⟨k + 1, by omega, by rw [h1]; exact h2, fun ha hb => by rw [h3 ha hb], ?_⟩
              intro _ ha hb m
              rcases Nat.eq_zero_or_pos n with rfl | hn
              · exact absurd hb (by simpa [fitLoop] using hst')
              · exact h4 hn ha hb m
          · exact ⟨1, by omega, by rw [h1]; rfl, fun h => by simp at h, fun _ h => by simp at h⟩
          · exact ⟨1, by omega, by rw [h1]; rfl, fun h => by simp at h, fun _ h => by simp at h⟩
        | err e => exact ⟨0, by omega, rfl, fun h => by simp at h, fun _ h => by simp at h⟩
        | panic e => exact ⟨0, by omega, rfl, fun h => by simp at h, fun _ h => by simp at h⟩
    · exact ⟨0, by omega, rfl, fun h => by simp at h, fun _ h => by simp at h⟩
    · exact ⟨0, by omega, rfl, fun h => by simp at h, fun _ h => by simp at h⟩

/-- C194: whatever the callbacks do, the trainer has made some number `k ≤ n` of its own iterations; without
error `k < n` only if a callback asked to stop, and after such a request a longer training would have ended at
the same point with the same result -/
theorem callbacks_trees (M : Machine T τ α β) (cbs : List (Call (St τ α β κ))) (n : Nat) (t : T) (own : κ) :
    (∃ k ≤ n, steps M t k = .ok (fitWithCallbacks M cbs n t own).1 ∧
      ((fitWithCallbacks M cbs n t own).2.2 = .ok () → (fitWithCallbacks M cbs n t own).2.1.env.stop = false → k = n)) ∧
    ((fitWithCallbacks M cbs n t own).2.2 = .ok () → (fitWithCallbacks M cbs n t own).2.1.env.stop = true →
      ∀ m, fitWithCallbacks M cbs (n + m) t own = fitWithCallbacks M cbs n t own) := by
  unfold fitWithCallbacks fit
  obtain ⟨k, hk, h1, h2, h3⟩ := loop_prefix M cbs n 0 t (St.fresh own)
  rw [stepsFrom_zero] at h1
  refine ⟨⟨k, hk, h1, h2⟩, ?_⟩
  intro ha hb
  rcases Nat.eq_zero_or_pos n with rfl | hn
  · simp [fitLoop, St.fresh] at hb
  · exact h3 hn ha hb

/-- a callback that succeeds and never takes back a request to stop -/
def Steady (c : Call (St τ α β κ)) : Prop := ∀ s, (c s).2 = .ok () ∧ (s.env.stop = true → (c s).1.env.stop = true) ∧
  (c s).1.env.iteration = s.env.iteration

theorem steady_before : ∀ (cs : List (Call (St τ α β κ))) (_ : ∀ c ∈ cs, Steady c) (s : St τ α β κ),
    (runBefore cs s).2 = .ok () ∧ (s.env.stop = true → (runBefore cs s).1.env.stop = true) ∧
    (∀ c ∈ cs, (∀ s', s'.env.iteration = s.env.iteration → (c s').1.env.stop = true) → (runBefore cs s).1.env.stop = true)
  | [], _, s => ⟨rfl, id, fun c h => absurd h (by simp)⟩
  | c :: cs, h, s => by
    have hc := h c (by simp) s
    have ih := steady_before cs (fun c' h' => h c' (by simp [h'])) (c s).1
    unfold runBefore
    rw [hc.1]
    dsimp only
    by_cases hs : (c s).1.env.stop = true
    · rw [if_pos hs]; exact ⟨rfl, fun _ => hs, fun _ _ _ => hs⟩
    · rw [if_neg hs]
      refine ⟨ih.1, fun h' => absurd (hc.2.1 h') hs, ?_⟩
      intro c' hc' hst
      rcases List.mem_cons.1 hc' with rfl | hm
      · exact absurd (hst s rfl) hs
      · exact ih.2.2 c' hm (fun s' hs' => hst s' (by rw [hs', hc.2.2]))

theorem steady_after : ∀ (cs : List (Call (St τ α β κ))) (_ : ∀ c ∈ cs, Steady c) (s : St τ α β κ), (runAfter cs s).2 = .ok ()
  | [], _, s => rfl
  | c :: cs, h, s => by
    unfold runAfter
    rw [(h c (by simp) s).1]
    exact steady_after cs (fun c' h' => h c' (by simp [h'])) (c s).1

theorem stop_loop (M : Machine T τ α β) (cbs : List (Call (St τ α β κ))) (hcs : ∀ c ∈ cbs, Steady c) (c : Call (St τ α β κ)) (hc : c ∈ cbs)
    (k : Nat) (hk : ∀ s, s.env.iteration = k → (c s).1.env.stop = true) : ∀ (n iter : Nat) (t : T) (s : St τ α β κ) (_ : iter ≤ k),
    ∃ j, iter + j ≤ k ∧ j ≤ n ∧ stepsFrom M iter t j = .ok (fitLoop M cbs n iter t s).1
  | 0, iter, t, s, h => ⟨0, h, le_refl _, rfl⟩
  | n + 1, iter, t, s, h => by
    have hb := steady_before cbs hcs (s.before iter (M.snap t))
    unfold fitLoop
    rw [hb.1]
    dsimp only
    by_cases hst : (runBefore cbs (s.before iter (M.snap t))).1.env.stop = true
    · rw [if_pos hst]; exact ⟨0, h, by omega, rfl⟩
    · rw [if_neg hst]
      have hne : iter ≠ k := by
        rintro rfl
        exact hst (hb.2.2 c hc (fun s' hs' => hk s' hs'))
      cases hw : M.step iter t with
      | ok t' =>
        dsimp only
        have h1 : ∀ k, stepsFrom M iter t (k + 1) = stepsFrom M (iter + 1) t' k := by
          intro k; show (M.step iter t).bind _ = _; rw [hw]; rfl
        rw [steady_after cbs hcs]
        dsimp only
        split
        · exact ⟨1, by omega, by omega, by rw [h1]; rfl⟩
        · obtain ⟨j, h2, h3, h4⟩ := stop_loop M cbs hcs c hc k hk n (iter + 1) t' _ (by omega)
          exact ⟨j + 1, by omega, by omega, by rw [h1]; exact h4⟩
      | err e => exact ⟨0, h, by omega, rfl⟩
      | panic e => exact ⟨0, h, by omega, rfl⟩

/-- C194: if some callback asks to stop in iteration `k` and no callback fails or takes the request back, at most
the iterations before `k` are made -/
theorem callbacks_stop (M : Machine T τ α β) (cbs : List (Call (St τ α β κ))) (hcs : ∀ c ∈ cbs, Steady c) (c : Call (St τ α β κ)) (hc : c ∈ cbs)
    (k : Nat) (hk : ∀ s, s.env.iteration = k → (c s).1.env.stop = true) (n : Nat) (t : T) (own : κ) :
    ∃ j ≤ k, j ≤ n ∧ steps M t j = .ok (fitWithCallbacks M cbs n t own).1 := by
  obtain ⟨j, h1, h2, h3⟩ := stop_loop M cbs hcs c hc k hk n 0 t (St.fresh own) (by omega)
  rw [stepsFrom_zero] at h3
  exact ⟨j, by omega, h2, h3⟩

/-- a callback that notes the iteration, the model and the results it is shown -/
def spy : Lib τ α β (List (Nat × Option (Snap τ α) × List (String × Option β))) := fun e l =>
  ((e, l ++ [(e.iteration, e.model, e.eval)]), .ok ())

theorem foldl_flatMap {γ δ : Type} (f : γ → List δ) (l : List γ) (x : List δ) :
    l.foldl (fun x i => x ++ f i) x = x ++ l.flatMap f := by
  induction l generalizing x with
  | nil => simp
  | cons a l ih => rw [List.foldl_cons, ih]; simp [List.append_assoc]

/-- C194: what every callback is shown, wherever it stands among others that succeed and do not touch the
environment: it is called twice in every iteration, before it with the model so far and the results of the
iteration before (none at first), and after it with the new model and the new results -/
theorem callbacks_see (M : Machine T τ α β) {p : Part κ (List (Nat × Option (Snap τ α) × List (String × Option β)))} (hp : p.Lawful)
    {pre post : List (Call (St τ α β κ))} (hpre : ∀ c ∈ pre, Bystander p.get c) (hpost : ∀ c ∈ post, Bystander p.get c)
    {st : Nat → T} {n : Nat} (hrun : Run M st n) (own : κ) (h0 : p.get own = []) :
    (fitWithCallbacks M (pre ++ spy.on p :: post) n (st 0) own).1 = st n ∧
    (fitWithCallbacks M (pre ++ spy.on p :: post) n (st 0) own).2.2 = .ok () ∧
    p.get (fitWithCallbacks M (pre ++ spy.on p :: post) n (st 0) own).2.1.own =
      (List.range n).flatMap fun i =>
        [(i, some (M.snap (st i)), if i = 0 then [] else M.eval (st i)), (i, some (M.snap (st (i + 1))), M.eval (st (i + 1)))] := by
  have h := fit_calm hp (f := spy) (g := fun e l => l ++ [(e.iteration, e.model, e.eval)])
    (fun e x m _ _ => ⟨e.model, rfl⟩) hpre hpost hrun own
  refine ⟨h.1, h.2.1, ?_⟩
  rw [h.2.2, h0]
  have : (fun (x : List (Nat × Option (Snap τ α) × List (String × Option β))) (i : Nat) =>
      (x ++ [((envBefore M st [] i).iteration, (envBefore M st [] i).model, (envBefore M st [] i).eval)]) ++
        [((envAfter M st i).iteration, (envAfter M st i).model, (envAfter M st i).eval)]) =
      fun x i => x ++ [(i, some (M.snap (st i)), if i = 0 then [] else M.eval (st i)),
        (i, some (M.snap (st (i + 1))), M.eval (st (i + 1)))] := by
    funext x i
    simp [envBefore, envAfter]
  rw [this, foldl_flatMap]
  rfl

/-! ## The learning rate -/

/-- callbacks that succeed and change of the environment at most the model -/
def ModelOnly (c : Call (St τ α β κ)) : Prop := ∀ s m, s.env.model = some m →
  (c s).2 = .ok () ∧ (c s).1.env.stop = s.env.stop ∧ (c s).1.env.model.isSome = true

theorem modelOnly_before : ∀ (cs : List (Call (St τ α β κ))) (_ : ∀ c ∈ cs, ModelOnly c) (s : St τ α β κ) (_ : s.env.stop = false)
    (_ : s.env.model.isSome = true), (runBefore cs s).2 = .ok () ∧ (runBefore cs s).1.env.stop = false
  | [], _, s, hs, _ => ⟨rfl, hs⟩
  | c :: cs, h, s, hs, hm => by
    obtain ⟨m, hm⟩ := Option.isSome_iff_exists.1 hm
    have hc := h c (by simp) s m hm
    unfold runBefore
    rw [hc.1]
    dsimp only
    rw [if_neg (by rw [hc.2.1, hs]; decide)]
    exact modelOnly_before cs (fun c' h' => h c' (by simp [h'])) _ (by rw [hc.2.1, hs]) hc.2.2

theorem modelOnly_after : ∀ (cs : List (Call (St τ α β κ))) (_ : ∀ c ∈ cs, ModelOnly c) (s : St τ α β κ) (_ : s.env.stop = false)
    (_ : s.env.model.isSome = true), (runAfter cs s).2 = .ok () ∧ (runAfter cs s).1.env.stop = false
  | [], _, s, hs, _ => ⟨rfl, hs⟩
  | c :: cs, h, s, hs, hm => by
    obtain ⟨m, hm⟩ := Option.isSome_iff_exists.1 hm
    have hc := h c (by simp) s m hm
    unfold runAfter
    rw [hc.1]
    exact modelOnly_after cs (fun c' h' => h c' (by simp [h'])) _ (by rw [hc.2.1, hs]) hc.2.2

theorem empty_loop (M : Machine T τ α β) (n iter : Nat) (t : T) (s : St τ α β κ) (hs : s.env.stop = false) :
    fitLoop M [] (n + 1) iter t s =
      match M.step iter t with
      | .ok t' => fitLoop M [] n (iter + 1) t' ((s.before iter (M.snap t)).after iter (M.snap t') (M.eval t'))
      | .err e => (t, s.before iter (M.snap t), .err e)
      | .panic e => (t, s.before iter (M.snap t), .panic e) := by
  have h1 : (s.before iter (M.snap t)).env.stop = false := hs
  have h2 : ∀ t', ((s.before iter (M.snap t)).after iter (M.snap t') (M.eval t')).env.stop = false := fun _ => hs
  rw [fitLoop.eq_def]
  cases hw : M.step iter t <;> simp [runBefore, runAfter, h1, h2, hw]

theorem modelOnly_loop (M : Machine T τ α β) (cs : List (Call (St τ α β κ))) (h : ∀ c ∈ cs, ModelOnly c) :
    ∀ (n iter : Nat) (t : T) (s : St τ α β κ) (_ : s.env.stop = false) (s' : St τ α β κ) (_ : s'.env.stop = false),
    (fitLoop M cs n iter t s).1 = (fitLoop M [] n iter t s').1 ∧ (fitLoop M cs n iter t s).2.2 = (fitLoop M [] n iter t s').2.2
  | 0, _, _, _, _, _, _ => ⟨rfl, rfl⟩
  | n + 1, iter, t, s, hs, s', hs' => by
    have hb := modelOnly_before cs h (s.before iter (M.snap t)) hs rfl
    rw [empty_loop M n iter t s' hs', fitLoop.eq_def M cs (n + 1)]
    dsimp only
    rw [hb.1]
    dsimp only
    rw [if_neg (by rw [hb.2]; decide)]
    cases M.step iter t with
    | ok t' =>
      dsimp only
      have ha := modelOnly_after cs h ((runBefore cs (s.before iter (M.snap t))).1.after iter (M.snap t') (M.eval t')) hb.2 rfl
      rw [ha.1]
      dsimp only
      rw [if_neg (by rw [ha.2]; decide)]
      exact modelOnly_loop M cs h n (iter + 1) t' _ ha.2 _ hs'
    | err e => exact ⟨rfl, rfl⟩
    | panic e => exact ⟨rfl, rfl⟩

section
variable [LT α] [DecidableLT α] [Zero α] [Mul α]

theorem schedule_modelOnly (p : Part κ α) (decay : α) (steps : Int) (h : steps ≠ 0) :
    ModelOnly (τ := τ) (β := β) ((learningRateSchedule decay steps).on p) := by
  intro s m hm
  unfold Lib.on learningRateSchedule goMod
  simp only [hm, if_neg h]
  by_cases h0 : 0 < s.env.iteration
  · simp only [if_pos h0]; exact ⟨trivial, trivial, rfl⟩
  · simp only [if_neg h0]; exact ⟨trivial, trivial, by rw [hm]; rfl⟩

theorem reset_modelOnly (p : Part κ Unit) (params : Nat → List (String × PVal α)) :
    ModelOnly (τ := τ) (β := β) ((resetParameter params).on p) := by
  intro s m hm
  unfold Lib.on resetParameter
  simp only [hm]
  exact ⟨trivial, trivial, rfl⟩

/-- C195 (negation): a learning rate schedule and a parameter reset change nothing: training with them, in any
order and number, gives the same trees and the same outcome as training without callbacks -/
theorem schedule_no_effect (M : Machine T τ α β) (cbs : List (Call (St τ α β κ)))
    (h : ∀ c ∈ cbs, (∃ p decay steps, steps ≠ 0 ∧ c = (learningRateSchedule decay steps).on p) ∨ ∃ p params, c = (resetParameter params).on p)
    (n : Nat) (t : T) (own : κ) :
    (fitWithCallbacks M cbs n t own).1 = (fitWithCallbacks M [] n t own).1 ∧
    (fitWithCallbacks M cbs n t own).2.2 = (fitWithCallbacks M [] n t own).2.2 := by
  apply modelOnly_loop M cbs ?_ n 0 t _ rfl _ rfl
  intro c hc
  rcases h c hc with ⟨p, decay, steps, hs, rfl⟩ | ⟨p, params, rfl⟩
  · exact schedule_modelOnly p decay steps hs
  · exact reset_modelOnly p params

/-- C195: a schedule with 0 steps panics in the second iteration -/
theorem schedule_zero_steps (M : Machine T τ α β) (decay : α) {st : Nat → T} {n : Nat} (hn : 2 ≤ n) (hrun : Run M st 2) (own : α) :
    (fitWithCallbacks M [(learningRateSchedule decay 0).on Part.self] n (st 0) own).1 = st 1 ∧
    (fitWithCallbacks M [(learningRateSchedule decay 0).on Part.self] n (st 0) own).2.2 = .panic "integer divide by zero" := by
  obtain ⟨n, rfl⟩ : ∃ m, n = m + 2 := ⟨n - 2, by omega⟩
  have h1 := hrun 0 (by omega)
  unfold fitWithCallbacks fit
  simp [fitLoop, runBefore, runAfter, Lib.on, learningRateSchedule, goMod, St.before, St.after, St.fresh, h1, Part.self]

end

/-- the learning rate the callbacks behind a schedule see in iteration `i` -/
def seenRate [Mul α] (base decay : α) (steps : Int) (i : Nat) : α :=
  if 0 < i ∧ steps ∣ (i : Int) then base * decay else base

theorem goMod_zero_iff (i : Nat) (p : Int) (hp : p ≠ 0) : ∃ r, goMod i p = some r ∧ (r = 0 ↔ p ∣ (i : Int)) := by
  refine ⟨(i : Int).tmod p, by unfold goMod; rw [if_neg hp], ?_⟩
  exact Int.dvd_iff_tmod_eq_zero.symm

/-- C195: what a schedule does change is the rate in the model shown to the callbacks behind it: in the
iterations divisible by the number of steps it is the configured rate times the decay, once, in all others the
configured rate; a decay that accumulates, and one that training uses, are missing -/
theorem schedule_seen_partial [LT α] [DecidableLT α] [Zero α] [Mul α] (M : Machine T τ α β) (decay base : α) (steps : Int) (hs : steps ≠ 0)
    (hb : ∀ t, (M.snap t).rate = base)
    {st : Nat → T} {n : Nat} (hrun : Run M st n) (r0 : α) :
    (fitWithCallbacks M [(learningRateSchedule decay steps).on (⟨Prod.fst, fun x k => (x, k.2)⟩ : Part (α × _) α),
        spy.on ⟨Prod.snd, fun x k => (k.1, x)⟩] n (st 0) (r0, [])).2.1.own.2.map (fun l => (l.1, l.2.1.map (·.rate))) =
      (List.range n).flatMap fun i => [(i, some (seenRate base decay steps i)), (i, some (seenRate base decay steps i))] := by
  let A : Type := α × List (Nat × Option (Snap τ α) × List (String × Option β))
  let upd : Env τ α β → Option (Snap τ α) := fun e =>
    match e.model with
    | none => none
    | some m => some (if 0 < e.iteration then (if goMod e.iteration steps = some 0 then { m with rate := m.rate * decay } else m) else m)
  let g : Env τ α β → A → A := fun e x =>
    ((match e.model with | none => x.1 | some m => if x.1 < 0 then m.rate else x.1), x.2 ++ [(e.iteration, upd e, e.eval)])
  have hlib : ∀ (e : Env τ α β) (m : Snap τ α) (x : α), e.model = some m →
      learningRateSchedule decay steps e x = (({ e with model := upd e }, if x < 0 then m.rate else x), .ok ()) := by
    intro e m x hm
    obtain ⟨r, hr, _⟩ := goMod_zero_iff e.iteration steps hs
    simp only [learningRateSchedule, upd, hm, hr]
    by_cases h0 : 0 < e.iteration
    · simp only [if_pos h0]
      by_cases hr0 : r = 0
      · simp [hr0]
      · simp [hr0]
    · simp only [if_neg h0]
      have : e = { e with model := some m } := by rw [← hm]
      rw [← this]
  have hcalm : Calm [(learningRateSchedule decay steps).on (⟨Prod.fst, fun x k => (x, k.2)⟩ : Part A α),
        spy.on (⟨Prod.snd, fun x k => (k.1, x)⟩ : Part A _)] g := by
    constructor
    · intro s m h1 h2
      refine ⟨upd s.env, ?_⟩
      simp [runBefore, Lib.on, hlib s.env m s.own.1 h2, spy, h1, g, h2]
    · intro s m h1 h2
      refine ⟨upd s.env, ?_⟩
      simp [runAfter, Lib.on, hlib s.env m s.own.1 h2, spy, g, h2]
  have hl := calm_loop hcalm (M := M) (st := st) [] n 0 (St.fresh (r0, [])) (fun i _ h2 => hrun i (by omega)) rfl rfl
  unfold fitWithCallbacks fit
  refine (congrArg (fun x : A => x.2.map (fun l => (l.1, l.2.1.map (·.rate)))) hl.2.2.2).trans ?_
  rw [← List.range_eq_range']
  show (List.map _ ((List.range n).foldl (fun x i => g (envAfter M st i) (g (envBefore M st [] i) x)) ((r0, []) : A)).2) = _
  have hg : ∀ (l : List Nat) (x : A), (l.foldl (fun x i => g (envAfter M st i) (g (envBefore M st [] i) x)) x).2 =
      x.2 ++ l.flatMap fun i => [(i, upd (envBefore M st [] i), (envBefore M st [] i).eval), (i, upd (envAfter M st i), (envAfter M st i).eval)] := by
    intro l
    induction l with
    | nil => intro x; simp
    | cons a l ih => intro x; rw [List.foldl_cons, ih]; simp [g, envBefore, envAfter]
  rw [hg, List.nil_append, List.map_flatMap]
  have hu : ∀ (e : Env τ α β) (t : T), e.model = some (M.snap t) → (upd e).map (·.rate) = some (seenRate base decay steps e.iteration) := by
    intro e t he
    obtain ⟨r, hr, hr0⟩ := goMod_zero_iff e.iteration steps hs
    simp only [upd, he, hr, seenRate]
    by_cases h0 : 0 < e.iteration
    · by_cases h1 : r = 0
      · simp [h0, h1, hr0.1 h1, hb]
      · have : ¬ steps ∣ (e.iteration : Int) := fun h => h1 (hr0.2 h)
        simp [h0, h1, this, hb]
    · simp [h0, hb]
  congr 1
  funext i
  simp only [List.map_cons, List.map_nil]
  rw [hu _ _ rfl, hu _ _ rfl]
  rfl

/-! ## The time limit -/

section

theorem time_before (clock : Nat → Int) (start d : Int) (s : St τ α β Nat) :
    runBefore [(timeLimit clock start d).on Part.self] s =
      (⟨if d < clock s.own - start then { s.env with stop := true } else s.env, s.own + 1⟩, .ok ()) := by
  by_cases h : d < clock s.own - start <;> simp [runBefore, Lib.on, timeLimit, Part.self, h]

theorem time_after (clock : Nat → Int) (start d : Int) (s : St τ α β Nat) :
    runAfter [(timeLimit clock start d).on Part.self] s =
      (⟨if d < clock s.own - start then { s.env with stop := true } else s.env, s.own + 1⟩, .ok ()) := by
  by_cases h : d < clock s.own - start <;> simp [runAfter, Lib.on, timeLimit, Part.self, h]

theorem time_loop (M : Machine T τ α β) (clock : Nat → Int) (start d : Int) {st : Nat → T} :
    ∀ (n iter j : Nat) (s : St τ α β Nat) (_ : ∀ i, iter ≤ i → i < iter + n → M.step i (st i) = .ok (st (i + 1)))
      (_ : s.own = 2 * iter) (_ : s.env.stop = false)
      (_ : 2 * iter ≤ j) (_ : j ≤ 2 * (iter + n)) (_ : ∀ i, i < j → clock i - start ≤ d) (_ : j < 2 * (iter + n) → d < clock j - start),
    (fitLoop M [(timeLimit clock start d).on Part.self] n iter (st iter) s).1 = st ((j + 1) / 2) ∧
    (fitLoop M [(timeLimit clock start d).on Part.self] n iter (st iter) s).2.2 = .ok ()
  | 0, iter, j, s, _, _, _, h1, h2, _, _ => by
    rw [show (j + 1) / 2 = iter by omega]; exact ⟨rfl, rfl⟩
  | n + 1, iter, j, s, hrun, hown, hs, h1, h2, h3, h4 => by
    unfold fitLoop
    rw [time_before]
    have ho : (s.before iter (M.snap (st iter))).own = 2 * iter := hown
    rw [ho]
    dsimp only
    by_cases hj : j = 2 * iter
    · subst hj
      rw [if_pos (h4 (by omega)), if_pos rfl, show (2 * iter + 1) / 2 = iter by omega]
      exact ⟨rfl, rfl⟩
    · have hnot : ¬ d < clock (2 * iter) - start := by have := h3 (2 * iter) (by omega); omega
      simp only [if_neg hnot]
      have he : (s.before iter (M.snap (st iter))).env.stop = false := hs
      rw [if_neg (by rw [he]; decide), hrun iter (by omega) (by omega)]
      dsimp only
      generalize hs2 : St.after (⟨(s.before iter (M.snap (st iter))).env, 2 * iter + 1⟩ : St τ α β Nat) iter (M.snap (st (iter + 1)))
        (M.eval (st (iter + 1))) = s2
      have ho2 : s2.own = 2 * iter + 1 := by rw [← hs2]; rfl
      have he2 : s2.env.stop = false := by rw [← hs2]; exact he
      rw [time_after, ho2]
      dsimp only
      by_cases hj' : j = 2 * iter + 1
      · subst hj'
        have hlate := h4 (by omega)
        simp only [if_pos hlate]
        rw [if_pos trivial, show (2 * iter + 1 + 1) / 2 = iter + 1 by omega]
        exact ⟨rfl, rfl⟩
      · have hnot' : ¬ d < clock (2 * iter + 1) - start := by have := h3 (2 * iter + 1) (by omega); omega
        simp only [if_neg hnot']
        rw [if_neg (by rw [he2]; decide)]
        exact time_loop M clock start d n (iter + 1) j _ (fun i h1 h2 => hrun i (by omega) (by omega)) (by dsimp only; omega) he2
          (by omega) (by omega) h3 (fun h => h4 (by omega))

/-- C196: `TimeLimit` among other callbacks. The clock is read before and after every iteration. If the reading
number `j` is the first later than allowed, training ends there: before iteration `j/2` if `j` is even, after it
if `j` is odd; if no reading is too late all iterations are made. The model is kept in both cases. -/
theorem time_limit (M : Machine T τ α β) {p : Part κ Nat} (hp : p.Lawful) {pre post : List (Call (St τ α β κ))}
    (hpre : ∀ c ∈ pre, Bystander p.get c) (hpost : ∀ c ∈ post, Bystander p.get c) (clock : Nat → Int) (start d : Int)
    {st : Nat → T} {n : Nat} (hrun : Run M st n) (own : κ) (h0 : p.get own = 0) :
    (∀ j < 2 * n, (∀ i < j, clock i - start ≤ d) → d < clock j - start →
      (fitWithCallbacks M (pre ++ (timeLimit clock start d).on p :: post) n (st 0) own).1 = st ((j + 1) / 2) ∧
      (fitWithCallbacks M (pre ++ (timeLimit clock start d).on p :: post) n (st 0) own).2.2 = .ok ()) ∧
    ((∀ i < 2 * n, clock i - start ≤ d) →
      (fitWithCallbacks M (pre ++ (timeLimit clock start d).on p :: post) n (st 0) own).1 = st n ∧
      (fitWithCallbacks M (pre ++ (timeLimit clock start d).on p :: post) n (st 0) own).2.2 = .ok ()) := by
  unfold fitWithCallbacks fit
  have ha := fitLoop_among hp M (timeLimit clock start d) pre post hpre hpost n 0 (st 0) (St.fresh own) rfl
  rw [ha.1, ha.2.2]
  have hv : ((St.fresh own : St τ α β κ).view p.get).own = 2 * 0 := h0
  constructor
  · intro j hj h1 h2
    exact time_loop M clock start d n 0 j _ (fun i _ h2 => hrun i (by omega)) hv rfl (by omega) (by omega) h1 (fun _ => h2)
  · intro h
    have := time_loop M clock start d (st := st) n 0 (2 * n) _ (fun i _ h2 => hrun i (by omega)) hv rfl (by omega) (by omega)
      (fun i hi => h i (by omega)) (fun h => absurd h (by omega))
    rw [show (2 * n + 1) / 2 = n by omega] at this
    exact this

end

/-! ## Printing -/

theorem print_calm (period : Int) (hp : period ≠ 0) (e : Env τ α β) (x : List (Nat × List (String × Option β))) (m : Snap τ α)
    (_ : e.stop = false) (_ : e.model = some m) :
    ∃ m', printEvaluation period e x = (({ e with model := m' },
      (fun (e : Env τ α β) (x : List (Nat × List (String × Option β))) => if period ∣ (e.iteration : Int) then x ++ [(e.iteration, e.eval)] else x) e x), .ok ()) := by
  refine ⟨e.model, ?_⟩
  obtain ⟨r, hr, hr0⟩ := goMod_zero_iff e.iteration period hp
  simp only [printEvaluation, hr]
  by_cases h : period ∣ (e.iteration : Int)
  · rw [if_pos (hr0.2 h), if_pos h]
  · rw [if_neg (fun h' => h (hr0.1 h')), if_neg h]

/-- C197: the lines `PrintEvaluation` prints: two for every iteration divisible by the period, both under its
number; the first shows the results of the iteration before -/
theorem print_lines_partial (M : Machine T τ α β) {p : Part κ (List (Nat × List (String × Option β)))} (hp : p.Lawful)
    {pre post : List (Call (St τ α β κ))} (hpre : ∀ c ∈ pre, Bystander p.get c) (hpost : ∀ c ∈ post, Bystander p.get c)
    (period : Int) (hper : period ≠ 0) {st : Nat → T} {n : Nat} (hrun : Run M st n) (own : κ) (h0 : p.get own = []) :
    (fitWithCallbacks M (pre ++ (printEvaluation period).on p :: post) n (st 0) own).1 = st n ∧
    (fitWithCallbacks M (pre ++ (printEvaluation period).on p :: post) n (st 0) own).2.2 = .ok () ∧
    p.get (fitWithCallbacks M (pre ++ (printEvaluation period).on p :: post) n (st 0) own).2.1.own =
      (List.range n).flatMap fun (i : Nat) =>
        if period ∣ ((i : Nat) : Int) then [(i, if i = 0 then [] else M.eval (st i)), (i, M.eval (st (i + 1)))] else [] := by
  have h := fit_calm hp (print_calm period hper) hpre hpost hrun own
  refine ⟨h.1, h.2.1, ?_⟩
  rw [h.2.2, h0]
  have : (fun (x : List (Nat × List (String × Option β))) (i : Nat) =>
      if period ∣ ((envAfter M st i).iteration : Int) then
        (if period ∣ ((envBefore M st [] i).iteration : Int) then x ++ [((envBefore M st [] i).iteration, (envBefore M st [] i).eval)] else x) ++
          [((envAfter M st i).iteration, (envAfter M st i).eval)]
      else (if period ∣ ((envBefore M st [] i).iteration : Int) then x ++ [((envBefore M st [] i).iteration, (envBefore M st [] i).eval)] else x)) =
      fun x (i : Nat) => x ++ (if period ∣ (i : Int) then [(i, if i = 0 then [] else M.eval (st i)), (i, M.eval (st (i + 1)))] else []) := by
    funext x i
    have h1 : (envAfter M st i).iteration = i := rfl
    have h2 : (envBefore M st [] i).iteration = i := rfl
    rw [h1, h2]
    by_cases hi : period ∣ (i : Int)
    · simp only [if_pos hi]; simp [envBefore, envAfter]
    · simp only [if_neg hi]; simp
  rw [this, foldl_flatMap]
  rfl

/-- C197: with period 0 training panics before the first iteration -/
theorem print_zero_panics (M : Machine T τ α β) {p : Part κ (List (Nat × List (String × Option β)))} (hp : p.Lawful)
    {pre post : List (Call (St τ α β κ))} (hpre : ∀ c ∈ pre, Bystander p.get c) (hpost : ∀ c ∈ post, Bystander p.get c) (n : Nat) (hn : 0 < n)
    (t : T) (own : κ) :
    (fitWithCallbacks M (pre ++ (printEvaluation 0).on p :: post) n t own).1 = t ∧
    (fitWithCallbacks M (pre ++ (printEvaluation 0).on p :: post) n t own).2.2 = .panic "integer divide by zero" := by
  unfold fitWithCallbacks fit
  have ha := fitLoop_among hp M (printEvaluation 0) pre post hpre hpost n 0 t (St.fresh own) rfl
  rw [ha.1, ha.2.2]
  obtain ⟨n, rfl⟩ : ∃ m, n = m + 1 := ⟨n - 1, by omega⟩
  simp [fitLoop, runBefore, Lib.on, printEvaluation, goMod, Part.self]

/-! ## Checkpoints -/

section
variable [LinearOrder β]

theorem checkpoint_calm (period : Int) (hp : period ≠ 0) (e : Env τ α β) (c : Checkpoints τ α β) (m : Snap τ α)
    (_ : e.stop = false) (hm : e.model = some m) :
    ∃ m', modelCheckpoint (fun _ => true) period false e c = (({ e with model := m' },
      (fun (e : Env τ α β) (c : Checkpoints τ α β) => if period ∣ (e.iteration : Int) then
        { c with files := e.model.elim c.files fun m => (e.iteration, m) :: c.files } else c) e c), .ok ()) := by
  refine ⟨e.model, ?_⟩
  obtain ⟨r, hr, hr0⟩ := goMod_zero_iff e.iteration period hp
  simp only [modelCheckpoint, hr]
  by_cases h : period ∣ (e.iteration : Int)
  · rw [if_neg (fun h' => h' (hr0.2 h)), if_pos h]
    simp only [hm, if_pos trivial, Option.elim]
    rw [← hm]; rfl
  · rw [if_pos (fun h' => h (hr0.1 h')), if_neg h]

/-- C198: without `saveOnlyImproved`, and a disk that takes every file, training leaves a file for exactly the
iterations divisible by the period, and the file of iteration `k` holds the model after iteration `k` -/
theorem checkpoint_files (M : Machine T τ α β) {p : Part κ (Checkpoints τ α β)} (hp : p.Lawful)
    {pre post : List (Call (St τ α β κ))} (hpre : ∀ c ∈ pre, Bystander p.get c) (hpost : ∀ c ∈ post, Bystander p.get c)
    (period : Int) (hper : period ≠ 0) {st : Nat → T} {n : Nat} (hrun : Run M st n) (own : κ) (h0 : (p.get own).files = []) :
    (fitWithCallbacks M (pre ++ (modelCheckpoint (fun _ => true) period false).on p :: post) n (st 0) own).1 = st n ∧
    (fitWithCallbacks M (pre ++ (modelCheckpoint (fun _ => true) period false).on p :: post) n (st 0) own).2.2 = .ok () ∧
    ∀ k, (p.get (fitWithCallbacks M (pre ++ (modelCheckpoint (fun _ => true) period false).on p :: post) n (st 0) own).2.1.own).read k =
      if k < n ∧ period ∣ (k : Int) then some (M.snap (st (k + 1))) else none := by
  have h := fit_calm hp (checkpoint_calm period hper) hpre hpost hrun own
  refine ⟨h.1, h.2.1, ?_⟩
  rw [h.2.2]
  clear h hrun
  intro k
  induction n with
  | zero =>
    show ((p.get own).files.lookup k) = _
    rw [h0]; simp
  | succ n ih =>
    rw [List.range_succ, List.foldl_append, List.foldl_cons, List.foldl_nil]
    generalize (List.range n).foldl _ (p.get own) = c at ih ⊢
    have e1 : (envAfter M st n).iteration = n := rfl
    have e2 : (envBefore M st [] n).iteration = n := rfl
    have e3 : (envAfter M st n).model = some (M.snap (st (n + 1))) := rfl
    have e4 : (envBefore M st [] n).model = some (M.snap (st n)) := rfl
    simp only [e1, e2, e3, e4]
    by_cases hi : period ∣ (n : Int)
    · simp only [if_pos hi, Option.elim, Checkpoints.read]
      rw [List.lookup_cons]
      by_cases hk : k = n
      · subst hk; simp [hi]
      · have : (k == n) = false := by simpa using hk
        rw [this]
        dsimp only
        rw [List.lookup_cons, this]
        dsimp only
        rw [show List.lookup k c.files = _ from ih]
        have : (k < n + 1 ∧ period ∣ (k : Int)) ↔ (k < n ∧ period ∣ (k : Int)) := by
          constructor <;> rintro ⟨h1, h2⟩ <;> exact ⟨by omega, h2⟩
        simp only [this]
    · simp only [if_neg hi]
      rw [ih]
      have : (k < n + 1 ∧ period ∣ (k : Int)) ↔ (k < n ∧ period ∣ (k : Int)) := by
        constructor
        · rintro ⟨h1, h2⟩
          refine ⟨?_, h2⟩
          rcases Nat.lt_succ_iff_lt_or_eq.1 h1 with h | rfl
          · exact h
          · exact absurd h2 hi
        · rintro ⟨h1, h2⟩; exact ⟨by omega, h2⟩
      simp only [this]

/-- C198: a file that cannot be written ends training with an error, before the iteration it is named after -/
theorem checkpoint_disk_error (M : Machine T τ α β) (disk : Nat → Bool) (c : Checkpoints τ α β) (t : T) (n : Nat) (hn : 0 < n) (hd : disk 0 = false)
    (period : Int) (hper : period ≠ 0) :
    (fitWithCallbacks M [(modelCheckpoint disk period false).on Part.self] n t c).1 = t ∧
    (fitWithCallbacks M [(modelCheckpoint disk period false).on Part.self] n t c).2.2 = .err (.other "failed to save checkpoint") := by
  obtain ⟨n, rfl⟩ : ∃ m, n = m + 1 := ⟨n - 1, by omega⟩
  unfold fitWithCallbacks fit
  simp [fitLoop, runBefore, Lib.on, modelCheckpoint, goMod, hper, St.before, St.fresh, Part.self, hd]

/-- the score of iteration `k` is below all earlier ones -/
def Record (L : Nat → β) (k : Nat) : Prop := ∀ j < k, L k < L j

theorem improved_calm (e : Env τ α β) (c : Checkpoints τ α β) (m : Snap τ α) (_ : e.stop = false) (hm : e.model = some m) :
    ∃ m', modelCheckpoint (fun _ => true) 1 true e c = (({ e with model := m' },
      (fun (e : Env τ α β) (c : Checkpoints τ α β) =>
        if (firstImproves c.best e.eval).2 then ⟨(firstImproves c.best e.eval).1, e.model.elim c.files fun m => (e.iteration, m) :: c.files⟩
        else { c with best := (firstImproves c.best e.eval).1 }) e c), .ok ()) := by
  refine ⟨e.model, ?_⟩
  have h : goMod e.iteration 1 = some 0 := by simp [goMod]
  simp only [modelCheckpoint, h]
  rw [if_neg (by simp)]
  by_cases hf : (firstImproves c.best e.eval).2 = true
  · simp only [hf, hm, if_pos trivial, Option.elim]
    rw [← hm]
  · simp [hf]

/-- C198: with `saveOnlyImproved`, period 1, and finite training losses, training leaves the file of iteration
`k` exactly if the loss of `k` is below all earlier ones, and it holds the model after iteration `k`. Missing:
other periods, for which it is false (`checkpoint_wrong_model`). -/
theorem checkpoint_improved_partial (M : Machine T τ α β) {p : Part κ (Checkpoints τ α β)} (hp : p.Lawful)
    {pre post : List (Call (St τ α β κ))} (hpre : ∀ c ∈ pre, Bystander p.get c) (hpost : ∀ c ∈ post, Bystander p.get c)
    (name : String) (inf : β) (L : Nat → β) (hinf : ∀ i, L i < inf) {st : Nat → T} (hL : ∀ i, M.eval (st (i + 1)) = [(name, some (L i))])
    {n : Nat} (hrun : Run M st n) (own : κ) (h0 : p.get own = ⟨some inf, []⟩) :
    (fitWithCallbacks M (pre ++ (modelCheckpoint (fun _ => true) 1 true).on p :: post) n (st 0) own).1 = st n ∧
    (fitWithCallbacks M (pre ++ (modelCheckpoint (fun _ => true) 1 true).on p :: post) n (st 0) own).2.2 = .ok () ∧
    ∀ k, (p.get (fitWithCallbacks M (pre ++ (modelCheckpoint (fun _ => true) 1 true).on p :: post) n (st 0) own).2.1.own).read k =
      open Classical in if k < n ∧ Record L k then some (M.snap (st (k + 1))) else none := by
  classical
  have h := fit_calm hp improved_calm hpre hpost hrun own
  refine ⟨h.1, h.2.1, ?_⟩
  rw [h.2.2, h0]
  clear h hrun h0
  have hbelow : ∀ a b : β, Boost.below (some a) (some b) = decide (a < b) := fun _ _ => rfl
  have hinv : ∃ b, ((List.range n).foldl (fun x i =>
        (fun (e : Env τ α β) (c : Checkpoints τ α β) =>
          if (firstImproves c.best e.eval).2 then
            (⟨(firstImproves c.best e.eval).1, e.model.elim c.files fun m => (e.iteration, m) :: c.files⟩ : Checkpoints τ α β)
          else { c with best := (firstImproves c.best e.eval).1 }) (envAfter M st i)
        ((fun (e : Env τ α β) (c : Checkpoints τ α β) =>
          if (firstImproves c.best e.eval).2 then
            (⟨(firstImproves c.best e.eval).1, e.model.elim c.files fun m => (e.iteration, m) :: c.files⟩ : Checkpoints τ α β)
          else { c with best := (firstImproves c.best e.eval).1 }) (envBefore M st [] i) x)) ⟨some inf, []⟩).best = some b ∧
      (∀ j < n, b ≤ L j) ∧ (b = inf ∨ ∃ j < n, b = L j) ∧
      ∀ k, ((List.range n).foldl (fun x i =>
        (fun (e : Env τ α β) (c : Checkpoints τ α β) =>
          if (firstImproves c.best e.eval).2 then
            (⟨(firstImproves c.best e.eval).1, e.model.elim c.files fun m => (e.iteration, m) :: c.files⟩ : Checkpoints τ α β)
          else { c with best := (firstImproves c.best e.eval).1 }) (envAfter M st i)
        ((fun (e : Env τ α β) (c : Checkpoints τ α β) =>
          if (firstImproves c.best e.eval).2 then
            (⟨(firstImproves c.best e.eval).1, e.model.elim c.files fun m => (e.iteration, m) :: c.files⟩ : Checkpoints τ α β)
          else { c with best := (firstImproves c.best e.eval).1 }) (envBefore M st [] i) x)) ⟨some inf, []⟩).read k =
        if k < n ∧ Record L k then some (M.snap (st (k + 1))) else none := by
    induction n with
    | zero => exact ⟨inf, rfl, fun j hj => absurd hj (by omega), Or.inl rfl, fun k => by simp [Checkpoints.read]⟩
    | succ n ih =>
      obtain ⟨b, hb, hle, hwit, hfiles⟩ := ih
      simp only [List.range_succ, List.foldl_append, List.foldl_cons, List.foldl_nil]
      generalize hc : (List.range n).foldl _ (⟨some inf, []⟩ : Checkpoints τ α β) = c at hb hfiles ⊢
      -- the calls before the iteration
      have hbefore : ∃ fs, (if (firstImproves c.best (envBefore M st [] n).eval).2 then
            (⟨(firstImproves c.best (envBefore M st [] n).eval).1,
              (envBefore M st [] n).model.elim c.files fun m => ((envBefore M st [] n).iteration, m) :: c.files⟩ : Checkpoints τ α β)
          else { c with best := (firstImproves c.best (envBefore M st [] n).eval).1 }) = ⟨some b, fs⟩ ∧
          ∀ k, k ≠ n → fs.lookup k = c.files.lookup k ∧ (0 < n → fs = c.files) := by
        rcases Nat.eq_zero_or_pos n with rfl | hn
        · refine ⟨(0, M.snap (st 0)) :: c.files, ?_, ?_⟩
          · simp [envBefore, firstImproves, hb]
          · intro k hk
            refine ⟨?_, fun h => absurd h (by omega)⟩
            rw [List.lookup_cons]
            have : (k == 0) = false := by simpa using hk
            rw [this]
        · refine ⟨c.files, ?_, fun k _ => ⟨rfl, fun _ => rfl⟩⟩
          have he : (envBefore M st [] n).eval = [(name, some (L (n - 1)))] := by
            show (if n = 0 then [] else M.eval (st n)) = _
            rw [if_neg (by omega)]
            have := hL (n - 1)
            rwa [show n - 1 + 1 = n by omega] at this
          rw [he, hb]
          have : ¬ L (n - 1) < b := not_lt.2 (hle (n - 1) (by omega))
          simp [firstImproves, hbelow, this]
      obtain ⟨fs, hfs, hlook⟩ := hbefore
      rw [hfs]
      have he : (envAfter M st n).eval = [(name, some (L n))] := hL n
      simp only [he]
      have hm : (envAfter M st n).model = some (M.snap (st (n + 1))) := rfl
      have hit : (envAfter M st n).iteration = n := rfl
      have hrec : L n < b ↔ Record L n := by
        constructor
        · intro h j hj; exact lt_of_lt_of_le h (hle j hj)
        · intro h
          rcases hwit with rfl | ⟨j, hj, rfl⟩
          · exact hinf n
          · exact h j hj
      by_cases hlt : L n < b
      · have hfi : firstImproves (some b) [(name, some (L n))] = (some (L n), true) := by simp [firstImproves, hbelow, hlt]
        rw [hfi, if_pos rfl]
        refine ⟨L n, rfl, ?_, Or.inr ⟨n, by omega, rfl⟩, ?_⟩
        · intro j hj
          rcases Nat.lt_succ_iff_lt_or_eq.1 hj with h | rfl
          · exact le_trans (le_of_lt hlt) (hle j h)
          · exact le_refl _
        · intro k
          simp only [Checkpoints.read, hm, hit, Option.elim]
          rw [List.lookup_cons]
          by_cases hk : k = n
          · subst hk; simp [hrec.1 hlt]
          · have : (k == n) = false := by simpa using hk
            rw [this]
            dsimp only
            rw [(hlook k hk).1, show c.files.lookup k = _ from hfiles k]
            have : (k < n + 1 ∧ Record L k) ↔ (k < n ∧ Record L k) := by
              constructor <;> rintro ⟨h1, h2⟩ <;> exact ⟨by omega, h2⟩
            simp only [this]
      · have hfi : firstImproves (some b) [(name, some (L n))] = (some b, false) := by simp [firstImproves, hbelow, hlt]
        rw [hfi, if_neg (by simp)]
        have hn : 0 < n := by
          rcases Nat.eq_zero_or_pos n with rfl | h
          · exact absurd (hrec.2 (fun j hj => absurd hj (by omega))) hlt
          · exact h
        refine ⟨b, rfl, ?_, ?_, ?_⟩
        · intro j hj
          rcases Nat.lt_succ_iff_lt_or_eq.1 hj with h | rfl
          · exact hle j h
          · exact not_lt.1 hlt
        · rcases hwit with h | ⟨j, hj, h⟩
          · exact Or.inl h
          · exact Or.inr ⟨j, by omega, h⟩
        · intro k
          simp only [Checkpoints.read]
          have hfs' : fs = c.files := (hlook (n + 1) (by omega)).2 hn
          rw [hfs', show c.files.lookup k = _ from hfiles k]
          have : (k < n + 1 ∧ Record L k) ↔ (k < n ∧ Record L k) := by
            constructor
            · rintro ⟨h1, h2⟩
              refine ⟨?_, h2⟩
              rcases Nat.lt_succ_iff_lt_or_eq.1 h1 with h | rfl
              · exact h
              · exact absurd (hrec.2 h2) hlt
            · rintro ⟨h1, h2⟩; exact ⟨by omega, h2⟩
          simp only [this]
  obtain ⟨_, _, _, _, h⟩ := hinv
  exact h

end

/-! ## Concrete runs -/

/-- a trainer whose trees are numbers and whose losses are given -/
def demo (L : Nat → Int) : Machine (List Nat) Nat Int Int where
  step i ts := .ok (ts ++ [i])
  snap ts := ⟨ts, 10, 31⟩
  eval ts := [("training_loss", some (L (ts.length - 1)))]

/-- the states of `demo` -/
def demoSt (n : Nat) : List Nat := List.range n

theorem demo_run (L : Nat → Int) (n : Nat) : Run (demo L) demoSt n := fun i _ => by
  show Outcome.ok (List.range i ++ [i]) = .ok (List.range (i + 1)); rw [List.range_succ]

/-- C198 (negation): with `saveOnlyImproved` and period 2, the losses 5, 3, 4 leave under the name of iteration 2
the model of two trees, the state before that iteration, although iteration 2 did not improve -/
theorem checkpoint_wrong_model :
    (fitWithCallbacks (demo fun i => [5, 3, 4].getD i 0) [(modelCheckpoint (fun _ => true) 2 true).on Part.self] 3 [] ⟨some 1000, []⟩).2.1.own.read 2 =
      some ⟨[0, 1], 10, 31⟩ ∧ ¬ Record (fun i => ([5, 3, 4] : List Int).getD i 0) 2 := by
  refine ⟨by decide +kernel, fun h => absurd (h 1 (by omega)) (by decide)⟩

/-- C197 (negation): with period 2 and the losses 5, 3, 4 the line of iteration 2 is printed twice, first with
the loss of iteration 1, and iteration 0 is printed first without any result -/
theorem print_twice :
    (fitWithCallbacks (demo fun i => [5, 3, 4].getD i 0) [(printEvaluation 2).on Part.self] 3 [] []).2.1.own =
      [(0, []), (0, [("training_loss", some 5)]), (2, [("training_loss", some 3)]), (2, [("training_loss", some 4)])] := by
  decide +kernel

/-- C194: two spies around a time limit that is reached before the third iteration -/
example : (fitWithCallbacks (demo fun i => [5, 3, 4].getD i 0)
    [(timeLimit (fun k => 10 * k) 0 35).on (⟨id, fun x _ => x⟩ : Part Nat Nat)] 3 [] 0).1 = [0, 1] := by decide +kernel

/-- C196: its hypotheses hold for the readings 0, 10, 20, 30, 40, …: the first above 35 is number 4 -/
example : (∀ i < 4, (fun k : Nat => (10 * k : Int)) i - 0 ≤ 35) ∧ 35 < (fun k : Nat => (10 * k : Int)) 4 - 0 := by decide

/-- C194: a stop in iteration 1 keeps the first tree -/
example : (fitWithCallbacks (demo fun _ => 0)
    [fun s : St Nat Int Int Unit => ({ s with env := { s.env with stop := s.env.stop || decide (s.env.iteration = 1) } }, .ok ())] 3 [] ()).1 = [0] := by
  decide +kernel

/-- C195: a schedule with decay 2 every 2 steps: the trees and what a spy sees of the rate -/
example : (fitWithCallbacks (demo fun _ => 0) [(learningRateSchedule 2 2).on Part.self] 5 [] (-1)).1 = [0, 1, 2, 3, 4] ∧
    (List.range 5).map (seenRate (10 : Int) 2 2) = [10, 10, 20, 10, 20] := by decide +kernel

/-- C198: period 2 and five iterations: files 0, 2, 4 with 1, 3, 5 trees -/
example : (fitWithCallbacks (demo fun _ => 0) [(modelCheckpoint (fun _ => true) 2 false).on Part.self] 5 [] ⟨some 1000, []⟩).2.1.own.read 2 =
    some ⟨[0, 1, 2], 10, 31⟩ := by decide +kernel

/-- C198: period 1 with `saveOnlyImproved` and the losses 5, 3, 4: files 0 and 1 -/
example : (List.range 3).map (fitWithCallbacks (demo fun i => [5, 3, 4].getD i 0)
      [(modelCheckpoint (fun _ => true) 1 true).on Part.self] 3 [] ⟨some 1000, []⟩).2.1.own.read =
    [some ⟨[0], 10, 31⟩, some ⟨[0, 1], 10, 31⟩, none] := by decide +kernel

/-- a component next to another is lawful, and a callback of the other is a bystander -/
example : Bystander (τ := Nat) (α := Int) (β := Int) (Prod.fst : Nat × List _ → Nat) (spy.on ⟨Prod.snd, fun x k => (k.1, x)⟩) :=
  fun _ => ⟨rfl, rfl, rfl⟩

/-- **C195, what holds:** `ResetParameter` writes the learning rate and the number of leaves its function gives for the iteration into the model,
whatever the order of the map, ignores values of other types, and changes nothing else. -/
theorem reset_parameter_partial (params : Nat → List (String × PVal α)) (e : Env τ α β) (m : Snap τ α) (hm : e.model = some m)
    (hn : ((params e.iteration).map (·.1)).Nodup) :
    ∃ m', (resetParameter params e ()) = (({ e with model := some m' }, ()), .ok ()) ∧ m'.trees = m.trees ∧
      (∀ x, ("learning_rate", .float x) ∈ params e.iteration → m'.rate = x) ∧
      ((∀ x, ("learning_rate", .float x) ∉ params e.iteration) → m'.rate = m.rate) ∧
      (∀ x, ("num_leaves", .int x) ∈ params e.iteration → m'.leaves = x) ∧
      ((∀ x, ("num_leaves", .int x) ∉ params e.iteration) → m'.leaves = m.leaves) := by
  refine ⟨(params e.iteration).foldl (fun m p => m.apply p.1 p.2) m, by unfold resetParameter; rw [hm], ?_⟩
  generalize params e.iteration = l at hn
  clear hm
  induction l generalizing m with
  | nil => simp
  | cons p l ih =>
    obtain ⟨k, v⟩ := p
    rw [List.map_cons, List.nodup_cons] at hn
    obtain ⟨i1, i2, i3, i4, i5⟩ := ih (m.apply k v) hn.2
    have hk : ∀ w, (k, w) ∉ l := fun w hw => hn.1 (List.mem_map_of_mem (f := (·.1)) hw)
    have ht : (m.apply k v).trees = m.trees := by
      unfold Snap.apply
      split
      · cases v <;> rfl
      · split
        · cases v <;> rfl
        · rfl
    rw [List.foldl_cons]
    refine ⟨i1.trans ht, ?_, ?_, ?_, ?_⟩
    · intro x hx
      rcases List.mem_cons.1 hx with h | h
      · cases h
        rw [i3 fun y hy => hk _ hy]
        rfl
      · exact i2 x h
    · intro hx
      rw [i3 fun y hy => hx y (List.mem_cons_of_mem _ hy)]
      unfold Snap.apply
      split
      · next h1 =>
        subst h1
        cases v with
        | float x => exact absurd (List.mem_cons_self ..) (hx x)
        | int x => rfl
        | other => rfl
      · split
        · cases v <;> rfl
        · rfl
    · intro x hx
      rcases List.mem_cons.1 hx with h | h
      · cases h
        rw [i5 fun y hy => hk _ hy]
        rfl
      · exact i4 x h
    · intro hx
      rw [i5 fun y hy => hx y (List.mem_cons_of_mem _ hy)]
      unfold Snap.apply
      split
      · cases v <;> rfl
      · split
        · next h1 =>
          subst h1
          cases v with
          | int x => exact absurd (List.mem_cons_self ..) (hx x)
          | float x => rfl
          | other => rfl
        · rfl

example : resetParameter (τ := Nat) (β := Int) (fun _ => [("num_leaves", .int 7), ("learning_rate", .float (5 : Int)), ("x", .other)])
    ⟨some ⟨[1], 2, 31⟩, 3, [], false⟩ () = ((⟨some ⟨[1], 5, 7⟩, 3, [], false⟩, ()), .ok ()) := by rfl

/-- **C195** (law-free) `ResetParameter` without a model: nothing happens if no parameter is given for the iteration, otherwise the nil model is dereferenced. -/
theorem reset_parameter_no_model {α β τ : Type _} (params : Nat → List (String × PVal α)) (e : Env τ α β) (hm : e.model = none) :
    (params e.iteration = [] → resetParameter params e () = ((e, ()), .ok ())) ∧
    (params e.iteration ≠ [] → ∃ v, (resetParameter params e ()).2 = .panic v) := by
  unfold resetParameter
  rw [hm]
  constructor
  · intro h; simp [h]
  · intro h
    refine ⟨"nil dereference", ?_⟩
    simp [h]

end Scigo.Trainer.Callbacks
