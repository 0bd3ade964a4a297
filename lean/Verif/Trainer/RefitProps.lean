import Verif.Trainer.ServeProps
import Verif.Trainer.CallbackProps

/-!
# Fitting a trainer again: theorems
-/

set_option linter.unusedSectionVars false

namespace Scigo.Trainer

section
variable {α : Type} [DecidableEq α] [LT α] [DecidableLT α] [LE α] [DecidableLE α] [Zero α] [One α] [Add α] [Sub α] [Neg α] [Mul α] [Div α]

/-- no callback interferes -/
def goOn {β : Type} : Nat → β → CB := fun _ _ => .go

theorem run_appends {C : Config α} {lib : Lib α} {byGrad : (Nat → α) → List Nat → List Nat} {rand : Nat → Nat → Nat} {fuel : Nat} {P : Problem α} :
    ∀ (n iteration : Nat) (st st' : St α), C.run lib byGrad rand fuel P goOn goOn n iteration st = .ok st' →
      ∃ new, st'.trees = st.trees ++ new ∧ new.length = n
  | 0, _, st, st', h => by cases h; exact ⟨[], by simp, rfl⟩
  | n + 1, iteration, st, st', h => by
    unfold Config.run at h
    simp only [goOn] at h
    obtain ⟨s1, h1, h2⟩ := bind_ok_inv h
    obtain ⟨_, _, _, _, _, t, _, _, _, _, _, _, _, _, rfl⟩ := iterate_inv h1
    obtain ⟨new, h3, h4⟩ := run_appends n (iteration + 1) _ st' h2
    exact ⟨t :: new, by rw [h3]; simp, by simp [h4]⟩

/-- C130 (negation): a second `Fit` does not start anew: the trees of the first training stay in front of the
new ones, whatever the new data -/
theorem refit_keeps_trees (C : Config α) (lib : Lib α) (byGrad : (Nat → α) → List Nat → List Nat) (rand rand' : Nat → Nat → Nat) (fuel : Nat)
    (P P' : Problem α) (st st' : St α) (h1 : C.fit lib byGrad rand fuel P goOn goOn St.new = .ok st)
    (h2 : C.fit lib byGrad rand' fuel P' goOn goOn st = .ok st') :
    st'.trees.length = 2 * C.iterations ∧ st'.trees.take C.iterations = st.trees := by
  obtain ⟨a, ha, hla⟩ := run_appends _ _ _ _ h1
  obtain ⟨b, hb, hlb⟩ := run_appends _ _ _ _ h2
  have hl : st.trees.length = C.iterations := by rw [ha, List.length_append, hla]; simp [St.new]
  refine ⟨by rw [hb, List.length_append, hl, hlb]; omega, ?_⟩
  rw [hb, ← hl, List.take_left]

theorem collect_panic {f : Nat → Outcome α} {v : String} {k : Nat} (hk : f k = .panic v) (hlt : ∀ i < k, ∃ a, f i = .ok a) :
    ∀ n, k < n → collect f n = .panic v := by
  have hpre : ∀ m ≤ k, ∃ l, collect f m = .ok l := fun m hm => by
    induction m with
    | zero => exact ⟨[], rfl⟩
    | succ m ih =>
      obtain ⟨l, hl⟩ := ih (by omega)
      obtain ⟨a, ha⟩ := hlt m (by omega)
      exact ⟨l ++ [a], by rw [collect, hl, Outcome.bind_ok, ha, Outcome.bind_ok]⟩
  intro n hn
  induction n with
  | zero => omega
  | succ n ih =>
    rcases Nat.lt_succ_iff_lt_or_eq.1 hn with h | rfl
    · rw [collect, ih h]; rfl
    · obtain ⟨l, hl⟩ := hpre k (le_refl _)
      rw [collect, hl, Outcome.bind_ok, hk]; rfl

/-- C130: after a training on `P` (of an objective whose scores are cached), a training on more rows panics -/
theorem refit_more_rows_panics (C : Config α) (hw : C.wide = false) (lib : Lib α) (byGrad : (Nat → α) → List Nat → List Nat)
    (rand rand' : Nat → Nat → Nat) (fuel : Nat) (P P' : Problem α) (st : St α) (h1 : C.fit lib byGrad rand fuel P goOn goOn St.new = .ok st)
    (hn : 0 < C.iterations) (hr : P.rows < P'.rows) (hy : P'.y.length = P'.rows) :
    C.fit lib byGrad rand' fuel P' goOn goOn st = .panic "mat: row index out of range" := by
  have hb := fit_boosts C lib byGrad rand fuel P goOn goOn st h1
  have hlen := hb.2.1 (fun _ _ => ⟨rfl, rfl⟩)
  obtain ⟨p, hp, hpl, -⟩ := hb.2.2.2.2.1 (by intro h; rw [h] at hlen; simp at hlen; omega) hw
  unfold Config.fit
  obtain ⟨n, hn'⟩ : ∃ n, C.iterations = n + 1 := ⟨C.iterations - 1, by omega⟩
  rw [hn']
  unfold Config.run
  simp only [goOn]
  have hc : C.cache P' st = p := by rw [Config.cache, hp]; rfl
  have : C.iterate lib byGrad rand' fuel P' 0 st = .panic "mat: row index out of range" := by
    unfold Config.iterate
    rw [if_neg (by simp [hy]), hc, collect_panic (k := P.rows) ?_ ?_ P'.rows hr]
    · rfl
    · simp [Config.current, hw, ← hpl]
    · intro i hi
      refine ⟨p[i]'(by omega), ?_⟩
      simp [Config.current, hw, show i < p.length by omega]
  rw [this]
  rfl

/-- C130: after a training on `P` the first tree of a training on other rows `P'` (no more of them) is grown from
the gradients at the scores of the rows of `P`, not of those of `P'` -/
theorem refit_stale_scores (C : Config α) (hw : C.wide = false) (lib : Lib α) (byGrad : (Nat → α) → List Nat → List Nat)
    (rand rand' : Nat → Nat → Nat) (fuel : Nat) (P P' : Problem α) (st st1 : St α)
    (h1 : C.fit lib byGrad rand fuel P goOn goOn St.new = .ok st) (hn : 0 < C.iterations) (hr : P'.rows ≤ P.rows)
    (h2 : C.iterate lib byGrad rand' fuel P' 0 st = .ok st1) :
    ∃ (scores : List α) (gs hs : List α) (t : LGB.Tree α), st1.trees = st.trees ++ [t] ∧
      (∀ i < P'.rows, ∃ s, scores[i]? = some s ∧ IsScore lib.toInt C.learningRate (C.init P) (P.row i) st.trees s) ∧
      C.derivs lib.toInt P' C.objective.grad scores = .ok gs ∧ C.derivs lib.toInt P' C.objective.hess scores = .ok hs ∧
      let smp := C.sample lib byGrad (rand' 0) P' 0 (fun i => gs.getD i 0) (fun i => hs.getD i 0)
      (grower lib C.hb C.lim C.categorical ⟨P'.cols, P'.x, smp.2.1, smp.2.2⟩).buildTree C.learningRate fuel smp.1 = some t := by
  have hb := fit_boosts C lib byGrad rand fuel P goOn goOn st h1
  have hlen := hb.2.1 (fun _ _ => ⟨rfl, rfl⟩)
  obtain ⟨p, hp, hpl, hps⟩ := hb.2.2.2.2.1 (by intro h; rw [h] at hlen; simp at hlen; omega) hw
  obtain ⟨_, scores, gs, hs, cache, t, loss, hsc, hg, hh, ht, _, _, _, rfl⟩ := iterate_inv h2
  refine ⟨scores, gs, hs, t, rfl, ?_, hg, hh, ht⟩
  intro i hi
  obtain ⟨s, h3, h4⟩ := hps i (by omega)
  obtain ⟨_, hci⟩ := collect_ok hsc
  obtain ⟨v, hv, hv'⟩ := hci i hi
  refine ⟨s, ?_, h4⟩
  have hc : C.cache P' st = p := by rw [Config.cache, hp]; rfl
  rw [hc] at hv
  simp only [Config.current, hw, Bool.false_eq_true, if_false, h3] at hv
  cases hv
  exact hv'

/-- C130: a training on the four rows of the first example and one on five rows meet the hypotheses -/
example : ∃ st, (exConfig 1 1).fit exSlow (fun _ l => l) (fun _ _ => 0) 5 (exProblem [1, 2, 3, 4] [0, 1, 5, 30]) goOn goOn St.new = .ok st ∧
    (exConfig 1 1).fit exSlow (fun _ l => l) (fun _ _ => 0) 5 (exProblem [1, 2, 3, 4, 5] [0, 1, 5, 30, 2]) goOn goOn st =
      .panic "mat: row index out of range" := by
  obtain ⟨st, h, -⟩ := fit_succeeds (exConfig 1 1) exSlow exLib_ok.byRatio (fun _ l => l) (fun _ _ => 0) 5 (exProblem [1, 2, 3, 4] [0, 1, 5, 30]) rfl
    (by intro w h; cases h) (by decide) (by decide) goOn goOn (fun _ _ => ⟨rfl, rfl⟩)
  exact ⟨st, h, refit_more_rows_panics _ rfl _ _ _ _ _ _ _ st h (by decide) (by decide) rfl⟩

end

namespace Callbacks

variable {τ α β κ T : Type}

/-- C130: a trainer whose callback list was asked to stop in an earlier `Fit` builds no tree in a later one -/
theorem stopped_list_builds_nothing (M : Machine T τ α β) (cbs : List (Call (St τ α β κ))) (hcs : ∀ c ∈ cbs, Steady c) (n : Nat) (t : T)
    (s : St τ α β κ) (hs : s.env.stop = true) : (fit M cbs n t s).1 = t ∧ (fit M cbs n t s).2.2 = .ok () := by
  unfold fit
  cases n with
  | zero => exact ⟨rfl, rfl⟩
  | succ n =>
    have hb := steady_before cbs hcs (s.before 0 (M.snap t))
    have hst : (runBefore cbs (s.before 0 (M.snap t))).1.env.stop = true := hb.2.1 hs
    unfold fitLoop
    rw [hb.1]
    simp [hst]

/-- a time limit reached in a first run of three iterations: nothing is trained in the second -/
example : let r := fit (demo fun _ => 0) [(timeLimit (fun k => 10 * k) 0 35).on Part.self] 3 [] (St.fresh 0)
    r.1 = [0, 1] ∧ (fit (demo fun _ => 0) [(timeLimit (fun k => 10 * k) 0 35).on Part.self] 3 r.1 r.2.1).1 = [0, 1] := by decide +kernel

end Callbacks

end Scigo.Trainer
