import Verif.Online.SeedProps

/-!
# C237, C238: the seeded estimators are the estimators of the model with drawn weights, and what they draw
-/

set_option linter.unusedSectionVars false

namespace Scigo.Online

section
variable {α : Type _} [Add α] [Sub α] [Mul α] [Div α] [Neg α] [Zero α] [One α] [LT α] [DecidableLT α]
  [LE α] [DecidableLE α] [BEq α]

/-! ## Lemmas -/

theorem normals_state (G : Rng α) (scale : α) (n s : Nat) : (normals G scale n s).2 = (fun s => (G.norm s).2)^[n] s := by
  induction n generalizing s with
  | zero => rfl
  | succ n ih => simp only [normals, ih, Function.iterate_succ, Function.comp_apply]

theorem normalRows_state (G : Rng α) (scale : α) (cols k s : Nat) : (normalRows G scale cols k s).2 = (fun s => (G.norm s).2)^[k * cols] s := by
  induction k generalizing s with
  | zero => simp [normalRows]
  | succ k ih =>
    simp only [normalRows, ih, normals_state]
    rw [← Function.iterate_add_apply, Nat.succ_mul]

theorem normals_value (G : Rng α) (scale : α) (n s j : Nat) (hj : j < n) :
    (normals G scale n s).1[j]? = some ((G.norm ((fun s => (G.norm s).2)^[j] s)).1 * scale) := by
  induction n generalizing s j with
  | zero => omega
  | succ n ih =>
    cases j with
    | zero => simp [normals]
    | succ j =>
      simp only [normals, List.getElem?_cons_succ, Function.iterate_succ, Function.comp_apply]
      exact ih _ _ (by omega)

theorem clf_epochs_refine (G : Rng α) (N : Num α) (toInt : α → Int) (X y : Mat α) (n : Nat) (m : Clf α) (s k : Nat) :
    ∃ pick, ((Clf.epochsG G N toInt X y n m s).1, (Clf.epochsG G N toInt X y n m s).2.1) = Clf.fitLoop N toInt pick X y n k m := by
  induction n generalizing m s k with
  | zero => exact ⟨fun _ _ => 0, rfl⟩
  | succ n ih =>
    obtain ⟨p0, e0⟩ := epochG_refines G m.opts X.r s
    simp only [Clf.epochsG, Clf.fitLoop]
    rw [e0]
    rcases h : Clf.trainRows N toInt X y (epochOrder m.opts p0 X.r) m 0 with ⟨m', l, b⟩
    cases b with
    | true =>
      refine ⟨fun _ => p0, ?_⟩
      rw [h]
    | false =>
      simp only
      by_cases hcv : checkConvergence m'.opts.tol (m'.hist ++ [l / N.ofNat X.r]) = true
      · refine ⟨fun _ => p0, ?_⟩
        rw [h]
        simp only [hcv, if_true]
      · obtain ⟨p1, e1⟩ := ih { m' with hist := m'.hist ++ [l / N.ofNat X.r], nIter := m'.nIter + 1 } (epochG G m.opts X.r s).2 (k + 1)
        refine ⟨fun i => if i = k then p0 else p1 i, ?_⟩
        simp only [if_pos, h]
        rw [if_neg hcv, if_neg hcv, e1]
        have local_ : ∀ n k (p q : Nat → Nat → Nat) (m : Clf α), (∀ i, k ≤ i → p i = q i) →
            Clf.fitLoop N toInt p X y n k m = Clf.fitLoop N toInt q X y n k m := by
          intro n
          induction n with
          | zero => intros; rfl
          | succ n ihn =>
            intro k p q m hpq
            simp only [Clf.fitLoop]
            rw [hpq k le_rfl]
            rcases Clf.trainRows N toInt X y (epochOrder m.opts (q k) X.r) m 0 with ⟨m1, l1, b1⟩
            cases b1 with
            | true => rfl
            | false =>
              simp only
              split
              · rfl
              · exact ihn _ _ _ _ fun i hi => hpq i (by omega)
        exact local_ _ _ _ _ _ fun i hi => (if_neg (by omega)).symm

/-! ## Properties -/

/-- **C237**: the classifier with its generator is the classifier of `Verif.Online.Model` for some initial weights of the right shape and some
shuffles: everything proved there for all of these holds for it -/
theorem clf_fit_refines (G : Rng α) (N : Num α) (toInt : α → Int) (iter : List Int → List Int) (X y : Mat α) (e : Seeded (Clf α)) :
    ∃ (init : Nat → Nat → List (List α)) (pick : Nat → Nat → Nat), (∀ k c, (init k c).length = k ∧ ∀ w ∈ init k c, w.length = c) ∧
      ((Clf.fitG G N toInt iter X y e).1.model, (Clf.fitG G N toInt iter X y e).2) = e.model.fit N toInt iter init pick X y := by
  set w := drawnRows G N (e.model.opts.warmStart && e.model.coef.isSome) (firstClasses toInt iter y none) X.c e.rng with hw
  let init : Nat → Nat → List (List α) := fun k c =>
    if k = firstClasses toInt iter y none ∧ c = X.c then (normalRows G (xavier N c) c k e.rng).1 else List.replicate k (List.replicate c 0)
  have hb : e.model.fitBegin toInt iter (fun _ _ => w.1) X y = e.model.fitBegin toInt iter init X y := by
    unfold Clf.fitBegin
    by_cases hp : e.model.opts.warmStart = true ∧ e.model.coef.isSome = true
    · rw [if_pos hp]
      obtain ⟨c, hc⟩ := Option.isSome_iff_exists.1 hp.2
      simp only [Clf.begin, hc]
    · have hl : w = normalRows G (xavier N X.c) X.c (firstClasses toInt iter y none) e.rng := by
        have : (e.model.opts.warmStart && e.model.coef.isSome) = false := by
          rcases h1 : e.model.opts.warmStart <;> rcases h2 : e.model.coef.isSome <;> simp_all
        rw [hw, drawnRows, this]
        rfl
      rw [if_neg hp, hl]
      simp only [Clf.begin, Clf.reset, init, firstClasses, and_self, if_true]
  obtain ⟨pick, hp⟩ := clf_epochs_refine G N toInt X y e.model.opts.maxIter (e.model.fitBegin toInt iter init X y) w.2 0
  refine ⟨init, pick, fun k c => ?_, ?_⟩
  · simp only [init]
    split
    · exact normalRows_shape ..
    · exact ⟨by simp, fun w hw => by rw [List.eq_of_mem_replicate hw]; simp⟩
  · simp only [Clf.fitG, ← hw, hb, Clf.fit, ← hp]
    rcases Clf.epochsG G N toInt X y e.model.opts.maxIter (e.model.fitBegin toInt iter init X y) w.2 with ⟨m', b, s⟩
    cases b <;> rfl

/-- **C237**: `PartialFit` of the regressor draws one normal number for every column if it has no weights yet, in the order of the columns, and nothing if
it has; it trains on weights made of exactly these numbers. -/
theorem reg_partialFit_draws (G : Rng α) (N : Num α) (X y : Mat α) (e : Seeded (Reg α)) :
    (e.model.coef.isSome = true → (Reg.partialFitG G N X y e).1.rng = e.rng) ∧
    (e.model.coef = none → (Reg.partialFitG G N X y e).1.rng = (fun s => (G.norm s).2)^[X.c] e.rng) ∧
    ∃ init : Nat → List α, ((Reg.partialFitG G N X y e).1.model, (Reg.partialFitG G N X y e).2) = e.model.partialFit N init X y ∧
      (e.model.coef = none → (init X.c).length = X.c ∧
        ∀ j < X.c, (init X.c)[j]? = some ((G.norm ((fun s => (G.norm s).2)^[j] e.rng)).1 * N.sqrt (N.two / N.ofNat X.c))) := by
  refine ⟨fun h => ?_, fun h => ?_, fun _ => (drawnFor G N e.model.coef.isSome X.c e.rng).1, rfl, fun h => ?_⟩
  · simp only [Reg.partialFitG, h, drawnFor, if_true]
  · simp only [Reg.partialFitG, h, drawnFor, Option.isSome_none, Bool.false_eq_true, if_false]
    exact normals_state ..
  · simp only [h, drawnFor, Option.isSome_none, Bool.false_eq_true, if_false]
    exact ⟨normals_length .., fun j hj => normals_value _ _ _ _ _ hj⟩

/-- **C237**: `PartialFit` of the classifier draws one normal number for every class and column if it has no weights yet, and nothing if it has. -/
theorem clf_partialFit_draws (G : Rng α) (N : Num α) (toInt : α → Int) (iter : List Int → List Int) (X y : Mat α) (classes : Option (List Int))
    (e : Seeded (Clf α)) :
    (e.model.coef.isSome = true → (Clf.partialFitG G N toInt iter X y classes e).1.rng = e.rng) ∧
    (∀ cs, classes = some cs → e.model.coef = none →
      (Clf.partialFitG G N toInt iter X y classes e).1.rng = (fun s => (G.norm s).2)^[cs.length * X.c] e.rng) ∧
    (classes = none → e.model.coef = none →
      (Clf.partialFitG G N toInt iter X y classes e).1.rng = (fun s => (G.norm s).2)^[(extractClasses toInt iter y).length * X.c] e.rng) ∧
    ∃ init : Nat → Nat → List (List α),
      ((Clf.partialFitG G N toInt iter X y classes e).1.model, (Clf.partialFitG G N toInt iter X y classes e).2) =
        e.model.partialFit N toInt iter init X y classes := by
  refine ⟨fun h => ?_, fun cs hc h => ?_, fun hc h => ?_, fun _ _ => (drawnRows G N e.model.coef.isSome (firstClasses toInt iter y classes) X.c e.rng).1, rfl⟩
  · simp only [Clf.partialFitG, h, drawnRows, if_true]
  · subst hc
    simp only [Clf.partialFitG, h, drawnRows, Option.isSome_none, Bool.false_eq_true, if_false, firstClasses]
    exact normalRows_state ..
  · subst hc
    simp only [Clf.partialFitG, h, drawnRows, Option.isSome_none, Bool.false_eq_true, if_false, firstClasses]
    exact normalRows_state ..

end

/-- the first call of the example's regressor, which has no weights, moves the generator by one number, the second leaves it -/
example : (exRegQ 2).coef = none ∧ (Reg.partialFitG exGen exNumQ exXQ exXQ ⟨exRegQ 2, 7⟩).1.rng = 38 ∧
    (Reg.partialFitG exGen exNumQ exXQ exXQ (Reg.partialFitG exGen exNumQ exXQ exXQ ⟨exRegQ 2, 7⟩).1).1.rng = 38 ∧
    (Reg.partialFitG exGen exNumQ exXQ exXQ ⟨exRegQ 2, 7⟩).1.model.coef.isSome = true := by
  decide +kernel

end Scigo.Online
