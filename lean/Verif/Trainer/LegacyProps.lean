import Verif.Trainer.Legacy
import Verif.Trainer.ServeProps

/-!
# C254: what the early-stopping setting does without validation data
-/

set_option linter.unusedSectionVars false

namespace Scigo.Trainer

section
variable {α : Type} [DecidableEq α] [LT α] [DecidableLT α] [LE α] [DecidableLE α] [Zero α] [One α] [Add α] [Sub α] [Neg α] [Mul α] [Div α]

/-! ## Lemmas -/

/-- the loss of the state after an iteration is the one it has just reported -/
theorem iterate_loss {C : Config α} {lib : Lib α} {byGrad : (Nat → α) → List Nat → List Nat} {rand : Nat → Nat → Nat} {fuel : Nat} {P : Problem α}
    {k : Nat} {st st' : St α} (h : C.iterate lib byGrad rand fuel P k st = .ok st') :
    ∃ l, C.loss lib.toInt P st'.trees (C.cache P st') = .ok l ∧ st'.losses = st.losses ++ [l] := by
  unfold Config.iterate at h
  split at h
  · cases h
  obtain ⟨scores, -, h⟩ := bind_ok_inv h
  obtain ⟨gs, -, h⟩ := bind_ok_inv h
  obtain ⟨hs, -, h⟩ := bind_ok_inv h
  simp only at h
  split at h
  · cases h
  obtain ⟨cache, -, h⟩ := bind_ok_inv h
  obtain ⟨loss, hl, h⟩ := bind_ok_inv h
  obtain rfl := Outcome.ok.inj h
  exact ⟨loss, hl, rfl⟩

theorem endOfRound_go {C : Config α} {lib : Lib α} {byGrad : (Nat → α) → List Nat → List Nat} {rand : Nat → Nat → Nat} {fuel : Nat} {P : Problem α}
    {k : Nat} {st st' : St α} (h : C.iterate lib byGrad rand fuel P k st = .ok st') (rounds : Int) (best : α) :
    ∃ b, C.endOfRound lib P rounds st' best = .ok (false, b) := by
  obtain ⟨l, hl, -⟩ := iterate_loss h
  unfold Config.endOfRound Config.checkStop
  by_cases hr : 0 < rounds
  · rw [if_pos hr, hl, Outcome.bind_ok]
    split
    · exact ⟨_, rfl⟩
    · exact ⟨_, rfl⟩
  · rw [if_neg hr]; exact ⟨_, rfl⟩

/-! ## Properties -/

/-- **C254, as far as it holds**: training with any early-stopping setting, any callbacks and any earlier best score is the training without the
setting — the same trees, scores, losses, error or panic. Missing: that it ever stops (`early_stopping_never_stops`). -/
theorem early_stopping_ignored_partial (C : Config α) (lib : Lib α) (byGrad : (Nat → α) → List Nat → List Nat) (rand : Nat → Nat → Nat) (fuel : Nat)
    (P : Problem α) (before after : Nat → St α → CB) (rounds : Int) (st : St α) (best : α) :
    (C.fitStop lib byGrad rand fuel P before after rounds st best).map Prod.fst = C.fit lib byGrad rand fuel P before after st := by
  unfold Config.fitStop Config.fit
  generalize C.iterations = n, (0 : Nat) = k
  induction n generalizing k st best with
  | zero => rfl
  | succ n ih =>
    rw [Config.runStop, Config.run]
    cases before k st with
    | fail e => rfl
    | stop => rfl
    | go =>
      dsimp only
      cases hi : C.iterate lib byGrad rand fuel P k st with
      | err e => rfl
      | panic v => rfl
      | ok st' =>
        rw [Outcome.bind_ok, Outcome.bind_ok]
        cases after k st' with
        | fail e => rfl
        | stop => rfl
        | go =>
          dsimp only
          obtain ⟨b, hb⟩ := endOfRound_go hi rounds best
          rw [hb, Outcome.bind_ok]
          exact ih _ _ _

/-- **C254 is false of the code**: with early stopping after `rounds` iterations without improvement and no callback stopping it, a training that
finishes has made all `NumIterations` iterations, whatever the losses were. -/
theorem early_stopping_never_stops (C : Config α) (lib : Lib α) (byGrad : (Nat → α) → List Nat → List Nat) (rand : Nat → Nat → Nat) (fuel : Nat)
    (P : Problem α) (before after : Nat → St α → CB) (hcb : ∀ i s, before i s = .go ∧ after i s = .go) (rounds : Int) (best best' : α) (st : St α)
    (h : C.fitStop lib byGrad rand fuel P before after rounds St.new best = .ok (st, best')) :
    st.trees.length = C.iterations ∧ st.losses.length = C.iterations := by
  have e := early_stopping_ignored_partial C lib byGrad rand fuel P before after rounds St.new best
  rw [h, Outcome.map_ok] at e
  obtain ⟨-, b, -, -, -, c, -⟩ := fit_boosts C lib byGrad rand fuel P before after st e.symm
  exact ⟨b hcb, c.trans (b hcb)⟩

end

/-- twenty iterations on constant targets, early stopping after one: the loss is 0 from the first tree on, and all twenty trees are there -/
theorem early_stopping_no_effect_witness :
    (match (exConfig 20 1).fitStop exSlow (fun _ l => l) (fun _ _ => 0) 5 (exProblem [1, 2] [3, 3]) (fun _ _ => .go) (fun _ _ => .go) 1 St.new 0 with
    | .ok (st, best) => some (st.trees.length, st.losses, best)
    | _ => none) = some (20, List.replicate 20 0, 0) := by
  decide +kernel

end Scigo.Trainer
