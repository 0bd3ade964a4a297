import Verif.Boost.SessionProps

/-!
# C340: predictions of a booster come in the order of the rows, and a booster without a model refuses
-/

set_option linter.unusedSectionVars false

namespace Scigo.Boost

variable {α : Type} [BEq α] [LE α] [DecidableLE α] [LT α] [DecidableLT α] [Zero α] [Neg α] [Add α] [Sub α] [One α] [Div α]

theorem everyRow_get (f : List α → Outcome (List α)) (xs ps : List (List α)) (h : everyRow f xs = .ok ps) :
    ps.length = xs.length ∧ ∀ (i : Nat) (x : List α), xs[i]? = some x → ∃ p, ps[i]? = some p ∧ f x = .ok p := by
  induction xs generalizing ps with
  | nil =>
    obtain rfl := Outcome.ok.inj h
    exact ⟨rfl, fun i x hx => by simp at hx⟩
  | cons x xs ih =>
    unfold everyRow at h
    cases hf : f x with
    | err e => rw [hf] at h; cases h
    | panic e => rw [hf] at h; cases h
    | ok p =>
      cases hr : everyRow f xs with
      | err e => rw [hf, hr] at h; cases h
      | panic e => rw [hf, hr] at h; cases h
      | ok qs =>
        rw [hf, hr] at h
        obtain rfl := Outcome.ok.inj h
        obtain ⟨h1, h2⟩ := ih qs hr
        refine ⟨by simp [h1], fun i y hy => ?_⟩
        cases i with
        | zero =>
          simp only [List.getElem?_cons_zero, Option.some.injEq] at hy
          exact ⟨p, rfl, by rw [← hy]; exact hf⟩
        | succ i => exact h2 i y (by simpa using hy)

variable {M X R ι : Type}

/-- **C340.** A loaded booster predicts one row per row of the matrix, in the same order: the `i`-th result is that of the `i`-th row alone. -/
theorem loaded_rows_in_order (N : LGB.LNum α) (K : Kit M (LGB.LModel α)) (own : M → Nat × List (List α) → Outcome (List (List α))) (ops : List (Op M (LGB.LModel α) ι)) (hs : NoSwitch ops)
    (m : LGB.LModel α) (hm : lastGiven ops = some (.inr m)) (w : Nat) (rows out : List (List α)) (h : (Session.after K ops).predict own (leavesPredict N) (w, rows) = .ok out) :
    out.length = rows.length ∧ ∀ (i : Nat) (x : List α), rows[i]? = some x → ∃ p, out[i]? = some p ∧ m.predictSingle N x = .ok p := by
  rw [model_given_last_partial K own (leavesPredict N) ops hs] at h
  rw [hm] at h
  change leavesPredict N m (w, rows) = .ok out at h
  unfold leavesPredict at h
  split at h
  · cases h
  · split at h
    · cases h
    · exact everyRow_get _ _ _ h

/-- **C340.** A booster to which no model was given answers all four kinds of prediction with an error; it does not panic. -/
theorem no_model_no_answer {L : Type} (K : Kit M L) (own ownProba ownRaw ownLeaf : M → X → Outcome R) (loaded : L → X → Outcome R) (ops : List (Op M L ι)) (hl : loads ops = [])
    (ht : trained ops = []) (x : X) : let b := Session.after K ops
    ∃ e, b.predict own loaded x = .err e ∧ b.predictProba ownProba loaded x = .err e ∧ b.predictRawScore ownRaw loaded x = .err e ∧ b.predictLeaf ownLeaf x = .err e := by
  obtain ⟨h1, h2⟩ := after_models K ops
  rw [hl] at h1
  rw [ht] at h2
  refine ⟨.other "model not initialized", ?_⟩
  unfold Session.predictRawScore Session.predict Session.predictProba Session.predictLeaf
  rw [h1, h2]
  exact ⟨rfl, rfl, rfl, rfl⟩

/-- a loaded model of one constant tree on two rows -/
example : (Session.after (⟨fun _ => 0, fun _ => 0, fun m => m.trees.length, fun _ => ()⟩ : Kit Unit (LGB.LModel Rat)) ([.update, .initFromLeaves exBinary] : List (Op Unit (LGB.LModel Rat) Unit))).predict
    (fun _ _ => .panic "") (leavesPredict exNum) (1, [[7], [3]]) = .ok [[1 / 2], [1 / 2]] := by decide +kernel

/-- a booster updated twice without a model -/
example : (Session.after exKit ([.update, .setBest 3, .update] : List (Op (List Int) (List Int) Int))).predictProba (fun m x => .ok (m.sum * x)) (fun m x => .ok (-m.sum * x)) (3 : Int) =
    .err (.other "model not initialized") := by decide

end Scigo.Boost
