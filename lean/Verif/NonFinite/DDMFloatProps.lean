import Verif.NonFinite.GuardProps
import Verif.Drift.Props

/-!
# C345: the drift detector DDM on float64 predictions
-/

set_option linter.unusedSectionVars false

namespace Scigo.NonFinite

open F64 Scigo.Drift

/-! ## Specification -/

/-- the results of feeding a detector with predictions and targets one after the other (cf. sklearn/drift/ddm.go:152-155) -/
def judged (sqrt : F64 → F64) (eps : F64) : List (F64 × F64) → DDM F64 → List (Result F64)
  | [], _ => []
  | x :: l, s => (s.updateWithPrediction sqrt F64.abs eps x.1 x.2).1 :: judged sqrt eps l (s.updateWithPrediction sqrt F64.abs eps x.1 x.2).2

/-! ## Lemmas -/

theorem zero_over_nat {n : Nat} (hn : 1 ≤ n) : (0 : F64) / (n : F64) = 0 := by
  have h1 : (1 : ℚ) ≤ Binary64.rnd n := by
    have := Binary64.rnd_mono (show (1 : ℚ) ≤ n by exact_mod_cast hn)
    rwa [show Binary64.rnd 1 = 1 from Binary64.rounding.one] at this
  show F64.div 0 (F64.round n) = 0
  rw [zero_eq]
  unfold F64.round
  split
  · show (if Binary64.rnd (n : ℚ) = 0 then _ else F64.round (0 / Binary64.rnd n)) = _
    rw [if_neg (by linarith), zero_div]
    exact zero_eq
  · exact zero_eq

theorem sub_self_fin {x : F64} (h : x.IsFin) : x - x = 0 := by
  cases x with
  | nan => exact h.elim
  | inf s => exact h.elim
  | fin q =>
    show F64.round (q.1 - q.1) = 0
    rw [sub_self]
    rfl

/-- a detector that has seen no mistake -/
def Clean (s : DDM F64) : Prop := s.numErrors = 0 ∧ (s.min = none ∨ s.min = some (0, 0)) ∧ s.warningLevel.IsFin ∧ s.outControlLevel.IsFin

theorem clean_update (sqrt : F64 → F64) (hs : sqrt 0 = 0) (s : DDM F64) (h : Clean s) :
    Clean (s.update sqrt true).2 ∧ (s.update sqrt true).1.warningDetected = false ∧ (s.update sqrt true).1.driftDetected = false := by
  obtain ⟨h1, h2, h3, h4⟩ := h
  unfold DDM.update
  simp only [if_true]
  split
  · exact ⟨⟨h1, h2, h3, h4⟩, rfl, rfl⟩
  · have hr : ((s.numErrors : Nat) : F64) / ((s.numInstances + 1 : Nat) : F64) = 0 := by
      rw [h1]
      exact zero_over_nat (Nat.le_add_left 1 _)
    have hone : (0 : F64) * (1 - 0) = 0 := by decide +kernel
    have hz : (0 : F64) + 0 = 0 := by decide +kernel
    have hm : newMin (0 : F64) 0 s.min = (0, 0) := by
      rcases h2 with e | e <;> rw [e]
      · rfl
      · unfold newMin
        dsimp only
        rw [ite_self]
    have hlt : ¬ (0 : F64) < 0 := by decide +kernel
    rw [hr, hone, zero_over_nat (Nat.le_add_left 1 _), hs, hm]
    dsimp only
    rw [mul_zero_fin h3, mul_zero_fin h4, hz, decide_eq_false hlt]
    exact ⟨⟨h1, .inr rfl, h3, h4⟩, rfl, rfl⟩

/-! ## Theorems -/

/-- **C345** (float64, with overflow): a detector fed with finite predictions equal to their targets never warns and never signals drift, after any number of them, for all finite levels and
any minimum number of instances. -/
theorem exact_predictions_no_drift (sqrt : F64 → F64) (hs : sqrt 0 = 0) (eps : F64) (he : 0 < eps) (mn : Int) (wl ol : F64) (hw : wl.IsFin) (ho : ol.IsFin) (l : List (F64 × F64))
    (hl : ∀ x ∈ l, x.1 = x.2 ∧ x.1.IsFin) : ∀ r ∈ judged sqrt eps l (DDM.new mn wl ol), r.warningDetected = false ∧ r.driftDetected = false := by
  have key : ∀ (l : List (F64 × F64)) (s : DDM F64), Clean s → (∀ x ∈ l, x.1 = x.2 ∧ x.1.IsFin) → ∀ r ∈ judged sqrt eps l s, r.warningDetected = false ∧ r.driftDetected = false := by
    intro l
    induction l with
    | nil => intro s _ _ r hr; cases hr
    | cons x l ih =>
      intro s hc hl r hr
      have hu : s.updateWithPrediction sqrt F64.abs eps x.1 x.2 = s.update sqrt true := by
        unfold DDM.updateWithPrediction
        obtain ⟨e, hf⟩ := hl x (List.mem_cons_self ..)
        have ha : F64.abs (0 : F64) = 0 := by decide +kernel
        rw [← e, sub_self_fin hf, ha, decide_eq_true he]
      obtain ⟨c1, c2, c3⟩ := clean_update sqrt hs s hc
      unfold judged at hr
      rw [hu] at hr
      rcases List.mem_cons.1 hr with rfl | hr
      · exact ⟨c2, c3⟩
      · exact ih _ c1 (fun y hy => hl y (List.mem_cons_of_mem _ hy)) r hr
  exact key l _ ⟨rfl, .inl rfl, hw, ho⟩ hl

/-- **C345**: a missing prediction, target or error is counted as a mistake. -/
theorem missing_counts_mistake (sqrt : F64 → F64) (eps tenth x : F64) (s : DDM F64) : s.updateWithPrediction sqrt F64.abs eps nan x = s.update sqrt false ∧
    s.updateWithPrediction sqrt F64.abs eps x nan = s.update sqrt false ∧ s.updateWithError sqrt tenth nan = s.update sqrt false := by
  unfold DDM.updateWithPrediction DDM.updateWithError
  rw [nan_sub, sub_nan]
  have h : F64.abs nan = nan := rfl
  rw [h, decide_eq_false (not_nan_lt eps), decide_eq_false (not_nan_lt tenth)]
  exact ⟨rfl, rfl, rfl⟩

/-- **C345, what does not hold for infinite values.** An infinite prediction equal to its target is counted as a mistake, as the difference is NaN. -/
theorem exact_infinite_counts_mistake (sqrt : F64 → F64) (eps : F64) (neg : Bool) (s : DDM F64) :
    s.updateWithPrediction sqrt F64.abs eps (F64.inf neg) (F64.inf neg) = s.update sqrt false := by
  unfold DDM.updateWithPrediction
  have h : F64.abs (F64.inf neg - F64.inf neg) = nan := by cases neg <;> rfl
  rw [h, decide_eq_false (not_nan_lt eps)]

/-- two exact predictions, then an exact infinite one: drift -/
example : (judged id (F64.round (1 / 10 ^ 10)) [(1, 1), (0, 0), (F64.inf false, F64.inf false)] (DDM.new 1 (F64.round 2) (F64.round 3))).map (·.driftDetected) = [false, false, true] := by
  decide +kernel

example : ∀ r ∈ judged id (F64.round (1 / 10 ^ 10)) (List.replicate 1000 (1, 1)) (DDM.new 30 (F64.round 2) (F64.round 3)), r.warningDetected = false ∧ r.driftDetected = false :=
  exact_predictions_no_drift id rfl _ (by decide +kernel) 30 _ _ (by decide +kernel) (by decide +kernel) _ fun x hx => by
    obtain rfl := List.eq_of_mem_replicate hx
    exact ⟨rfl, by decide +kernel⟩

end Scigo.NonFinite
