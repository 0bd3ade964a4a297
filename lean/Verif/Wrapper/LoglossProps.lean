import Verif.Wrapper.RealProps
import Verif.LGB.SimpleLinkProps
import Verif.Wrapper.Examples

/-!
# C258: probabilities of the objective `multiclass_logloss`
-/

set_option linter.unusedSectionVars false

namespace Scigo.Wrapper

open Scigo.LGB (ENum RealENum)

theorem softmaxRow_value (N : ENum ℝ) (hN : RealENum N) (l : List ℝ) :
    softmaxRow N l = l.map fun v => N.toPNum.ensure (Real.exp v / (l.map Real.exp).sum) := by
  have hs : ∀ (c : ℝ) (l : List ℝ), (l.map fun v => Real.exp (v - c)).sum = (l.map Real.exp).sum / Real.exp c := by
    intro c l
    induction l with
    | nil => simp
    | cons a l ih => rw [List.map_cons, List.sum_cons, List.map_cons, List.sum_cons, ih, Real.exp_sub, add_div]
  have hc := Real.exp_pos (LGB.maxOf l)
  have e : (l.map fun v => N.exp (v - LGB.maxOf l)) = l.map fun v => Real.exp (v - LGB.maxOf l) := List.map_congr_left fun v _ => hN.exp _
  unfold softmaxRow
  simp only
  rw [e, LGB.sumOver_real, hs, List.map_map]
  refine List.map_congr_left fun v _ => ?_
  simp only [Function.comp_apply]
  rw [Real.exp_sub, div_div_div_cancel_right₀ hc.ne']

/-- **C258** (exact arithmetic): `PredictProba` of a model with the objective `multiclass_logloss`: row `i` holds, up to `epsilon`, the softmax
`exp sⱼ / Σ exp sₖ` of what `Predict` returns for that row. -/
theorem logloss_proba (N : ENum ℝ) (hN : RealENum N) (h0 : 0 ≤ N.epsilon) (m : LGB.Model ℝ) (ho : m.objective = "multiclass_logloss") (X S : Mat ℝ)
    (hS : m.pPredict N X = .ok S) :
    ∃ P, predictorProba N m X = .ok P ∧ P.r = S.r ∧ P.c = S.c ∧
      ∀ i < S.r, ∀ j < S.c, |P.at' i j - Real.exp (S.at' i j) / ((S.row i).map Real.exp).sum| ≤ N.epsilon := by
  refine ⟨⟨S.r, S.c, fun i j => (softmaxRow N (S.row i)).getD j 0⟩, ?_, rfl, rfl, fun i _ j hj => ?_⟩
  · rw [predictorProba, hS, Outcome.bind_ok, ho]
    simp
  · show |(softmaxRow N (S.row i)).getD j 0 - _| ≤ _
    rw [softmaxRow_value N hN, List.getD_eq_getElem?_getD, List.getElem?_map, row_get S i j hj]
    exact LGB.ensure_near N.toPNum hN.isInf h0 _

/-- a model without trees and three classes: every class has the same score -/
def exUniform : LGB.Model ℝ := ⟨"multiclass_logloss", 3, 1, 1, [], 1, 0, 0, false⟩

example : exUniform.objective = "multiclass_logloss" ∧ ∃ S, exUniform.pPredict exRealNum ⟨1, 1, fun _ _ => 4⟩ = .ok S ∧ S.r = 1 ∧ S.c = 3 := by
  exact ⟨rfl, _, rfl, rfl, rfl⟩

end Scigo.Wrapper
