import Verif.NonFinite.StandardProps
import Verif.Linear.Model

/-!
# C346: missing values in the data of a linear regression
-/

set_option linter.unusedSectionVars false

namespace Scigo.NonFinite

open F64 Scigo.Linear

/-! ## Lemmas -/

theorem predRow_nan (w : List F64) (b : F64) (X : Mat F64) (i j : Nat) (hj : j < X.c) (h : X.at' i j = nan) : predRow w b X i = nan := by
  unfold predRow
  exact foldl_add_nan (fun j => X.at' i j * w.getD j 0) (List.range X.c) b ⟨j, List.mem_range.2 hj, by rw [h, nan_mul]⟩

theorem linear_predict_ok {m : LinReg F64} {X P : Mat F64} (h : m.predict X = .ok P) : P.r = X.r ∧ P.c = 1 ∧ ∀ i k, P.at' i k = predRow (m.weights.getD []) m.intercept X i := by
  unfold LinReg.predict LinReg.predictBody at h
  split at h
  · cases h
  · split at h
    · cases h
    · split at h
      · cases h
      · split at h
        · cases h
        · obtain rfl := Outcome.ok.inj h
          exact ⟨rfl, rfl, fun _ _ => rfl⟩

/-! ## Theorems -/

/-- **C346** (float64): a missing value in a row makes the prediction of that row missing, whatever the weights are, even if the weight of the column is 0. -/
theorem missing_row_predicted_missing (m : LinReg F64) (X P : Mat F64) (h : m.predict X = .ok P) (i j : Nat) (hj : j < X.c) (hx : X.at' i j = nan) : P.at' i 0 = nan := by
  rw [(linear_predict_ok h).2.2]
  exact predRow_nan _ _ X i j hj hx

/-- **C346** (float64): the other rows are not touched: two matrices of the same shape that agree in a row get the same prediction there. -/
theorem other_rows_untouched (m : LinReg F64) (X X' P P' : Mat F64) (h : m.predict X = .ok P) (h' : m.predict X' = .ok P') (hc : X'.c = X.c) (i : Nat)
    (hi : ∀ j < X.c, X'.at' i j = X.at' i j) : P'.at' i 0 = P.at' i 0 := by
  rw [(linear_predict_ok h).2.2, (linear_predict_ok h').2.2]
  unfold predRow
  rw [hc]
  refine List.foldl_ext _ _ _ fun s j hj => ?_
  rw [hi j (List.mem_range.1 hj)]

/-- **C346** (float64): a score of data with a missing value, in the features or in the targets, is never a number: `Score` returns NaN or an error. -/
theorem missing_score (m : LinReg F64) (X y : Mat F64) (v : F64) (h : m.score X y = .ok v)
    (hm : ∃ i < y.r, y.at' i 0 = nan ∨ ∃ j < X.c, X.at' i j = nan) : v = nan := by
  obtain ⟨i, hi, hm⟩ := hm
  unfold LinReg.score at h
  split at h
  · cases h
  · cases hp : m.predict X with
    | err e => rw [hp] at h; cases h
    | panic e => rw [hp] at h; cases h
    | ok P =>
      rw [hp] at h
      change (LinReg.r2Body (.other "total sum of squares is zero") P y).recovered "LinearRegression.Score" = .ok v at h
      unfold LinReg.r2Body at h
      split at h
      · cases h
      · dsimp only at h
        split at h
        · cases h
        · obtain rfl := Outcome.ok.inj h
          have hr : sumTo y.r (fun i => (y.at' i 0 - P.at' i 0) * (y.at' i 0 - P.at' i 0)) = nan := by
            refine sumTo_nan _ _ i hi ?_
            rcases hm with e | ⟨j, hj, e⟩
            · rw [e, nan_sub, nan_mul]
            · rw [missing_row_predicted_missing m X P hp i j hj e, sub_nan, nan_mul]
          rw [hr, nan_div, sub_nan]

/-- a model with the weights 0 and 1: the missing value is in the column with weight 0 -/
def exLinear : LinReg F64 := ⟨some [0, 1], 0, 2, true, 3⟩

example : ∃ P, exLinear.predict ⟨2, 2, fun i j => if i = 0 ∧ j = 0 then nan else 1⟩ = .ok P ∧ P.at' 0 0 = nan ∧ P.at' 1 0 = 1 :=
  ⟨_, rfl, by decide +kernel, by decide +kernel⟩

/-- missing targets: the score is NaN, not an error -/
example : (match exLinear.score ⟨2, 2, fun i _ => (i : F64)⟩ ⟨2, 1, fun i _ => if i = 0 then nan else 1⟩ with | .ok v => some v | _ => none) = some nan := by decide +kernel

end Scigo.NonFinite
