import Verif.Wrapper.RegProps

/-!
# C341: what a regressor is after loading a model
-/

set_option linter.unusedSectionVars false

namespace Scigo.Wrapper

open Scigo.LGB (ENum)

variable {α : Type} [BEq α] [LE α] [DecidableLE α] [LT α] [DecidableLT α] [Zero α] [One α] [Add α] [Sub α] [Neg α] [Mul α] [Div α]

/-- the objectives of regression a model file may name (`sklearn/lightgbm/lgbm_regressor.go:473-491`) -/
def regressionObjectives : List String := ["regression", "regression_l1", "huber", "fair", "poisson", "quantile", "gamma", "tweedie"]

/-- **C341.** Whatever the regressor was before, after loading a model from a file, a string or JSON it answers a matrix with as many columns as the model has features with the prediction of
that model, any other matrix with an error that names the number of features of the model, and it is not `notFitted`. -/
theorem loaded_regressor_predicts (N : ENum α) (m : Reg α) (model : LGB.Model α) (X : Mat α) :
    (m.loadModel (.ok model)).2 = .ok () ∧ (m.loadModelFrom (.ok model)).2 = .ok () ∧
    (∀ m' ∈ [(m.loadModel (.ok model)).1, (m.loadModelFrom (.ok model)).1],
      ((X.c : Int) = model.numFeatures → m'.predict N X = model.pPredict N X) ∧
      ((X.c : Int) ≠ model.numFeatures → m'.predict N X = .err (.dimension model.numFeatures X.c 1))) := by
  refine ⟨rfl, rfl, fun m' hm => ?_⟩
  have h : m'.model = some model ∧ m'.nFeatures = model.numFeatures ∧ m'.fitted = true := by
    simp only [List.mem_cons, List.not_mem_nil, or_false] at hm
    rcases hm with rfl | rfl <;> exact ⟨rfl, rfl, rfl⟩
  obtain ⟨h1, h2, h3⟩ := h
  unfold Reg.predict
  rw [h1, h2, h3]
  constructor
  · intro hx
    rw [if_neg (by decide), if_neg (by simpa using hx)]
  · intro hx
    rw [if_neg (by decide), if_pos hx]

/-- **C341.** The next training after `LoadModel` uses the objective of the loaded model if it is one of regression, squared error otherwise. -/
theorem loaded_objective_trained (c : α) (m : Reg α) (model : LGB.Model α) :
    (model.objective ∈ regressionObjectives → ((m.loadModel (.ok model)).1.request c).objective = model.objective) ∧
    (model.objective ∉ regressionObjectives → ((m.loadModel (.ok model)).1.request c).objective = "regression") := by
  unfold Reg.loadModel Reg.request regressionObjectives
  constructor
  · intro h
    dsimp only
    split
    · rfl
    · next hn =>
      rcases List.mem_cons.1 h with h | h
      · exact h.symm
      · exact absurd h hn
  · intro h
    dsimp only
    rw [if_neg fun hm => h (List.mem_cons_of_mem _ hm)]

/-- **C341, what does not hold.** The loaders from a string and from JSON do not take over the objective: the next training uses the one the regressor had before. -/
theorem string_load_keeps_old_objective (c : α) (m : Reg α) (model : LGB.Model α) :
    ((m.loadModelFrom (.ok model)).1.request c).objective = (m.request c).objective := rfl

/-- a loader that fails leaves the regressor as it was -/
theorem failed_load_keeps_regressor (m : Reg α) (r : Outcome (LGB.Model α)) (h : ∀ model, r ≠ .ok model) : (m.loadModel r).1 = m ∧ (m.loadModelFrom r).1 = m := by
  cases r with
  | ok model => exact absurd rfl (h model)
  | err e => exact ⟨rfl, rfl⟩
  | panic e => exact ⟨rfl, rfl⟩

/-- the same quantile model loaded both ways by a regressor of squared error -/
example : let model : LGB.Model Rat := ⟨"quantile", 1, 1, 1, [⟨[LGB.lf 2], [], 1, 1, 0⟩], 1, 0, 0, false⟩
    (((exReg "" "regression").loadModel (.ok model)).1.request 0).objective = "quantile" ∧ (((exReg "" "regression").loadModelFrom (.ok model)).1.request 0).objective = "regression" := by
  decide +kernel

/-- a model for another task -/
example : (((exReg "" "huber").loadModel (.ok ⟨"binary", 1, 1, 1, [⟨[LGB.lf 2], [], 1, 1, 0⟩], 1, 0, 0, false⟩)).1.request 0).objective = "regression" :=
  (loaded_objective_trained 0 _ _).2 (by decide +kernel)

end Scigo.Wrapper
