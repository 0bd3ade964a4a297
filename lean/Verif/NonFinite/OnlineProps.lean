import Verif.NonFinite.MetricsProps
import Verif.Online.Model

/-!
# C303, C304: a sample with a missing value and the online regressors
-/

namespace Scigo.NonFinite

open Scigo.Online Scigo.Errors F64

theorem getD_lt (l : List F64) (j : Nat) (h : j < l.length) : l.getD j 0 = l[j] := by
  rw [List.getD_eq_getElem?_getD, List.getElem?_eq_getElem h, Option.getD_some]

theorem foldl_step_nan {β : Type _} (f : β → F64) (l : List β) (a : F64) (h : a = nan ∨ ∃ i ∈ l, f i = nan) : l.foldl (fun s i => s + f i) a = nan := by
  induction l generalizing a with
  | nil => exact h.resolve_right (by simp)
  | cons q l ih =>
    rw [List.foldl_cons]
    apply ih
    rcases h with h | ⟨p, hp, e⟩
    · exact Or.inl (by rw [h, nan_add])
    · rcases List.mem_cons.1 hp with rfl | hp
      · exact Or.inl (by rw [e, add_nan])
      · exact Or.inr ⟨p, hp, e⟩

theorem score_nan (w : List F64) (b : F64) (x : List F64) (h : b = nan ∨ ∃ j, j < x.length ∧ (w.getD j 0 = nan ∨ x.getD j 0 = nan)) : score w b x = nan := by
  unfold score
  apply foldl_step_nan
  rcases h with h | ⟨j, hj, h | h⟩
  · exact Or.inl h
  · exact Or.inr ⟨j, List.mem_range.2 hj, by rw [h, nan_mul]⟩
  · exact Or.inr ⟨j, List.mem_range.2 hj, by rw [h, mul_nan]⟩

/-- the parameters of a regressor contain NaN (the fields at sklearn/linear_model/sgd_regressor.go:41-46) -/
def Dead (m : Reg F64) : Prop :=
  ∃ w, m.coef = some w ∧ w.length = m.nFeatures ∧ (m.intercept = nan ∨ ∃ j, j < w.length ∧ w.getD j 0 = nan)

section
variable (N : Num F64) (hN : N.unstable nan = true)
include hN

theorem dead_update (m : Reg F64) (h : Dead m) (x : List F64) (hx : x.length = m.nFeatures) (y : F64) :
    m.updateWeights N x y = some ({ m with eta0 := m.eta0 * N.tenth }, 0) := by
  obtain ⟨w, hw, hl, hd⟩ := h
  unfold Reg.updateWeights
  rw [hw, Option.getD_some]
  dsimp only
  rw [if_neg (by omega), score_nan w m.intercept x, if_pos hN]
  rcases hd with hd | ⟨j, hj, hd⟩
  · exact Or.inl hd
  · exact Or.inr ⟨j, by omega, Or.inl hd⟩

theorem dead_train (X y : Mat F64) (is : List Nat) (m : Reg F64) (h : Dead m) (hc : X.c = m.nFeatures) (acc : F64) :
    Dead (m.trainRows N X y is acc).1 ∧ (m.trainRows N X y is acc).1.nFeatures = m.nFeatures := by
  induction is generalizing m acc with
  | nil => exact ⟨h, rfl⟩
  | cons i is ih =>
    unfold Reg.trainRows
    split
    · exact ⟨h, rfl⟩
    · rw [dead_update N hN m h (X.row i) (by rw [← hc]; simp [Mat.row]) _]
      exact ih { m with eta0 := m.eta0 * N.tenth } h hc _

theorem dead_partialFit (init : Nat → List F64) (m : Reg F64) (h : Dead m) (X y : Mat F64) : Dead (m.partialFit N init X y).1 := by
  have hb : m.begin init X.c = m := by
    obtain ⟨w, hw, -⟩ := h
    unfold Reg.begin
    rw [hw]
  unfold Reg.partialFit
  rw [hb]
  dsimp only
  split
  · exact h
  · rename_i hc
    have := (dead_train N hN X y (List.range X.r) m h (not_not.1 hc) 0).1
    revert this
    generalize m.trainRows N X y (List.range X.r) 0 = r
    obtain ⟨m', l, b⟩ := r
    cases b <;> exact fun h => h

end

theorem dead_predict (m : Reg F64) (h : Dead m) (P Z : Mat F64) (hp : m.predict P = .ok Z) (i : Nat) : Z.at' i 0 = nan := by
  obtain ⟨w, hw, hl, hd⟩ := h
  unfold Reg.predict checked at hp
  split at hp
  · cases hp
  · split at hp
    · cases hp
    · rename_i hc
      split at hp
      · cases hp
      · split at hp
        · cases hp
        · rw [← Outcome.ok.inj hp, hw]
          show predRow w m.intercept P i = nan
          unfold predRow
          apply foldl_step_nan
          rcases hd with hd | ⟨j, hj, hd⟩
          · exact Or.inl hd
          · refine Or.inr ⟨j, List.mem_range.2 ?_, by rw [hd, mul_nan]⟩
            have := not_not.1 hc
            omega

theorem move_nan (N : Num F64) (lr w g : F64) (h : g = nan) : moveWeight N lr w g = nan := by
  unfold moveWeight
  rw [h, mul_nan, sub_nan]
  dsimp only
  split
  · exact nan_add _
  · rfl

theorem penalty_nan (o : Opts F64) (w : F64) : addPenalty o w nan = nan := by
  unfold addPenalty
  split
  · exact nan_add _
  · split
    · exact nan_add _
    · split
      · exact nan_add _
      · rfl

/-- the training step for a missing target spoils the weights -/
theorem missing_target_update (N : Num F64) (m : Reg F64) (w : List F64) (hw : m.coef = some w) (hl : w.length = m.nFeatures)
    (hloss : m.opts.loss ≠ "huber" ∧ m.opts.loss ≠ "epsilon_insensitive") (hf : m.opts.fitIntercept = true ∨ 0 < m.nFeatures) (x : List F64) (hx : x.length = m.nFeatures)
    (hs : N.unstable (score w m.intercept x) = false) :
    ∃ m' l, m.updateWeights N x nan = some (m', l) ∧ Dead m' ∧ m'.nFeatures = m.nFeatures := by
  unfold Reg.updateWeights
  rw [hw, Option.getD_some]
  dsimp only
  rw [if_neg (by omega), if_neg (by rw [hs]; decide)]
  refine ⟨_, _, rfl, ⟨_, rfl, by simp [hl], ?_⟩, rfl⟩
  have hd : (regLoss N m.opts.loss m.opts.epsilon (score w m.intercept x) nan).2 = nan := by
    unfold regLoss
    rw [if_neg hloss.1, if_neg hloss.2]
    split <;> exact sub_nan _
  rw [hd]
  by_cases hi : m.opts.fitIntercept = true
  · left
    show (if m.opts.fitIntercept = true then _ else _) = nan
    rw [if_pos hi, mul_nan, sub_nan]
  · right
    have h0 := hf.resolve_left hi
    refine ⟨0, by simp; omega, ?_⟩
    have hg : ∀ g ∈ gradVec m.opts w x nan, g = nan := by
      intro g hg
      obtain ⟨i, -, rfl⟩ := List.mem_map.1 hg
      rw [nan_mul, penalty_nan]
    have hg2 : ∀ g ∈ clipGradient N.sqrt (gradVec m.opts w x nan) N.ten, g = nan := by
      unfold clipGradient
      dsimp only
      split
      · intro g h
        obtain ⟨i, h', rfl⟩ := List.mem_map.1 h
        rw [hg i h', nan_mul]
      · exact hg
    have hlen : (clipGradient N.sqrt (gradVec m.opts w x nan) N.ten).length = x.length := by
      unfold clipGradient gradVec
      dsimp only
      split <;> simp
    have h1 : (clipGradient N.sqrt (gradVec m.opts w x nan) N.ten).getD 0 0 = nan := by
      apply hg2
      rw [getD_lt _ _ (by omega)]
      exact List.getElem_mem _
    rw [getD_lt _ _ (by simp; omega), List.getElem_map, List.getElem_range, if_pos (by omega)]
    exact move_nan N _ _ _ h1

/-- **C303**, negation: with the default loss one sample with a target NaN spoils an `SGDRegressor` for ever: after the batch it starts and any further batches, whatever
their data, every prediction is NaN. The weights are tested and restored (`rolled back`) by adding the step again, which is NaN, and the intercept is not tested. -/
theorem missing_target_spoils (N : Num F64) (hN : N.unstable nan = true) (init : Nat → List F64) (m : Reg F64) (w : List F64) (hw : m.coef = some w)
    (hl : w.length = m.nFeatures) (hloss : m.opts.loss ≠ "huber" ∧ m.opts.loss ≠ "epsilon_insensitive") (hf : m.opts.fitIntercept = true ∨ 0 < m.nFeatures)
    (X y : Mat F64) (hr : 0 < X.r) (hc : X.c = m.nFeatures) (hy : 0 < y.r ∧ 0 < y.c) (hy0 : y.at' 0 0 = nan)
    (hs : N.unstable (score w m.intercept (X.row 0)) = false) (later : List (Mat F64 × Mat F64)) (P Z : Mat F64)
    (hp : (later.foldl (fun m b => (m.partialFit N init b.1 b.2).1) (m.partialFit N init X y).1).predict P = .ok Z) (i : Nat) : Z.at' i 0 = nan := by
  have h1 : Dead (m.partialFit N init X y).1 := by
    have hb : m.begin init X.c = m := by
      unfold Reg.begin
      rw [hw]
    unfold Reg.partialFit
    rw [hb]
    dsimp only
    rw [if_neg (not_not.2 hc)]
    obtain ⟨m', l, e, hd, hn⟩ := missing_target_update N m w hw hl hloss hf (X.row 0) (by rw [← hc]; simp [Mat.row]) hs
    have ht : Dead (m.trainRows N X y (List.range X.r) 0).1 := by
      obtain ⟨n, hn'⟩ : ∃ n, X.r = n + 1 := ⟨X.r - 1, by omega⟩
      rw [hn', List.range_succ_eq_map]
      unfold Reg.trainRows
      have hlab : labelAt y 0 = some nan := by
        unfold labelAt
        rw [if_pos hy, hy0]
      rw [hlab]
      dsimp only
      rw [e]
      exact (dead_train N hN X y _ m' hd (by rw [hn, hc]) _).1
    revert ht
    generalize m.trainRows N X y (List.range X.r) 0 = r
    obtain ⟨m', l, b⟩ := r
    cases b <;> exact fun h => h
  have h2 : ∀ (bs : List (Mat F64 × Mat F64)) (m : Reg F64), Dead m → Dead (bs.foldl (fun m b => (m.partialFit N init b.1 b.2).1) m) := by
    intro bs
    induction bs with
    | nil => exact fun m h => h
    | cons b bs ih => exact fun m h => ih _ (dead_partialFit N hN init m h b.1 b.2)
  exact dead_predict _ (h2 later _ h1) P Z hp i

/-- **C303** (partial): a sample with a feature NaN changes neither weights nor intercept of an `SGDRegressor`, but the learning rate `eta0` is multiplied by 0.1 for good.
Missing: a target NaN (`missing_target_spoils`). -/
theorem missing_feature_partial (N : Num F64) (hN : N.unstable nan = true) (m : Reg F64) (w : List F64) (hw : m.coef = some w) (x : List F64) (hx : x.length ≤ w.length)
    (hnan : nan ∈ x) (y : F64) : m.updateWeights N x y = some ({ m with eta0 := m.eta0 * N.tenth }, 0) := by
  obtain ⟨j, hj, e⟩ := List.mem_iff_getElem.1 hnan
  unfold Reg.updateWeights
  rw [hw, Option.getD_some]
  dsimp only
  rw [if_neg (by omega), score_nan w m.intercept x (Or.inr ⟨j, hj, Or.inr (by rw [getD_lt _ _ hj, e])⟩), if_pos hN]

/-- **C304**: a sample with a feature or the target NaN changes neither weights nor intercept of a `PassiveAggressiveRegressor`. -/
theorem passive_ignores_missing (N : Num F64) (habs : N.abs nan = nan) (m : PA F64) (w : List F64) (hw : m.coef = some w) (x : List F64) (hx : x.length ≤ w.length) (y : F64)
    (h : nan ∈ x ∨ y = nan) : m.updateWeights N x y = some { m with t := m.t + 1 } := by
  unfold PA.updateWeights
  rw [hw, Option.getD_some]
  dsimp only
  rw [if_neg (by omega)]
  have hd : y - score w m.intercept x = nan := by
    rcases h with h | h
    · obtain ⟨j, hj, e⟩ := List.mem_iff_getElem.1 h
      rw [score_nan w m.intercept x (Or.inr ⟨j, hj, Or.inr (by rw [getD_lt _ _ hj, e])⟩), sub_nan]
    · rw [h, nan_sub]
  have ht : paTau N m.loss m.C m.epsilon x (score w m.intercept x) y = 0 := by
    unfold paTau
    rw [hd, habs]
    split
    · rw [if_neg (not_lt_nan _)]
    · dsimp only
      rw [nan_sub, if_neg (not_lt_nan _), if_neg (by decide +kernel)]
  rw [ht, if_pos (by decide +kernel)]

/-- numbers for the examples (`math` functions at sklearn/linear_model/sgd_regressor.go:283-404; `sqrt`, `pow`, `exp`, `log` are placeholders) -/
def num64 : Num F64 :=
  ⟨id, F64.abs, fun a _ => a, id, id, fun x => match x with
    | .fin _ => false
    | _ => true, Nat.cast, F64.round (1 / 2), F64.round (1 / 10), F64.round 10, F64.round 2, F64.round 4⟩

/-- a regressor with one weight (sklearn/linear_model/sgd_regressor.go:19-57) -/
def reg64 : Reg F64 :=
  ⟨⟨"squared_error", "l2", "constant", 0, 0, 0, 0, 0, true, false, false, 1⟩, F64.round (1 / 100), some [1], 0, 1, 0, 0, [], false, true⟩

/-- the hypotheses of `missing_target_spoils` can be met; the prediction for 2 was 2, and is NaN after the batch with target NaN and another batch -/
example : (reg64.predict ⟨1, 1, fun _ _ => F64.round 2⟩).map (fun Z => Z.at' 0 0) = .ok (F64.round 2) ∧
    num64.unstable (score [1] reg64.intercept [1]) = false ∧
    (([((⟨1, 1, fun _ _ => 1⟩ : Mat F64), (⟨1, 1, fun _ _ => 1⟩ : Mat F64))].foldl (fun m b => (m.partialFit num64 (fun _ => []) b.1 b.2).1)
      (reg64.partialFit num64 (fun _ => []) ⟨1, 1, fun _ _ => 1⟩ ⟨1, 1, fun _ _ => nan⟩).1).predict ⟨1, 1, fun _ _ => F64.round 2⟩).map (fun Z => Z.at' 0 0) = .ok nan := by
  decide +kernel

/-- a missing feature and a missing target leave the weights of a `PassiveAggressiveRegressor` as they are -/
example : (PA.updateWeights num64 ⟨1, "epsilon_insensitive", 0, true, false, 1, some [1, 1], 0, 2, 0, 0, true⟩ [1, nan] 1).map (fun m => (m.coef, m.intercept, m.t)) =
    some (some [1, 1], 0, 1) ∧
    (PA.updateWeights num64 ⟨1, "epsilon_insensitive", 0, true, false, 1, some [1, 1], 0, 2, 0, 0, true⟩ [1, 1] nan).map (fun m => (m.coef, m.intercept, m.t)) =
    some (some [1, 1], 0, 1) ∧
    (PA.updateWeights num64 ⟨1, "epsilon_insensitive", 0, true, false, 1, some [1, 1], 0, 2, 0, 0, true⟩ [1, 1] 1).map (fun m => (m.coef == some [1, 1])) = some false := by
  decide +kernel

end Scigo.NonFinite
