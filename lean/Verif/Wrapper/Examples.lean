import Verif.Wrapper.RegProps
import Mathlib.Data.List.Dedup
import Mathlib.Tactic.IntervalCases

/-!
# Concrete cases for the theorems about the wrappers

One trained classifier over ℝ (two rows, one column, labels 1 and 2) and one with labels 0, 1, 2; their existence is `classifier_fit_succeeds`.
-/

namespace Scigo.Wrapper

open Scigo.LGB (ENum RealENum Stores DTree)

/-- exact real arithmetic for the trainer -/
noncomputable def exRealEnv : Env ℝ where
  num := ⟨Real.sqrt, fun v => |v|, fun a b => Real.exp (b * Real.log a), Real.exp, Real.log, fun _ => false, fun n => n, 1 / 2, 1 / 10, 10, 2, 4⟩
  lits := ⟨1 / 10 ^ 7, 1 / 10 ^ 16, 1 / 10 ^ 15, 700⟩
  floor := fun v => ⌊v⌋.toNat
  ceil := fun v => ⌈v⌉.toNat
  fifth := 1 / 5
  threeHalves := 3 / 2
  lib := ⟨⟨1 / 10 ^ 10, 1 / 1000, 1 / 2⟩, 1 / 10 ^ 10, fun _ => false, id, id, id, id, id, fun v => ⌊v⌋, fun n => n, fun n r => ⌊n * r⌋⟩
  byGrad := fun _ l => l
  rand := fun _ _ _ _ => 0
  fuel := 5

theorem exRealEnv_real : RealEnv exRealEnv :=
  ⟨fun _ => rfl, fun _ => rfl, fun _ => rfl, rfl, by norm_num [exRealEnv], by norm_num [exRealEnv], by norm_num [exRealEnv]⟩

/-- exact real arithmetic for the predictor -/
noncomputable def exRealNum : ENum ℝ := ⟨⟨fun _ => false, fun v => ⌊v⌋, 1 / 10 ^ 15⟩, Real.exp, fun n => n, 10 ^ 308, 700, 500, 0⟩

theorem exRealNum_real : RealENum exRealNum := ⟨fun _ => rfl, rfl, rfl, rfl, fun _ => rfl, fun _ => rfl⟩

/-- the options of a classifier with three trees of depth at most two -/
noncomputable def exRealOpts : Opts ℝ := ⟨31, 2, 1 / 10, 3, 1, 1, 0, 1, 0, 0, 1, true, 0, []⟩

/-- a new classifier -/
noncomputable def exClf : Clf ℝ := ⟨exRealOpts, "binary", 0, [], 0, none, false⟩

/-- one column -/
def exRealCol (l : List ℝ) : Mat ℝ := ⟨l.length, 1, fun i _ => l.getD i 0⟩

theorem exKeys : MapKeys (List.dedup : List Int → List Int) := fun l => ⟨List.nodup_dedup l, fun x => List.mem_dedup⟩

/-- a classifier trained on the labels `ys` -/
theorem exFit (ys : List ℝ) (i j : Nat) (hi : i < ys.length) (hj : j < ys.length) (h : ⌊ys.getD i 0⌋ ≠ ⌊ys.getD j 0⌋) :
    ∃ m', exClf.fit (1 / 10 ^ 7) (fun v => ⌊v⌋) List.dedup (train exRealEnv) (exRealCol ys) (exRealCol ys) = (m', .ok ()) :=
  classifier_fit_succeeds exRealEnv (fun l => List.Perm.refl l) (1 / 10 ^ 7) (fun v => ⌊v⌋) exKeys exClf (exRealCol ys) (exRealCol ys) rfl rfl i j hi hj h
    (by decide) (by decide)

theorem ex12 : ∃ m', exClf.fit (1 / 10 ^ 7) (fun v => ⌊v⌋) List.dedup (train exRealEnv) (exRealCol [1, 2]) (exRealCol [1, 2]) = (m', .ok ()) :=
  exFit [1, 2] 0 1 (by simp) (by simp) (by simp)

theorem ex01 : ∃ m', exClf.fit (1 / 10 ^ 7) (fun v => ⌊v⌋) List.dedup (train exRealEnv) (exRealCol [0, 1]) (exRealCol [0, 1]) = (m', .ok ()) :=
  exFit [0, 1] 0 1 (by simp) (by simp) (by simp)

/-- the classes of the classifier trained on 1 and 2 -/
theorem ex12_classes {m' : Clf ℝ} (h : exClf.fit (1 / 10 ^ 7) (fun v => ⌊v⌋) List.dedup (train exRealEnv) (exRealCol [1, 2]) (exRealCol [1, 2]) = (m', .ok ())) :
    m'.classes = [1, 2] := by
  have hk := trained_knows _ _ exKeys _ _ _ _ _ (.fit h)
  have hmem : ∀ c, c ∈ m'.classes ↔ c = 1 ∨ c = 2 := by
    intro c
    rw [hk.seen c]
    constructor
    · rintro ⟨i, hi, rfl⟩
      have hi : i < 2 := hi
      interval_cases i
      · exact Or.inl (by simp [exRealCol])
      · exact Or.inr (by simp [exRealCol])
    · rintro (rfl | rfl)
      · exact ⟨0, by simp [exRealCol], by simp [exRealCol]⟩
      · exact ⟨1, by simp [exRealCol], by simp [exRealCol]⟩
  have h1 : m'.classes.Perm [1, 2] := by
    rw [List.perm_ext_iff_of_nodup (hk.sorted.imp (fun h => ne_of_lt h)) (by decide)]
    intro c
    rw [hmem c]
    simp
  exact h1.eq_of_pairwise (fun a b _ _ h1 h2 => le_antisymm h1 h2) (hk.sorted.imp fun h => le_of_lt h) (by decide)

/-- `trained_knows`, `trained_classifier_predicts`, `predicted_labels_were_seen`, `trained_probabilities`, `reloaded_labels_are_positions` and
`labels_from_one_never_separate` for the labels 1 and 2: every prediction is 2; after loading the model elsewhere it is 1. -/
example : ∃ m' ls, exClf.fit (1 / 10 ^ 7) (fun v => ⌊v⌋) List.dedup (train exRealEnv) (exRealCol [1, 2]) (exRealCol [1, 2]) = (m', .ok ()) ∧
    m'.predict exRealNum (1 / 2) (exRealCol [5, 7, -3]) = .ok ls ∧ ls.length = 3 ∧ (∀ l ∈ ls, l = 2) ∧
    (∃ P, m'.predictProba exRealNum (exRealCol [5, 7, -3]) = .ok P ∧ P.c = 2) ∧
    ∃ model ls', m'.model = some model ∧ (exClf.loadModel (.ok model)).1.predict exRealNum (1 / 2) (exRealCol [5, 7, -3]) = .ok ls' ∧ ∀ (i : Nat), i < 3 → ls'[i]? = some 1 := by
  obtain ⟨m', h⟩ := ex12
  have hc := ex12_classes h
  have he : m'.classes.length * exRealNum.epsilon ≤ 1 := by rw [hc]; norm_num [exRealNum]
  obtain ⟨P, ls, hP, -, hPc, hls⟩ := trained_classifier_predicts exRealEnv (fun l => List.Perm.refl l) (1 / 10 ^ 7) (1 / 2) (fun v => ⌊v⌋) exKeys exClf m'
    (exRealCol [1, 2]) (exRealCol [1, 2]) (.fit h) exRealNum (exRealCol [5, 7, -3]) rfl (by decide)
  obtain ⟨-, hall⟩ := labels_from_one_never_separate exRealEnv exRealEnv_real exRealNum_real (by norm_num [exRealNum]) (1 / 10 ^ 7) (fun v => ⌊v⌋) exKeys exClf m'
    (exRealCol [1, 2]) (exRealCol [1, 2]) h 1 2 hc (by norm_num [exClf, exRealOpts]) (by norm_num [exClf, exRealOpts]) (by
      intro i hi
      have hi : i < 2 := hi
      interval_cases i <;> norm_num [exRealCol]) (exRealCol [5, 7, -3]) ls hls
  have hlen := (predicted_labels_were_seen exRealEnv exRealNum_real (by norm_num [exRealNum]) (1 / 10 ^ 7) (1 / 2) (fun v => ⌊v⌋) exKeys exClf m'
    (exRealCol [1, 2]) (exRealCol [1, 2]) (.fit h) he (exRealCol [5, 7, -3]) ls hls).1
  obtain ⟨r, model, -, -, hm⟩ := (trained_knows _ _ exKeys _ _ _ _ _ (.fit h)).model
  obtain ⟨-, -, ls', g1, g2, g3⟩ := reloaded_labels_are_positions exRealEnv exRealNum_real (by norm_num [exRealNum]) (1 / 10 ^ 7) (1 / 2) (fun v => ⌊v⌋) exKeys exClf m'
    (exRealCol [1, 2]) (exRealCol [1, 2]) (.fit h) he model hm exClf (exRealCol [5, 7, -3]) ls hls
  refine ⟨m', ls, h, hls, hlen, hall, ⟨P, hP, by rw [hPc, hc]; rfl⟩, model, ls', hm, g1, fun i hi => ?_⟩
  have hi' : i < ls.length := by rw [hlen]; exact hi
  obtain ⟨k, k1, k2⟩ := g3 i ls[i] (List.getElem?_eq_getElem hi')
  rw [hall _ (List.getElem_mem hi'), hc] at k2
  have : k = 1 := by
    match k, k2 with
    | 0, k2 => simp at k2
    | 1, _ => rfl
    | k + 2, k2 => simp at k2
  rw [k1, this]
  rfl

/-- `zero_one_labels_partial` applies: three trees -/
example : ∃ m' model, exClf.fit (1 / 10 ^ 7) (fun v => ⌊v⌋) List.dedup (train exRealEnv) (exRealCol [0, 1]) (exRealCol [0, 1]) = (m', .ok ()) ∧
    m'.classes = [0, 1] ∧ m'.model = some model := by
  obtain ⟨m', h⟩ := ex01
  obtain ⟨h1, model, h2, -⟩ := zero_one_labels_partial exRealEnv (1 / 10 ^ 7) (fun v => ⌊v⌋) (by simp) (by simp) exKeys exClf m' (exRealCol [0, 1]) (exRealCol [0, 1]) h (by
    intro i hi
    have hi : i < 2 := hi
    interval_cases i <;> simp [exRealCol])
  exact ⟨m', model, h, h1, h2⟩

/-- `decision_values_positive` applies, and so does `one_class_refit_changes_predictions` to the classifier trained on 1 and 2 -/
example : ∃ m' m'' e ls, exClf.fit (1 / 10 ^ 7) (fun v => ⌊v⌋) List.dedup (train exRealEnv) (exRealCol [1, 2]) (exRealCol [1, 2]) = (m', .ok ()) ∧
    m'.predict exRealNum (1 / 2) (exRealCol [5]) = .ok ls ∧
    m'.fit (1 / 10 ^ 7) (fun v => ⌊v⌋) List.dedup (train exRealEnv) (exRealCol [9]) (exRealCol [9]) = (m'', .err e) ∧
    ∀ ls', m''.predict exRealNum (1 / 2) (exRealCol [5]) = .ok ls' → ls' ≠ ls := by
  obtain ⟨m', h⟩ := ex12
  have hc := ex12_classes h
  obtain ⟨P, ls, hP, -, hPc, hls⟩ := trained_classifier_predicts exRealEnv (fun l => List.Perm.refl l) (1 / 10 ^ 7) (1 / 2) (fun v => ⌊v⌋) exKeys exClf m'
    (exRealCol [1, 2]) (exRealCol [1, 2]) (.fit h) exRealNum (exRealCol [5]) rfl (by decide)
  obtain ⟨hlen, hmem⟩ := predicts_known_classes exRealNum (1 / 2) m' (exRealCol [5]) ls hls
  obtain ⟨m'', e, h1, -, -, -, h2⟩ := one_class_refit_changes_predictions (1 / 10 ^ 7) (fun v : ℝ => ⌊v⌋) exKeys (train exRealEnv) m' (exRealCol [9]) (exRealCol [9]) 9
    (by decide) rfl rfl (by
      intro i hi
      have hi : i < 1 := hi
      interval_cases i
      simp [exRealCol])
  refine ⟨m', m'', e, ls, h, hls, h1, fun ls' h' hne => ?_⟩
  subst hne
  have hlen : ls'.length = 1 := hlen
  obtain ⟨l, rfl⟩ := List.length_eq_one_iff.1 hlen
  have a := h2 exRealNum (1 / 2) (exRealCol [5]) [l] h' l (by simp)
  have b := hmem l (by simp)
  rw [hc] at b
  simp at b
  omega

/-- a model with two trees of one leaf each and the objective `multiclass_logloss` -/
def exLogloss : LGB.Model Rat := ⟨"multiclass_logloss", 3, 1, 1, [⟨[LGB.lf (-2)], [], 1, 1, 0⟩, ⟨[LGB.lf 3], [], 1, 1, 0⟩], 1, 0, 1 / 2, false⟩

/-- a new classifier over ℚ -/
def exRatClf : Clf Rat := ⟨exOpts 1, "", 0, [], 0, none, false⟩

/-- `decision_values_raw_partial` applies to the loaded model: the decision values are raw scores, one of them negative -/
example : ∃ D, (exRatClf.loadModelFrom (.ok exLogloss)).1.decisionFunction LGB.ratNum (fun v => v.floor) (exCol [7]) = .ok D ∧
    (D.at' 0 0, D.at' 0 1, D.at' 0 2) = (-3 / 2, 7 / 2, 1 / 2) := ⟨_, rfl, by decide +kernel⟩

/-- `LGB.ratNum` with a monotone positive function in place of exp -/
def exNum : ENum Rat := { LGB.ratNum with exp := fun v => if v < 0 then 1 / (1 - v) else 1 + v }

/-- `load_keeps_stale_classes` applies: `LoadModel` predicts 0 where `LoadModelFromString` predicts 1 -/
example : (exRatClf.loadModel (.ok exLogloss)).1.predict exNum (1 / 2) (exCol [7]) = .ok [0] ∧
    (exRatClf.loadModelFrom (.ok exLogloss)).1.predict exNum (1 / 2) (exCol [7]) = .ok [1] := by decide +kernel

/-- `loaders_agree_partial` applies -/
example : (exRatClf.loadModel (.ok { exLogloss with objective := "multiclass" })).1.predict exNum (1 / 2) (exCol [7]) = .ok [1] := by decide +kernel

/-- a regressor with a loaded quantile model that predicts -2 -/
def exQuantile : Reg Rat := ((exReg "" "quantile").loadModel (.ok ⟨"quantile", 1, 1, 1, [⟨[LGB.lf (-2)], [], 1, 1, 0⟩], 1, 0, 0, false⟩)).1

/-- `quantiles_cross` applies: the value for 0.9 is below the one for 0.1 -/
example : (exQuantile.predictQuantile LGB.ratNum (1 / 2) (1 / 10) (exCol [7]) [1 / 10, 9 / 10]).map (fun Rs => Rs.map fun R => R.at' 0 0) = .ok [-48 / 25, -52 / 25] ∧
    (exQuantile.predict LGB.ratNum (exCol [7])).map (fun P => P.at' 0 0) = .ok (-2) := by decide +kernel

/-- `quantiles_ordered_partial` applies for a positive prediction -/
example : (((exReg "" "quantile").loadModel (.ok ⟨"quantile", 1, 1, 1, [⟨[LGB.lf 2], [], 1, 1, 0⟩], 1, 0, 0, false⟩)).1.predictQuantile LGB.ratNum (1 / 2)
    (1 / 10) (exCol [7]) [1 / 2, 9 / 10]).map (fun Rs => Rs.map fun R => R.at' 0 0) = .ok [2, 52 / 25] := by decide +kernel

/-- `residual_identities` applies: residuals 5 and -1, mean squared error 13 -/
example : exQuantile.residuals LGB.ratNum (exCol [7, 8]) (exCol [3, -3]) = .ok [5, -1] ∧ exQuantile.mse LGB.ratNum (exCol [7, 8]) (exCol [3, -3]) = .ok 13 := by
  decide +kernel

/-- `regressor_fit_succeeds`, `trained_regressor_predicts` -/
example : ∃ m' P, (exReg "" "huber").fit (1 / 10000000) (train exEnv) (exCol [1, 2, 3]) (exCol [0, 5, 9]) = (m', .ok ()) ∧
    m'.predict LGB.ratNum (exCol [2, 6]) = .ok P ∧ P.r = 2 ∧ P.c = 1 := by
  obtain ⟨m', h⟩ := regressor_fit_succeeds exEnv Trainer.exLib_ok.byRatio (1 / 10000000) (exReg "" "huber") (exCol [1, 2, 3]) (exCol [0, 5, 9]) rfl rfl
    (by decide) (by decide) (by decide)
  obtain ⟨P, h1, h2, h3⟩ := trained_regressor_predicts exEnv Trainer.exLib_ok.byRatio (1 / 10000000) (exReg "" "huber") m' _ _ (.fit h) LGB.ratNum (exCol [2, 6]) rfl
    (by decide)
  exact ⟨m', P, h, h1, h2, h3⟩

/-- `exEnv` with monotone functions in place of exp and log -/
def exEnv2 : Env Rat := { exEnv with num := { exEnv.num with exp := fun v => if v < 0 then 1 / (1 - v) else 1 + v, log := fun v => v - 1 } }

/-- a classifier over ℚ trained on the labels 0 and 1 -/
def exTrained : Clf Rat × Outcome Unit := exRatClf.fit (1 / 10000000) (fun v => v.floor) List.dedup (train exEnv2) (exCol [1, 2, 3, 4]) (exCol [0, 0, 1, 1])

/-- `failed_fit_keeps_model_partial` applies to a trained classifier and a second training with one row missing, and to one where the weights have
the wrong length -/
example : exTrained.2 = .ok () ∧ exTrained.1.classes = [0, 1] ∧
    (exTrained.1.fit (1 / 10000000) (fun v => v.floor) List.dedup (train exEnv) (exCol [1, 2, 3]) (exCol [0, 0])).2 ≠ .ok () ∧
    (exTrained.1.fitWeighted (1 / 10000000) (fun v => v.floor) List.dedup (train exEnv) (exCol [1, 2, 3]) (exCol [0, 0, 1]) (some [1])).2 ≠ .ok () := by
  decide +kernel

/-- `predict_follows_proba` and `log_proba_of_proba` apply: the trained classifier predicts both labels -/
example : exTrained.1.predict exNum (1 / 2) (exCol [0, 9]) = .ok [0, 1] ∧ (exTrained.1.predictLogProba exNum (fun v => v) (-7) (exCol [0, 9])).map (fun L => (L.r, L.c)) = .ok (2, 2) := by
  decide +kernel

/-- `fitWithInit_own` applies: with these four labels the objective itself would start from this score -/
example : ∀ r : Request Rat, Asks (extractClasses (fun v : Rat => v.floor) List.dedup (exCol [0, 0, 1, 1])) r → ownInit exEnv r (exCol [0, 0, 1, 1]) = some 1 := by
  rintro r (⟨-, h, -⟩ | ⟨h, -⟩)
  · unfold ownInit
    rw [h]
    change some ((Boost.binary exEnv.num exEnv.lits).init _) = _
    decide +kernel
  · exact absurd h (by decide +kernel)

/-- `reg_fitWeighted_trivial_partial` applies to the default boosting type -/
example : (exReg "gbdt" "regression").ropts.boosting.toLower ≠ "goss" := by decide +kernel

/-- `decision_values_positive` applies: the trained classifier has decision values -/
example : (exTrained.1.decisionFunction exNum (fun v => v.floor) (exCol [0, 9])).map (fun D => (D.r, D.c)) = .ok (2, 1) := by decide +kernel

/-- `reg_failed_fit_keeps_model_partial` applies to a regressor trained before -/
example : ((exReg "" "huber").fit (1 / 10000000) (train exEnv) (exCol [1, 2, 3]) (exCol [0, 5, 9])).2 = .ok () ∧
    (((exReg "" "huber").fit (1 / 10000000) (train exEnv) (exCol [1, 2, 3]) (exCol [0, 5, 9])).1.fit (1 / 10000000) (train exEnv) (exCol [1, 2]) (exCol [0, 5, 9])).2 ≠
      .ok () := by decide +kernel

end Scigo.Wrapper
