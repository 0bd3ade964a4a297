import Verif.Wrapper.TrainProps

/-!
# C343: which options of the estimators reach training, and which have no effect
-/

set_option linter.unusedSectionVars false

namespace Scigo.Wrapper

variable {α : Type} [DecidableEq α] [LT α] [DecidableLT α] [LE α] [DecidableLE α] [Zero α] [One α] [Add α] [Sub α] [Neg α] [Mul α] [Div α]

/-! ## Specification -/

/-- the training loop works with the options `o`; an option that is 0 stands for the default 100, 0.1, 31, 20 and 1 (cf. `sklearn/lightgbm/trainer.go:189-209`) -/
structure Uses (E : Env α) (o : Opts α) (cfg : Trainer.Config α) : Prop where
  iterations : cfg.iterations = (if o.iterations = 0 then 100 else o.iterations).toNat
  learningRate : cfg.learningRate = if o.learningRate = 0 then E.num.tenth else o.learningRate
  maxDepth : cfg.lim.maxDepth = o.maxDepth
  numLeaves : cfg.lim.numLeaves = if o.numLeaves = 0 then 31 else o.numLeaves
  minData : cfg.lim.minData = if o.minChildSamples = 0 then 20 else o.minChildSamples
  fraction : cfg.baggingFraction = if o.subsample = 0 then 1 else o.subsample
  freq : cfg.baggingFreq = o.subsampleFreq
  lambda : cfg.hb.lambda = o.regLambda
  alpha : cfg.hb.alpha = o.regAlpha
  bins : cfg.hb.maxBin = 255

/-! ## Theorems -/

/-- **C343.** All three training methods of the classifier and of the regressor train with the options set on the estimator, and with the weights and the initial score they were called with. -/
theorem options_reach_training (E : Env α) (c : α) (obj : Boost.Objective α) (w : Option (List α)) (s : α) (k : Clf α) (m : Reg α) :
    (∀ r ∈ [k.request c, k.requestWeighted c w, k.requestInit c s w], Uses E k.opts (r.config E obj)) ∧
    (∀ r ∈ [m.request c, m.requestWeighted c w, m.requestInit c s w], Uses E m.opts (r.config E obj)) ∧
    ((k.request c).config E obj).weights = none ∧ ((k.requestWeighted c w).config E obj).weights = w ∧ ((k.requestInit c s w).config E obj).weights = w ∧
    ((m.request c).config E obj).weights = none ∧ ((m.requestWeighted c w).config E obj).weights = w ∧ ((m.requestInit c s w).config E obj).weights = w ∧
    ((k.request c).config E obj).initScore = none ∧ ((k.requestWeighted c w).config E obj).initScore = none ∧ ((k.requestInit c s w).config E obj).initScore = some s ∧
    ((m.request c).config E obj).initScore = none ∧ ((m.requestWeighted c w).config E obj).initScore = none ∧ ((m.requestInit c s w).config E obj).initScore = some s := by
  refine ⟨fun r hr => ?_, fun r hr => ?_, rfl, rfl, rfl, rfl, rfl, rfl, rfl, rfl, rfl, rfl, rfl, rfl⟩
  all_goals
    simp only [List.mem_cons, List.not_mem_nil, or_false] at hr
    rcases hr with rfl | rfl | rfl <;> exact ⟨rfl, rfl, rfl, rfl, rfl, rfl, rfl, rfl, rfl, rfl⟩

theorem iterate_rand (C : Trainer.Config α) (lib : Trainer.Lib α) (byGrad : (Nat → α) → List Nat → List Nat) (rand rand' : Nat → Nat → Nat) (hb : C.boosting ≠ "goss")
    (h : C.baggingFreq ≤ 0 ∨ 1 ≤ C.baggingFraction ∨ C.baggingFraction ≤ 0) (fuel : Nat) (P : Trainer.Problem α) (k : Nat) (st : Trainer.St α) :
    C.iterate lib byGrad rand fuel P k st = C.iterate lib byGrad rand' fuel P k st := by
  have hs : ∀ (r : Nat → Nat), Trainer.sampleInstances lib.scale r C.baggingFraction C.baggingFreq P.rows k = List.range P.rows := by
    intro r
    unfold Trainer.sampleInstances
    rcases h with h | h
    · rw [if_pos (.inl h)]
    · rw [if_pos h, ite_self]
  unfold Trainer.Config.iterate
  simp only [Trainer.Config.sample, if_neg hb, hs]

theorem fit_rand (C : Trainer.Config α) (lib : Trainer.Lib α) (byGrad : (Nat → α) → List Nat → List Nat) (rand rand' : Nat → Nat → Nat) (hb : C.boosting ≠ "goss")
    (h : C.baggingFreq ≤ 0 ∨ 1 ≤ C.baggingFraction ∨ C.baggingFraction ≤ 0) (fuel : Nat) (P : Trainer.Problem α) (before after : Nat → Trainer.St α → Trainer.CB) (st : Trainer.St α) :
    C.fit lib byGrad rand fuel P before after st = C.fit lib byGrad rand' fuel P before after st := by
  unfold Trainer.Config.fit
  generalize C.iterations = n
  generalize 0 = k
  induction n generalizing k st with
  | zero => rfl
  | succ n ih =>
    unfold Trainer.Config.run
    rw [iterate_rand C lib byGrad rand rand' hb h]
    simp only [ih]

/-- **C343, what does not hold.** Without bagging (the default) the share of the columns per tree (`colsample_bytree`), the number of rounds for early stopping and the seed have no effect on
the classifier, whatever random numbers are drawn for them: every tree may use all columns. -/
theorem colsample_without_effect (E : Env α) (rand : Int → Bool → Nat → Nat → Nat) (c v : α) (rounds seed : Int) (k : Clf α) (X y : Mat α)
    (h : k.opts.subsampleFreq ≤ 0 ∨ 1 ≤ k.opts.subsample ∨ k.opts.subsample ≤ 0) (h1 : ¬ k.opts.subsample = 0) :
    train { E with rand := rand } (Clf.request c { k with opts := { k.opts with colsample := v, earlyStopping := rounds, randomState := seed } }) X y = train E (k.request c) X y := by
  unfold train
  have hc : (Clf.request c { k with opts := { k.opts with colsample := v, earlyStopping := rounds, randomState := seed } }).config { E with rand := rand } = (k.request c).config E := rfl
  dsimp only [Clf.request] at hc ⊢
  rw [hc]
  split
  · rfl
  · next obj _ =>
    rw [fit_rand _ _ _ _ (E.rand k.opts.randomState k.opts.deterministic) (show ("" : String) ≠ "goss" by decide)]
    show k.opts.subsampleFreq ≤ 0 ∨ 1 ≤ orDefault k.opts.subsample 1 ∨ orDefault k.opts.subsample 1 ≤ 0
    rw [orDefault, if_neg h1]
    exact h

/-- **C343, what does not hold.** The same for `Fit` of the regressor. -/
theorem regressor_colsample_without_effect (E : Env α) (rand : Int → Bool → Nat → Nat → Nat) (c v : α) (rounds seed : Int) (m : Reg α) (X y : Mat α)
    (h : m.opts.subsampleFreq ≤ 0 ∨ 1 ≤ m.opts.subsample ∨ m.opts.subsample ≤ 0) (h1 : ¬ m.opts.subsample = 0) :
    train { E with rand := rand } (Reg.request c { m with opts := { m.opts with colsample := v, earlyStopping := rounds, randomState := seed } }) X y = train E (m.request c) X y := by
  unfold train
  have hc : (Reg.request c { m with opts := { m.opts with colsample := v, earlyStopping := rounds, randomState := seed } }).config { E with rand := rand } = (m.request c).config E := rfl
  dsimp only [Reg.request] at hc ⊢
  rw [hc]
  split
  · rfl
  · next obj _ =>
    rw [fit_rand _ _ _ _ (E.rand m.opts.randomState m.opts.deterministic) (show ("" : String) ≠ "goss" by decide)]
    show m.opts.subsampleFreq ≤ 0 ∨ 1 ≤ orDefault m.opts.subsample 1 ∨ orDefault m.opts.subsample 1 ≤ 0
    rw [orDefault, if_neg h1]
    exact h

/-- half of the columns and another seed, on a regressor that trains: the same model -/
example : train exEnv (Reg.request (1 / 10000000) { exReg "" "huber" with opts := { exOpts 1 with colsample := 1 / 2, randomState := 9 } }) (exCol [1, 2, 3]) (exCol [0, 5, 9]) =
    train exEnv ((exReg "" "huber").request (1 / 10000000)) (exCol [1, 2, 3]) (exCol [0, 5, 9]) :=
  regressor_colsample_without_effect exEnv exEnv.rand _ (1 / 2) 0 9 (exReg "" "huber") _ _ (.inl (by decide +kernel)) (by decide +kernel)

example : (((exReg "" "huber").request (1 / 10000000)).config exEnv (Boost.l2 exEnv.num)).lim.numLeaves = 31 :=
  ((options_reach_training exEnv (1 / 10000000) _ none 0 ⟨exOpts 1, "", 1, [], 0, none, false⟩ (exReg "" "huber")).2.1 ((exReg "" "huber").request (1 / 10000000)) (by simp)).numLeaves

end Scigo.Wrapper
