import Verif.Wrapper.RealProps
import Verif.Trainer.ServeProps
import Mathlib.Analysis.SpecialFunctions.Log.Basic

/-!
# C165–C167: labels, weights and initial scores in training
-/

set_option linter.unusedSectionVars false

namespace Scigo.Wrapper

open Scigo.LGB (ENum RealENum)
open Scigo.Trainer (bind_ok_inv Config Problem St collect)

/-! ## Weights of one and the default initial score -/

section equal
variable {α : Type} [DecidableEq α] [LT α] [DecidableLT α] [LE α] [DecidableLE α] [Zero α] [One α] [Add α] [Sub α] [Neg α] [Mul α] [Div α]

theorem collect_congr {f g : Nat → Outcome α} {n : Nat} (h : ∀ i < n, f i = g i) : collect f n = collect g n := by
  induction n with
  | zero => rfl
  | succ n ih => rw [collect, collect, ih (fun i hi => h i (by omega)), h n (by omega)]

/-- two configurations that agree on everything but how weights and the initial score are given train alike -/
theorem fit_congr (C D : Config α) (P : Problem α) (hD : D = { C with weights := D.weights, initScore := D.initScore })
    (hi : D.init P = C.init P) (hw : ∀ i < P.rows, D.weight i = C.weight i) (lib : Trainer.Lib α)
    (byGrad : (Nat → α) → List Nat → List Nat) (rand : Nat → Nat → Nat) (fuel : Nat) (before after : Nat → St α → Trainer.CB) (st : St α) :
    D.fit lib byGrad rand fuel P before after st = C.fit lib byGrad rand fuel P before after st := by
  have hcache : ∀ s, D.cache P s = C.cache P s := by
    intro s
    unfold Config.cache
    rw [hi]
  have hwide : D.wide = C.wide := by rw [hD]
  have hlr : D.learningRate = C.learningRate := by rw [hD]
  have hobj : D.objective = C.objective := by rw [hD]
  have hcw : D.classWeight = C.classWeight := by rw [hD]
  have hcur : ∀ ts c, D.current lib.toInt P ts c = C.current lib.toInt P ts c := by
    intro ts c
    funext i
    unfold Config.current
    rw [hwide, hlr, hi]
  have hder : ∀ d l, D.derivs lib.toInt P d l = C.derivs lib.toInt P d l := by
    intro d l
    unfold Config.derivs
    apply collect_congr
    intro i hi'
    have : ∀ t w v, D.weighted lib.toInt t w v = C.weighted lib.toInt t w v := by
      intro t w v
      unfold Config.weighted
      rw [hcw]
    rw [hw i hi']
    simp only [this]
  have hloss : ∀ ts c, D.loss lib.toInt P ts c = C.loss lib.toInt P ts c := by
    intro ts c
    have : ∀ n ≤ P.rows, D.lossSums lib.toInt P ts c n = C.lossSums lib.toInt P ts c n := by
      intro n
      induction n with
      | zero => intro _; rfl
      | succ n ih =>
        intro hn
        rw [Config.lossSums, Config.lossSums, ih (by omega), hcur, hw n (by omega), hobj]
    rw [Config.loss, Config.loss, this _ le_rfl]
  have hs : ∀ r k g h, D.sample lib byGrad r P k g h = C.sample lib byGrad r P k g h := by
    intro r k g h
    unfold Config.sample
    rw [hD]
  have hit : ∀ k s, D.iterate lib byGrad rand fuel P k s = C.iterate lib byGrad rand fuel P k s := by
    intro k s
    unfold Config.iterate
    simp only [hcache, hcur, hder, hloss, hs, hobj, hlr]
    rw [show D.hb = C.hb by rw [hD], show D.lim = C.lim by rw [hD], show D.categorical = C.categorical by rw [hD]]
  have hr : ∀ n k s, D.run lib byGrad rand fuel P before after n k s = C.run lib byGrad rand fuel P before after n k s := by
    intro n
    induction n with
    | zero => intro k s; rfl
    | succ n ih =>
      intro k s
      rw [Config.run, Config.run, hit]
      simp only [ih]
  unfold Config.fit
  rw [hr, show D.iterations = C.iterations by rw [hD]]

/-- weights of one for every row train as no weights do (law-free) -/
theorem train_ones (E : Env α) (r : Request α) (X y : Mat α) :
    train E { r with weights := some (List.replicate X.r 1) } X y = train E { r with weights := none } X y := by
  unfold train
  show (match Boost.createObjective E.num E.lits E.floor E.ceil r.huberDelta r.fairC r.quantileAlpha r.tweediePower E.threeHalves r.objective with
    | none => _ | some obj => _) = (match Boost.createObjective E.num E.lits E.floor E.ceil r.huberDelta r.fairC r.quantileAlpha r.tweediePower E.threeHalves r.objective with
    | none => _ | some obj => _)
  cases Boost.createObjective E.num E.lits E.floor E.ceil r.huberDelta r.fairC r.quantileAlpha r.tweediePower E.threeHalves r.objective with
  | none => rfl
  | some obj =>
    simp only
    rw [fit_congr (Request.config E { r with weights := none } obj) (Request.config E { r with weights := some (List.replicate X.r 1) } obj)
      (problem X y) rfl rfl ?_]
    · rfl
    · intro i hi
      show (match (List.replicate X.r (1 : α))[i]? with | some v => Outcome.ok v | none => Outcome.panic "index out of range") = .ok 1
      rw [List.getElem?_replicate_of_lt (show i < X.r from hi)]

/-- the initial score the objective itself chooses for the targets -/
def ownInit (E : Env α) (r : Request α) (y : Mat α) : Option α :=
  (Boost.createObjective E.num E.lits E.floor E.ceil r.huberDelta r.fairC r.quantileAlpha r.tweediePower E.threeHalves r.objective).map
    fun obj => obj.init ((List.range y.r).map (fun i => y.at' i 0))

/-- giving the initial score the objective would choose changes nothing (law-free) -/
theorem train_ownInit (E : Env α) (r : Request α) (X y : Mat α) (s : α) (hs : ownInit E r y = some s) :
    train E { r with initScore := some s } X y = train E { r with initScore := none } X y := by
  unfold ownInit at hs
  unfold train
  show (match Boost.createObjective E.num E.lits E.floor E.ceil r.huberDelta r.fairC r.quantileAlpha r.tweediePower E.threeHalves r.objective with
    | none => _ | some obj => _) = (match Boost.createObjective E.num E.lits E.floor E.ceil r.huberDelta r.fairC r.quantileAlpha r.tweediePower E.threeHalves r.objective with
    | none => _ | some obj => _)
  cases ho : Boost.createObjective E.num E.lits E.floor E.ceil r.huberDelta r.fairC r.quantileAlpha r.tweediePower E.threeHalves r.objective with
  | none => rfl
  | some obj =>
    rw [ho] at hs
    have hs : obj.init ((List.range y.r).map (fun i => y.at' i 0)) = s := Option.some.inj hs
    have hinit : (Request.config E { r with initScore := some s } obj).init (problem X y) =
        (Request.config E { r with initScore := none } obj).init (problem X y) := hs.symm
    simp only
    rw [fit_congr (Request.config E { r with initScore := none } obj) (Request.config E { r with initScore := some s } obj)
      (problem X y) rfl hinit (fun _ _ => rfl)]
    unfold Config.getModel
    rw [hinit]
    rfl

/-- a body of `Fit` depends on the training only through its results -/
theorem fitBody_congr (toInt : α → Int) (iter : List Int → List Int) (train : Request α → Mat α → Mat α → Outcome (LGB.Model α))
    (req req' : Clf α → Request α) (m : Clf α) (X y : Mat α)
    (h : ∀ m1 : Clf α, train (req m1) X y = train (req' m1) X y) : m.fitBody toInt iter train req X y = m.fitBody toInt iter train req' X y := by
  unfold Clf.fitBody
  simp only [h]

/-- **C166** (law-free, classifier): `FitWeighted` without weights, `FitWeighted` with weights of one and `Fit` leave the same classifier, and one
succeeds exactly if the others do. -/
theorem fitWeighted_trivial (E : Env α) (c : α) (toInt : α → Int) (iter : List Int → List Int) (m : Clf α) (X y : Mat α) :
    (m.fitWeighted c toInt iter (train E) X y none).1 = (m.fit c toInt iter (train E) X y).1 ∧
    (m.fitWeighted c toInt iter (train E) X y (some (List.replicate X.r 1))).1 = (m.fit c toInt iter (train E) X y).1 ∧
    ((m.fitWeighted c toInt iter (train E) X y none).2 = .ok () ↔ (m.fit c toInt iter (train E) X y).2 = .ok ()) ∧
    ((m.fitWeighted c toInt iter (train E) X y (some (List.replicate X.r 1))).2 = .ok () ↔ (m.fit c toInt iter (train E) X y).2 = .ok ()) := by
  have hb : m.fitBody toInt iter (train E) (fun m => m.requestWeighted c (some (List.replicate X.r 1))) X y =
      m.fitBody toInt iter (train E) (Clf.request c) X y :=
    fitBody_congr toInt iter (train E) _ _ m X y (fun m1 => train_ones E (m1.request c) X y)
  have hn : m.fitBody toInt iter (train E) (fun m => m.requestWeighted c none) X y = m.fitBody toInt iter (train E) (Clf.request c) X y := rfl
  have rec_iff : ∀ (o : Outcome Unit) (a b : String), o.recovered a = .ok () ↔ o.recovered b = .ok () := by
    intro o a b
    cases o <;> simp
  have hw : ¬ ((some (List.replicate X.r (1 : α))).isSome ∧ ((some (List.replicate X.r (1 : α))).getD []).length ≠ X.r) := by simp
  have hw' : ¬ ((none : Option (List α)).isSome ∧ ((none : Option (List α)).getD []).length ≠ X.r) := by simp
  unfold Clf.fitWeighted Clf.fit
  by_cases h1 : X.r ≠ y.r
  · rw [if_pos h1, if_pos h1, if_pos h1]
    exact ⟨rfl, rfl, Iff.rfl, Iff.rfl⟩
  rw [if_neg h1, if_neg h1, if_neg h1]
  by_cases h2 : y.c ≠ 1
  · rw [if_pos h2, if_pos h2, if_pos h2]
    exact ⟨rfl, rfl, Iff.rfl, Iff.rfl⟩
  rw [if_neg h2, if_neg h2, if_neg h2, if_neg hw, if_neg hw', hb, hn]
  exact ⟨rfl, rfl, rec_iff _ _ _, rec_iff _ _ _⟩

/-- **C166** (law-free, classifier): `FitWithInit` with the initial score the objective would choose for the training labels and without weights
leaves the classifier `Fit` leaves. The objective is the one for the number of classes found. -/
theorem fitWithInit_own (E : Env α) (c s : α) (toInt : α → Int) (iter : List Int → List Int) (m : Clf α) (X y : Mat α)
    (hs : ∀ r : Request α, Asks (extractClasses toInt iter y) r → ownInit E r y = some s) :
    (m.fitWithInit c toInt iter (train E) X y s none).1 = (m.fit c toInt iter (train E) X y).1 ∧
    ((m.fitWithInit c toInt iter (train E) X y s none).2 = .ok () ↔ (m.fit c toInt iter (train E) X y).2 = .ok ()) := by
  have hb : m.fitBody toInt iter (train E) (fun m => m.requestInit c s none) X y = m.fitBody toInt iter (train E) (Clf.request c) X y := by
    unfold Clf.fitBody
    simp only
    cases hso : Clf.setObjective { m with classes := extractClasses toInt iter y } with
    | none => rfl
    | some m1 =>
      have hask : Asks (extractClasses toInt iter y) (Clf.request c { m1 with nFeatures := X.c }) := by
        unfold Clf.setObjective at hso
        by_cases h2 : (extractClasses toInt iter y).length = 2
        · rw [if_pos h2] at hso
          cases hso
          exact Or.inl ⟨h2, rfl, rfl⟩
        · rw [if_neg h2] at hso
          by_cases h3 : (extractClasses toInt iter y).length > 2
          · rw [if_pos h3] at hso
            cases hso
            exact Or.inr ⟨h3, rfl, rfl⟩
          · rw [if_neg h3] at hso
            cases hso
      simp only
      rw [show train E (Clf.requestInit c { m1 with nFeatures := X.c } s none) X y = train E (Clf.request c { m1 with nFeatures := X.c }) X y from
        train_ownInit E (Clf.request c { m1 with nFeatures := X.c }) X y s (hs _ hask)]
  have rec_iff : ∀ (o : Outcome Unit) (a b : String), o.recovered a = .ok () ↔ o.recovered b = .ok () := by
    intro o a b
    cases o <;> simp
  have hw' : ¬ ((none : Option (List α)).isSome ∧ ((none : Option (List α)).getD []).length ≠ X.r) := by simp
  unfold Clf.fitWithInit Clf.fit
  by_cases h1 : X.r ≠ y.r
  · rw [if_pos h1, if_pos h1]
    exact ⟨rfl, Iff.rfl⟩
  rw [if_neg h1, if_neg h1]
  by_cases h2 : y.c ≠ 1
  · rw [if_pos h2, if_pos h2]
    exact ⟨rfl, Iff.rfl⟩
  rw [if_neg h2, if_neg h2, if_neg hw', hb]
  exact ⟨rfl, rec_iff _ _ _⟩

/-! ## The regressor and its boosting type -/

/-- only "goss" in any case makes a difference to training -/
theorem train_boosting (E : Env α) (r : Request α) (name : String) (k : Int) (hr : r.boosting.toLower ≠ "goss") (hn : name.toLower ≠ "goss")
    (hk : ∀ n : Int, (if 0 < k then k else 1) = n → (if 0 < r.numClass then r.numClass else 1) = n) (X y : Mat α) :
    train E { r with boosting := name, numClass := k } X y = train E r X y := by
  have low : ∀ s : String, s.toLower ≠ "goss" → s ≠ "goss" := by
    intro s hs e
    apply hs
    rw [e]
    decide +kernel
  unfold train
  show (match Boost.createObjective E.num E.lits E.floor E.ceil r.huberDelta r.fairC r.quantileAlpha r.tweediePower E.threeHalves r.objective with
    | none => _ | some obj => _) = (match Boost.createObjective E.num E.lits E.floor E.ceil r.huberDelta r.fairC r.quantileAlpha r.tweediePower E.threeHalves r.objective with
    | none => _ | some obj => _)
  cases Boost.createObjective E.num E.lits E.floor E.ceil r.huberDelta r.fairC r.quantileAlpha r.tweediePower E.threeHalves r.objective with
  | none => rfl
  | some obj =>
    simp only
    have hc : Request.config E { r with boosting := name, numClass := k } obj =
        { Request.config E r obj with boosting := name, monotone := [] } := by
      unfold Request.config
      simp only [if_neg hr, if_neg hn]
    have hb := Trainer.boosting_type_ignored (Request.config E r obj) name (low _ hr) (low _ hn) [] E.lib E.byGrad (E.rand r.seed r.deterministic) E.fuel
      (problem X y) (fun _ _ => .go) (fun _ _ => .go) St.new
    have e : (Request.config E { r with boosting := name, numClass := k } obj).fit E.lib E.byGrad (E.rand r.seed r.deterministic) E.fuel (problem X y)
        (fun _ _ => .go) (fun _ _ => .go) St.new = (Request.config E r obj).fit E.lib E.byGrad (E.rand r.seed r.deterministic) E.fuel (problem X y)
        (fun _ _ => .go) (fun _ _ => .go) St.new := by
      rw [hc]; exact hb
    rw [e]
    have hg : ∀ st, (Request.config E { r with boosting := name, numClass := k } obj).getModel r.objective k (problem X y) st =
        (Request.config E r obj).getModel r.objective r.numClass (problem X y) st := by
      intro st
      rw [hc]
      unfold Config.getModel
      rw [hk _ rfl]
      rfl
    simp only [hg]

/-- **C167**, what holds (law-free, regressor): unless the boosting type is "goss" in any case, `FitWeighted` without weights or with weights of one
and `Fit` leave the same regressor and succeed together. Missing: "goss", see `fit_ignores_boosting_type`. -/
theorem reg_fitWeighted_trivial_partial (E : Env α) (c : α) (m : Reg α) (hg : m.ropts.boosting.toLower ≠ "goss") (X y : Mat α) :
    (m.fitWeighted c (train E) X y none).1 = (m.fit c (train E) X y).1 ∧
    (m.fitWeighted c (train E) X y (some (List.replicate X.r 1))).1 = (m.fit c (train E) X y).1 ∧
    ((m.fitWeighted c (train E) X y none).2 = .ok () ↔ (m.fit c (train E) X y).2 = .ok ()) ∧
    ((m.fitWeighted c (train E) X y (some (List.replicate X.r 1))).2 = .ok () ↔ (m.fit c (train E) X y).2 = .ok ()) := by
  have hE : ("" : String).toLower ≠ "goss" := by decide +kernel
  have tb : ∀ m1 : Reg α, m1.ropts = m.ropts → train E (m1.requestWeighted c none) X y = train E (m1.request c) X y := by
    intro m1 h1
    have hm : ∀ k, train E { m1.request c with maxCatToOnehot := k } X y = train E (m1.request c) X y := fun k => rfl
    have := train_boosting E (m1.request c) m1.ropts.boosting 0 hE (by rw [h1]; exact hg) (fun n h => by rw [← h]; rfl) X y
    rw [← this]
    rfl
  have hn : m.fitBody (train E) (fun m => m.requestWeighted c none) X y = m.fitBody (train E) (Reg.request c) X y := by
    unfold Reg.fitBody
    simp only [tb { m with nFeatures := X.c, nSamples := X.r } rfl]
  have hb : m.fitBody (train E) (fun m => m.requestWeighted c (some (List.replicate X.r 1))) X y = m.fitBody (train E) (Reg.request c) X y := by
    rw [← hn]
    unfold Reg.fitBody
    simp only
    rw [show train E (Reg.requestWeighted c { m with nFeatures := X.c, nSamples := X.r } (some (List.replicate X.r 1))) X y =
      train E (Reg.requestWeighted c { m with nFeatures := X.c, nSamples := X.r } none) X y from
      train_ones E (Reg.requestWeighted c { m with nFeatures := X.c, nSamples := X.r } none) X y]
  have rec_iff : ∀ (o : Outcome Unit) (a b : String), o.recovered a = .ok () ↔ o.recovered b = .ok () := by
    intro o a b
    cases o <;> simp
  have hw : ¬ ((some (List.replicate X.r (1 : α))).isSome ∧ ((some (List.replicate X.r (1 : α))).getD []).length ≠ X.r) := by simp
  have hw' : ¬ ((none : Option (List α)).isSome ∧ ((none : Option (List α)).getD []).length ≠ X.r) := by simp
  unfold Reg.fitWeighted Reg.fit
  by_cases h1 : X.r ≠ y.r
  · rw [if_pos h1, if_pos h1, if_pos h1]
    exact ⟨rfl, rfl, Iff.rfl, Iff.rfl⟩
  rw [if_neg h1, if_neg h1, if_neg h1]
  by_cases h2 : y.c ≠ 1
  · rw [if_pos h2, if_pos h2, if_pos h2]
    exact ⟨rfl, rfl, Iff.rfl, Iff.rfl⟩
  rw [if_neg h2, if_neg h2, if_neg h2, if_neg hw, if_neg hw', hb, hn]
  exact ⟨rfl, rfl, rec_iff _ _ _, rec_iff _ _ _⟩

end equal

/-- an environment for the examples -/
def exEnv : Env Rat where
  num := ⟨id, fun v => if v < 0 then -v else v, fun a _ => a, id, id, fun _ => false, fun n => n, 1 / 2, 1 / 10, 10, 2, 4⟩
  lits := ⟨1 / 10000000, 1 / 10000000000000000, 1 / 1000000000000000, 700⟩
  floor := fun v => v.floor.toNat
  ceil := fun v => v.ceil.toNat
  fifth := 1 / 5
  threeHalves := 3 / 2
  lib := Trainer.exSlow
  byGrad := fun g => stableDesc fun i => if g i < 0 then -g i else g i
  rand := fun _ _ _ _ => 0
  fuel := 5

/-- options for the examples: one tree -/
def exOpts (iterations : Int) : Opts Rat := ⟨31, 2, 1, iterations, 1, 1, 0, 1, 0, 0, 1, true, 0, []⟩

/-- a new regressor with a boosting type -/
def exReg (boosting objective : String) : Reg Rat := ⟨exOpts 1, ⟨1 / 2, 1, 1, 3 / 2, boosting⟩, objective, 0, 0, none, false⟩

/-- one column -/
def exCol (l : List Rat) : Mat Rat := ⟨l.length, 1, fun i _ => l.getD i 0⟩

/-- the first column of an outcome, rounded down to hundredths -/
def firstCol : Outcome (Mat Rat) → Option (List Int)
  | .ok P => some ((List.range P.r).map fun i => (100 * P.at' i 0).floor)
  | _ => none

set_option maxRecDepth 4000 in
/-- **C167** is false: with the boosting type "goss" five rows give another regressor after `Fit`, which ignores it, than after `FitWeighted` without
weights, which trains on the one row with the largest gradient. -/
theorem fit_ignores_boosting_type :
    firstCol (((exReg "goss" "regression").fit (1 / 10000000) (train exEnv) (exCol [1, 2, 3, 4, 5]) (exCol [0, 0, 0, 10, 10])).1.predict LGB.ratNum (exCol [1, 5])) ≠
    firstCol (((exReg "goss" "regression").fitWeighted (1 / 10000000) (train exEnv) (exCol [1, 2, 3, 4, 5]) (exCol [0, 0, 0, 10, 10]) none).1.predict LGB.ratNum
      (exCol [1, 5])) ∧
    ((exReg "goss" "regression").fit (1 / 10000000) (train exEnv) (exCol [1, 2, 3, 4, 5]) (exCol [0, 0, 0, 10, 10])).2 = .ok () ∧
    ((exReg "goss" "regression").fitWeighted (1 / 10000000) (train exEnv) (exCol [1, 2, 3, 4, 5]) (exCol [0, 0, 0, 10, 10]) none).2 = .ok () := by
  decide +kernel

end Scigo.Wrapper
