import Verif.Quick.Train
import Verif.LGB.EnsembleProps
import Mathlib.Tactic.Common
import Mathlib.Algebra.Order.Ring.Rat

/-!
# Properties of `QuickTrain`, `QuickLoadAndPredict` and `QuickBenchmark`

**C232** (what `QuickTrain` returns), **C233** (loading and predicting in one call), **C234** (what `QuickBenchmark` times).
-/

set_option linter.unusedSectionVars false

namespace Scigo.Quick

open Scigo.Wrapper (Clf Reg)

variable {α : Type} [Add α] [Sub α] [Neg α] [Mul α] [Div α] [Zero α] [One α] [LT α] [DecidableLT α] [LE α] [DecidableLE α] [BEq α]
  [NatCast α]

/-- fitted or not -/
def QModel.fitted : QModel α → Bool
  | .clf m => m.fitted
  | .reg m => m.fitted

/-- a classifier -/
def QModel.isClf : QModel α → Bool
  | .clf _ => true
  | .reg _ => false

/-- a failed `Fit` of a new estimator leaves it unfitted, and `Fit` does not panic -/
theorem fitModel_spec (E : QEnv α) (b : Bool) (X y : Mat α) :
    (E.fitModel b X y).1.isClf = b ∧
    ((∃ e, (E.fitModel b X y).2 = .err e) ∧ (E.fitModel b X y).1.fitted = false ∨
      (E.fitModel b X y).2 = .ok () ∧ (E.fitModel b X y).1.fitted = true) := by
  cases b with
  | true =>
    refine ⟨rfl, ?_⟩
    show (∃ e, (E.newClf.fit E.tiny E.toInt E.iter E.train X y).2 = .err e) ∧
      (E.newClf.fit E.tiny E.toInt E.iter E.train X y).1.fitted = false ∨
      (E.newClf.fit E.tiny E.toInt E.iter E.train X y).2 = .ok () ∧ (E.newClf.fit E.tiny E.toInt E.iter E.train X y).1.fitted = true
    unfold Clf.fit
    by_cases h1 : X.r ≠ y.r
    · rw [if_pos h1]; exact Or.inl ⟨⟨_, rfl⟩, rfl⟩
    rw [if_neg h1]
    by_cases h2 : y.c ≠ 1
    · rw [if_pos h2]; exact Or.inl ⟨⟨_, rfl⟩, rfl⟩
    rw [if_neg h2]
    unfold Clf.fitBody Clf.setObjective
    dsimp only
    split
    · exact Or.inl ⟨⟨_, rfl⟩, rfl⟩
    · rename_i m hm
      have hf : m.fitted = false := by
        split at hm
        · rw [← Option.some.inj hm]; rfl
        · split at hm
          · rw [← Option.some.inj hm]; rfl
          · cases hm
      split
      · exact Or.inr ⟨rfl, rfl⟩
      · exact Or.inl ⟨⟨_, rfl⟩, hf⟩
      · exact Or.inl ⟨⟨_, rfl⟩, hf⟩
  | false =>
    refine ⟨rfl, ?_⟩
    show (∃ e, (E.newReg.fit E.tiny E.train X y).2 = .err e) ∧ (E.newReg.fit E.tiny E.train X y).1.fitted = false ∨
      (E.newReg.fit E.tiny E.train X y).2 = .ok () ∧ (E.newReg.fit E.tiny E.train X y).1.fitted = true
    unfold Reg.fit
    by_cases h1 : X.r ≠ y.r
    · rw [if_pos h1]; exact Or.inl ⟨⟨_, rfl⟩, rfl⟩
    rw [if_neg h1]
    by_cases h2 : y.c ≠ 1
    · rw [if_pos h2]; exact Or.inl ⟨⟨_, rfl⟩, rfl⟩
    rw [if_neg h2]
    unfold Reg.fitBody
    dsimp only
    split
    · exact Or.inr ⟨rfl, rfl⟩
    · exact Or.inl ⟨⟨_, rfl⟩, rfl⟩
    · exact Or.inl ⟨⟨_, rfl⟩, rfl⟩

/-- an unfitted estimator refuses -/
theorem unfitted_refuses (E : QEnv α) (r : Result α) (h : r.model.fitted = false) :
    (∀ Q, r.predict E Q = .err .notFitted) ∧ (∀ Q z, r.scoreOn E Q z = .err .notFitted) ∧ r.importance = .ok none ∧
    ∀ Q, ∃ e, r.predictProba E Q = .err e := by
  obtain ⟨m, s⟩ := r
  cases m with
  | clf m =>
    have h : m.fitted = false := h
    refine ⟨fun Q => ?_, fun Q z => ?_, ?_, fun Q => ⟨.notFitted, ?_⟩⟩
    · show (m.predict E.num E.half Q).map _ = _
      unfold Clf.predict
      rw [if_pos h]
      rfl
    · show Scores.lgbmClassifierScore m.fitted _ z = _
      unfold Scores.lgbmClassifierScore
      rw [if_pos h]
    · show LGB.estimatorImportance m.fitted m.model "gain" = _
      rw [h]
      rfl
    · show m.predictProba E.num Q = _
      unfold Clf.predictProba
      rw [if_pos h]
  | reg m =>
    have h : m.fitted = false := h
    refine ⟨fun Q => ?_, fun Q z => ?_, ?_, fun Q => ⟨_, rfl⟩⟩
    · show m.predict E.num Q = _
      unfold Reg.predict
      rw [if_pos h]
    · show Scores.lgbmRegressorScore m.fitted _ z = _
      unfold Scores.lgbmRegressorScore
      rw [if_pos h]
    · show LGB.estimatorImportance m.fitted m.model "gain" = _
      rw [h]
      rfl

/-- **C232** The kind of the estimator is the task detected from the targets, the score reported is its own `Score` on the training data,
or 0 if that fails. -/
theorem quick_train_score (E : QEnv α) (X y : Mat α) (r : Result α) (h : E.quickTrain X y = .ok r) :
    r.model.isClf = detectTaskType E.isInt (y.col 0) ∧
    (∀ s, r.scoreOn E X y = .ok s → r.score = s) ∧ (∀ e, r.scoreOn E X y = .err e → r.score = 0) ∧
    ∀ p, r.scoreOn E X y ≠ .panic p := by
  unfold QEnv.quickTrain at h
  split at h
  · cases h
  dsimp only at h
  obtain ⟨hk, hf⟩ := fitModel_spec E (detectTaskType E.isInt (y.col 0)) X y
  generalize E.fitModel (detectTaskType E.isInt (y.col 0)) X y = p at h hk hf
  obtain ⟨m, o⟩ := p
  dsimp only at h hk hf
  have fin : ∀ s, (({ model := m, score := s } : Result α).importance.bind fun _ => Outcome.ok ({ model := m, score := s } : Result α)) = .ok r →
      r = ⟨m, s⟩ := by
    intro s hs
    rcases hi : ({ model := m, score := s } : Result α).importance with v | e | q
    · rw [hi] at hs; exact (Outcome.ok.inj hs).symm
    · rw [hi] at hs; cases hs
    · rw [hi] at hs; cases hs
  unfold QEnv.trainScore at h
  rcases hf with ⟨⟨e, rfl⟩, hu⟩ | ⟨rfl, _⟩
  · obtain rfl := fin 0 h
    have := (unfitted_refuses E ⟨m, 0⟩ hu).2.1 X y
    refine ⟨hk, fun s hs => ?_, fun e _ => rfl, fun p hp => ?_⟩
    · rw [this] at hs; cases hs
    · rw [this] at hp; cases hp
  · have hsame : ∀ s, ({ model := m, score := s } : Result α).scoreOn E X y = ({ model := m, score := 0 } : Result α).scoreOn E X y := by
      intro s; rfl
    rcases hs : ({ model := m, score := 0 } : Result α).scoreOn E X y with v | e | q
    · rw [hs] at h
      obtain rfl := fin v h
      rw [hsame, hs]
      refine ⟨hk, fun s e => Outcome.ok.inj e, fun e he => (nomatch he), fun p hp => (nomatch hp)⟩
    · rw [hs] at h
      obtain rfl := fin 0 h
      rw [hsame, hs]
      exact ⟨hk, fun s e => (nomatch e), fun e he => rfl, fun p hp => (nomatch hp)⟩
    · rw [hs] at h
      cases h

/-- **C232** If training fails for whatever reason, a panic of the trainer included, `QuickTrain` still returns a result: with score 0 and an
estimator that answers every question with an error. -/
theorem quick_train_failed (E : QEnv α) (X y : Mat α) (hc : y.r = 0 ∨ y.c ≠ 0) (e : GoErr)
    (h : (E.fitModel (detectTaskType E.isInt (y.col 0)) X y).2 = .err e) :
    ∃ r, E.quickTrain X y = .ok r ∧ r.score = 0 ∧ (∀ Q, r.predict E Q = .err .notFitted) ∧
      (∀ Q z, r.scoreOn E Q z = .err .notFitted) ∧ r.importance = .ok none ∧ ∀ Q, ∃ e, r.predictProba E Q = .err e := by
  obtain ⟨_, hf⟩ := fitModel_spec E (detectTaskType E.isInt (y.col 0)) X y
  have hu : (E.fitModel (detectTaskType E.isInt (y.col 0)) X y).1.fitted = false := by
    rcases hf with ⟨_, hu⟩ | ⟨h', _⟩
    · exact hu
    · rw [h] at h'; cases h'
  obtain ⟨p1, p2, p3, p4⟩ := unfitted_refuses E ⟨(E.fitModel (detectTaskType E.isInt (y.col 0)) X y).1, 0⟩ hu
  refine ⟨⟨(E.fitModel (detectTaskType E.isInt (y.col 0)) X y).1, 0⟩, ?_, rfl, p1, p2, p3, p4⟩
  unfold QEnv.quickTrain
  rw [if_neg (by rintro ⟨a, b⟩; rcases hc with hc | hc; exacts [a hc, hc b])]
  unfold QEnv.trainScore
  dsimp only
  rw [h]
  show (Result.importance ⟨_, 0⟩).bind _ = _
  rw [p3]
  rfl

/-- **C232** Training fails exactly if the shapes do not match, there are fewer than two classes for a classifier, or the trainer fails:
training errors are not lost, they show as an unfitted estimator. -/
theorem quick_train_fitted (E : QEnv α) (X y : Mat α) (r : Result α) (h : E.quickTrain X y = .ok r) :
    r.model.fitted = true ↔ (E.fitModel (detectTaskType E.isInt (y.col 0)) X y).2 = .ok () := by
  unfold QEnv.quickTrain at h
  split at h
  · cases h
  dsimp only at h
  obtain ⟨_, hf⟩ := fitModel_spec E (detectTaskType E.isInt (y.col 0)) X y
  generalize E.fitModel (detectTaskType E.isInt (y.col 0)) X y = p at h hf
  have hm : r.model = p.1 := by
    generalize E.trainScore p X y = o at h
    rcases o with v | e | q
    · have h : (Result.importance ⟨p.1, v⟩).bind (fun _ => Outcome.ok (⟨p.1, v⟩ : Result α)) = .ok r := h
      rcases hi : Result.importance ⟨p.1, v⟩ with v' | e | q
      · rw [hi] at h; rw [← Outcome.ok.inj h]
      · rw [hi] at h; cases h
      · rw [hi] at h; cases h
    · cases h
    · cases h
  rw [hm]
  rcases hf with ⟨⟨e, he⟩, hu⟩ | ⟨ho, hu⟩
  · rw [he, hu]; simp
  · rw [ho, hu]; simp

/-! ## C233 -/

/-- **C233** A file read as a regressor gives the predictions of the model in it, for tables as wide as the model says; others and
unreadable files are errors. -/
theorem load_and_predict_partial (E : QEnv α) (X : Mat α) :
    (∀ m : LGB.Model α, (X.c : Int) = m.numFeatures → E.loadAndPredict (.ok m) X false = m.pPredict E.num X) ∧
    (∀ m : LGB.Model α, (X.c : Int) ≠ m.numFeatures →
      ∀ b, E.loadAndPredict (.ok m) X b = .err (.dimension m.numFeatures X.c 1)) ∧
    ∀ e b, ∃ e', E.loadAndPredict (.err e) X b = .err e' := by
  refine ⟨fun m h => ?_, fun m h b => ?_, fun e b => ?_⟩
  · simp [QEnv.loadAndPredict, Reg.loadModel, Reg.predict, h]
  · cases b
    · simp [QEnv.loadAndPredict, Reg.loadModel, Reg.predict, h]
    · unfold QEnv.loadAndPredict Clf.loadModel
      simp only [if_true]
      split
      · rename_i hh
        simp only [QEnv.clfPredict, Clf.predict]
        split <;> [skip; split] <;> simp [h, Outcome.map]
      · rename_i hh
        split at hh <;> [skip; split at hh] <;> cases hh
      · rename_i hh
        split at hh <;> [skip; split at hh] <;> cases hh
  · cases b
    · exact ⟨_, rfl⟩
    · exact ⟨_, rfl⟩

theorem labelsOf_nil (half : α) : ∀ (rows : List (List α)), Wrapper.labelsOf half [] rows = .ok (List.replicate rows.length 0) := by
  intro rows
  induction rows with
  | nil => rfl
  | cons r rs ih =>
    simp [Wrapper.labelsOf, Wrapper.labelOf, Wrapper.pickClass, ih, List.replicate_succ]

/-- **C233** A file with any other objective than the three a classifier knows is accepted as a classifier, and then every row gets the label 0,
whatever the model in it says. -/
theorem load_and_predict_wrong_kind (E : QEnv α) (m : LGB.Model α) (X : Mat α)
    (ho : m.objective ∉ ["binary", "cross_entropy", "multiclass"]) (P : Mat α) (h : E.loadAndPredict (.ok m) X true = .ok P) :
    ∀ i j, P.at' i j = E.ofInt 0 := by
  simp only [List.mem_cons, List.not_mem_nil, or_false, not_or] at ho
  have e1 : E.newClf.loadModel (.ok m) =
      ({ E.newClf with model := some m, nFeatures := m.numFeatures, numClass := m.numClass, fitted := true }, .ok ()) := by
    unfold Clf.loadModel
    dsimp only
    rw [if_neg (by rintro (h | h); exacts [ho.1 h, ho.2.1 h]), if_neg ho.2.2]
  unfold QEnv.loadAndPredict at h
  rw [if_pos rfl, e1] at h
  simp only [QEnv.clfPredict, Clf.predict, Bool.true_eq_false, if_false] at h
  split at h
  · cases h
  · generalize Clf.predictProba E.num _ X = o at h
    rcases o with Q | e | s
    · have h : (Wrapper.labelsOf E.half [] (Wrapper.rowsOf Q)).map _ = Outcome.ok P := h
      rw [labelsOf_nil] at h
      have := Outcome.ok.inj h
      rw [← this]
      intro i j
      show E.ofInt ((List.replicate _ 0).getD i 0) = _
      congr 1
      rw [List.getD_eq_getElem?_getD, List.getElem?_replicate]
      split <;> rfl
    · cases h
    · cases h

/-! ## C234 -/

/-- **C234** is false: whatever the table, provided it has a column, every call of `Predict` that `QuickBenchmark` makes is refused at once, because the
classifier it builds expects no columns: what is timed is the refusal. -/
theorem benchmark_times_errors (E : QEnv α) (X : Mat α) (hX : X.c ≠ 0) (iterations : Int) :
    ∀ o ∈ E.benchCalls X iterations, o = .err (.dimension 0 X.c 1) := by
  intro o ho
  rw [QEnv.benchCalls] at ho
  rw [List.eq_of_mem_replicate ho]
  simp [QEnv.clfPredict, Clf.predict, QEnv.benchClf, QEnv.newClf, hX, Outcome.map]

/-- **C234** (the part that holds) The number of calls made is as asked for, 100 if a number that is not positive is given, beside ten
that are not timed. What is missing: that the calls predict. -/
theorem benchmark_calls_partial (E : QEnv α) (X : Mat α) (iterations : Int) :
    ((E.benchCalls X iterations).length : Int) = 10 + (if 0 < iterations then iterations else 100) := by
  rw [QEnv.benchCalls, List.length_replicate]
  split <;> split <;> omega

/-! ## Concrete cases -/

/-- a trainer that returns a constant, and one that panics -/
def exQ (train : Wrapper.Request Rat → Mat Rat → Mat Rat → Outcome (LGB.Model Rat)) : QEnv Rat :=
  ⟨LGB.ratNum, 1 / 10000000, 1 / 2, 1 / 10, 3 / 2, fun v => v.floor, fun n => (n : Rat), fun v => v.den == 1, List.dedup, train⟩

/-- training that panics -/
example : (exQ fun _ _ _ => .panic "index out of range").quickTrain ⟨3, 1, fun i _ => i⟩ ⟨3, 1, fun i _ => i⟩ =
    .ok ⟨.reg { (exQ fun _ _ _ => .panic "index out of range").newReg with nFeatures := 1, nSamples := 3 }, 0⟩ := by
  rfl

/-- training that succeeds -/
example : ((exQ fun _ X _ => .ok ⟨"regression", 1, 1, 1, [⟨[LGB.lf 5], [], 1, 1, 0⟩], X.c, 0, 0, false⟩).quickTrain ⟨3, 1, fun i _ => i⟩
    ⟨3, 1, fun i _ => i⟩).map (fun r => r.score) = .ok (-24) := by decide +kernel

/-- a regression read as a classifier -/
example : ((exQ fun _ _ _ => .panic "").loadAndPredict (.ok ⟨"regression", 1, 1, 1, [⟨[LGB.lf 5], [], 1, 1, 0⟩], 1, 0, 0, false⟩)
    ⟨1, 1, fun i _ => i⟩ true).map (fun P => P.at' 0 0) = .ok 0 := by decide +kernel

end Scigo.Quick
