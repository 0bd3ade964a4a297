import Verif.Online.SessionMore

/-!
# C291: setting the learning rate of the SGD models
-/

set_option linter.unusedSectionVars false

namespace Scigo.Online

variable {α : Type _}

section
variable [Add α] [Sub α] [Mul α] [Div α] [Neg α] [Zero α] [One α] [LT α] [DecidableLT α] [LE α] [DecidableLE α] [BEq α]

/-- `SetLearningRate` (`sklearn/linear_model/sgd_regressor.go:609-613`) -/
def Reg.setLearningRate (lr : α) (m : Reg α) : Reg α := { m with eta0 := lr }

/-- `SetLearningRateSchedule` (`sklearn/linear_model/sgd_regressor.go:623-627`): any name is accepted -/
def Reg.setSchedule (s : String) (m : Reg α) : Reg α := { m with opts := { m.opts with schedule := s } }

/-- `GetLearningRateSchedule` (`sklearn/linear_model/sgd_regressor.go:616-620`) -/
def Reg.getSchedule (m : Reg α) : String := m.opts.schedule

/-- `SetLearningRate` (`sklearn/linear_model/sgd_classifier.go:677-681`) -/
def Clf.setLearningRate (lr : α) (m : Clf α) : Clf α := { m with eta0 := lr }

/-- `SetLearningRateSchedule` (`sklearn/linear_model/sgd_classifier.go:691-695`): any name is accepted -/
def Clf.setSchedule (s : String) (m : Clf α) : Clf α := { m with opts := { m.opts with schedule := s } }

/-- `GetLearningRateSchedule` (`sklearn/linear_model/sgd_classifier.go:684-688`) -/
def Clf.getSchedule (m : Clf α) : String := m.opts.schedule

/-- `GetLearningRate` (`sklearn/linear_model/sgd_classifier.go:670-674`) -/
def Clf.getLearningRate (N : Num α) (m : Clf α) : α := learningRate N m.opts m.eta0 m.t m.hist

/-- a training call on the regressor: `Fit` with its random numbers, or `PartialFit` (`sklearn/linear_model/sgd_regressor.go:173-280`) -/
inductive RegCall (α : Type _)
  | fit (init : Nat → List α) (pick : Nat → Nat → Nat) (X y : Mat α)
  | partialFit (init : Nat → List α) (X y : Mat α)

/-- one training call (`sklearn/linear_model/sgd_regressor.go:173-280`) -/
def Reg.call (N : Num α) (m : Reg α) : RegCall α → Reg α × Outcome Unit
  | .fit init pick X y => m.fit N init pick X y
  | .partialFit init X y => m.partialFit N init X y

/-- a history of training calls: the final model and the outcomes (`sklearn/linear_model/sgd_regressor.go:173-280`) -/
def Reg.run (N : Num α) : List (RegCall α) → Reg α → Reg α × List (Outcome Unit)
  | [], m => (m, [])
  | c :: cs, m => let r := m.call N c; let t := Reg.run N cs r.1; (t.1, r.2 :: t.2)

/-- a training call on the classifier (`sklearn/linear_model/sgd_classifier.go:156-266`) -/
inductive ClfCall (α : Type _)
  | fit (init : Nat → Nat → List (List α)) (pick : Nat → Nat → Nat) (X y : Mat α)
  | partialFit (init : Nat → Nat → List (List α)) (X y : Mat α) (classes : Option (List Int))

/-- one training call (`sklearn/linear_model/sgd_classifier.go:156-266`) -/
def Clf.call (N : Num α) (toInt : α → Int) (iter : List Int → List Int) (m : Clf α) : ClfCall α → Clf α × Outcome Unit
  | .fit init pick X y => m.fit N toInt iter init pick X y
  | .partialFit init X y cs => m.partialFit N toInt iter init X y cs

/-- a history of training calls (`sklearn/linear_model/sgd_classifier.go:156-266`) -/
def Clf.run (N : Num α) (toInt : α → Int) (iter : List Int → List Int) : List (ClfCall α) → Clf α → Clf α × List (Outcome Unit)
  | [], m => (m, [])
  | c :: cs, m => let r := m.call N toInt iter c; let t := Clf.run N toInt iter cs r.1; (t.1, r.2 :: t.2)

/-! ## What the setters promise -/

/-- **C291** (part that holds): the schedule set is the schedule reported, and after setting a rate the rate reported, which is the one the next step uses,
is that rate for every schedule but the three named ones, half of it or itself for "adaptive", and the rate divided by `(t + 1) ^ power_t` for "invscaling",
`t` the number of steps so far. Missing: "optimal", see `optimal_ignores_rate`. -/
theorem set_rate_partial (N : Num α) (s : String) (lr : α) (m : Reg α) (c : Clf α) :
    (m.setSchedule s).getSchedule = s ∧ (c.setSchedule s).getSchedule = s ∧
    (s ≠ "optimal" → s ≠ "invscaling" → s ≠ "adaptive" →
      ((m.setSchedule s).setLearningRate lr).getLearningRate N = lr ∧ ((c.setSchedule s).setLearningRate lr).getLearningRate N = lr) ∧
    (s = "adaptive" →
      (((m.setSchedule s).setLearningRate lr).getLearningRate N = lr ∨
        5 < m.hist.length ∧ ((m.setSchedule s).setLearningRate lr).getLearningRate N = lr * N.half) ∧
      (((c.setSchedule s).setLearningRate lr).getLearningRate N = lr ∨
        5 < c.hist.length ∧ ((c.setSchedule s).setLearningRate lr).getLearningRate N = lr * N.half)) ∧
    (s = "invscaling" →
      ((m.setSchedule s).setLearningRate lr).getLearningRate N = lr / N.pow (N.ofNat m.t + 1) m.opts.powerT ∧
      ((c.setSchedule s).setLearningRate lr).getLearningRate N = lr / N.pow (N.ofNat c.t + 1) c.opts.powerT) := by
  refine ⟨rfl, rfl, ?_, ?_, ?_⟩
  · intro h1 h2 h3
    constructor
    · simp [Reg.getLearningRate, Reg.setLearningRate, Reg.setSchedule, learningRate, h1, h2, h3]
    · simp [Clf.getLearningRate, Clf.setLearningRate, Clf.setSchedule, learningRate, h1, h2, h3]
  · rintro rfl
    constructor
    · simp only [Reg.getLearningRate, Reg.setLearningRate, Reg.setSchedule, learningRate, String.reduceEq, if_false, if_true]
      by_cases h : 5 < m.hist.length ∧ isIncreasing (lastN 5 m.hist) = true
      · exact Or.inr ⟨h.1, if_pos h⟩
      · exact Or.inl (if_neg h)
    · simp only [Clf.getLearningRate, Clf.setLearningRate, Clf.setSchedule, learningRate, String.reduceEq, if_false, if_true]
      by_cases h : 5 < c.hist.length ∧ isIncreasing (lastN 5 c.hist) = true
      · exact Or.inr ⟨h.1, if_pos h⟩
      · exact Or.inl (if_neg h)
  · rintro rfl
    simp [Reg.getLearningRate, Reg.setLearningRate, Reg.setSchedule, Clf.getLearningRate, Clf.setLearningRate, Clf.setSchedule, learningRate]

/-- **C291** (the rate reported is the rate used): one step of the regressor on a sample with a stable prediction moves the intercept by the reported rate times
the derivative of the loss, and every stable weight by that rate times its clipped gradient. -/
theorem step_uses_reported_rate (N : Num α) (m : Reg α) (w x : List α) (y : α) (hw : m.coef = some w) (hl : w.length = x.length)
    (hp : N.unstable (score w m.intercept x) = false) :
    ∃ m' l, m.updateWeights N x y = some (m', l) ∧
      (m.opts.fitIntercept = true →
        m'.intercept = m.intercept - m.getLearningRate N * (regLoss N m.opts.loss m.opts.epsilon (score w m.intercept x) y).2) ∧
      ∃ w', m'.coef = some w' ∧ w'.length = w.length ∧ ∀ i < w.length,
        w'.getD i 0 = moveWeight N (m.getLearningRate N) (w.getD i 0)
          ((Errors.clipGradient N.sqrt (gradVec m.opts w x (regLoss N m.opts.loss m.opts.epsilon (score w m.intercept x) y).2) N.ten).getD i 0) := by
  have h1 : ¬ w.length < x.length := by omega
  obtain ⟨o, e, co, b, nf, ni, t, hist, cv, ft⟩ := m
  dsimp only at hw hp
  subst hw
  refine ⟨_, _, (if_neg h1).trans (if_neg (ne_true_of_eq_false hp)), ?_, _, rfl, by simp, ?_⟩
  · intro h
    exact if_pos h
  · intro i hi
    rw [List.getD_eq_getElem _ _ (by simpa using hi)]
    simp [hi, ← hl, Reg.getLearningRate]

/-! ## The schedule "optimal" ignores the rate -/

theorem optimal_update (N : Num α) (m : Reg α) (h : m.opts.schedule = "optimal") (e : α) (x : List α) (y : α) :
    (m.updateWeights N x y = none ∧ (m.setLearningRate e).updateWeights N x y = none) ∨
    ∃ m' l e', m.updateWeights N x y = some (m', l) ∧ (m.setLearningRate e).updateWeights N x y = some (m'.setLearningRate e', l) ∧ m'.opts = m.opts := by
  unfold Reg.updateWeights
  simp only [Reg.setLearningRate]
  by_cases h1 : (m.coef.getD []).length < x.length
  · exact Or.inl ⟨if_pos h1, if_pos h1⟩
  · right
    by_cases h2 : N.unstable (score (m.coef.getD []) m.intercept x) = true
    · exact ⟨_, _, e * N.tenth, (if_neg h1).trans (if_pos h2), (if_neg h1).trans (if_pos h2), rfl⟩
    · refine ⟨_, _, e, (if_neg h1).trans (if_neg h2), ((if_neg h1).trans (if_neg h2)).trans ?_, rfl⟩
      simp [learningRate, h]

theorem optimal_trainRows (N : Num α) (X y : Mat α) (is : List Nat) (m : Reg α) (h : m.opts.schedule = "optimal") (e acc : α) :
    ∃ e', (m.setLearningRate e).trainRows N X y is acc =
      ((m.trainRows N X y is acc).1.setLearningRate e', (m.trainRows N X y is acc).2) ∧ (m.trainRows N X y is acc).1.opts = m.opts := by
  induction is generalizing m e acc with
  | nil => exact ⟨e, rfl, rfl⟩
  | cons i is ih =>
    unfold Reg.trainRows
    cases labelAt y i with
    | none => exact ⟨e, rfl, rfl⟩
    | some yi =>
      dsimp only
      rcases optimal_update N m h e (X.row i) yi with ⟨h1, h2⟩ | ⟨m', l, e', h1, h2, h3⟩
      · rw [h1, h2]; exact ⟨e, rfl, rfl⟩
      · rw [h1, h2]
        obtain ⟨e2, i1, i2⟩ := ih m' (h3 ▸ h) e' (acc + l)
        exact ⟨e2, i1, i2.trans h3⟩

theorem optimal_fitLoop (N : Num α) (pick : Nat → Nat → Nat) (X y : Mat α) (n : Nat) (k : Nat) (m : Reg α) (h : m.opts.schedule = "optimal") (e : α) :
    ∃ e', Reg.fitLoop N pick X y n k (m.setLearningRate e) =
      ((Reg.fitLoop N pick X y n k m).1.setLearningRate e', (Reg.fitLoop N pick X y n k m).2) ∧ (Reg.fitLoop N pick X y n k m).1.opts = m.opts := by
  induction n generalizing k m e with
  | zero => exact ⟨e, rfl, rfl⟩
  | succ n ih =>
    unfold Reg.fitLoop
    obtain ⟨e', h1, h2⟩ := optimal_trainRows N X y (epochOrder m.opts (pick k) X.r) m h e 0
    have ho : (m.setLearningRate e).opts = m.opts := rfl
    rw [ho, h1]
    generalize Reg.trainRows N X y (epochOrder m.opts (pick k) X.r) m 0 = r at h2 ⊢
    obtain ⟨m', l, b⟩ := r
    dsimp only at h2 ⊢
    cases b with
    | true => exact ⟨e', rfl, h2⟩
    | false =>
      dsimp only [Reg.setLearningRate]
      split
      · exact ⟨e', rfl, h2⟩
      · obtain ⟨e2, i1, i2⟩ := ih (k + 1) { m' with hist := m'.hist ++ [l / N.ofNat X.r], nIter := m'.nIter + 1 } (by rw [h2]; exact h) e'
        exact ⟨e2, i1, i2.trans h2⟩

theorem optimal_begin (init : Nat → List α) (c : Nat) (m : Reg α) (e : α) :
    (m.setLearningRate e).begin init c = (m.begin init c).setLearningRate e ∧ (m.begin init c).opts = m.opts := by
  unfold Reg.begin
  simp only [Reg.setLearningRate]
  cases hc : m.coef <;> simp [hc]

theorem optimal_ensure (init : Nat → List α) (c : Nat) (m : Reg α) (e : α) :
    (m.setLearningRate e).ensureCoef init c = (m.ensureCoef init c).setLearningRate e ∧ (m.ensureCoef init c).opts = m.opts := by
  unfold Reg.ensureCoef
  simp only [Reg.setLearningRate]
  cases hc : m.coef <;> simp [hc]

theorem optimal_call (N : Num α) (c : RegCall α) (m : Reg α) (h : m.opts.schedule = "optimal") (e : α) :
    ∃ e', (m.setLearningRate e).call N c = ((m.call N c).1.setLearningRate e', (m.call N c).2) ∧ (m.call N c).1.opts = m.opts := by
  cases c with
  | fit init pick X y =>
    unfold Reg.call Reg.fit
    dsimp only
    have hb : (m.setLearningRate e).fitBegin init X.c = (m.fitBegin init X.c).setLearningRate e ∧ (m.fitBegin init X.c).opts = m.opts := by
      have hi : (if (m.setLearningRate e).opts.warmStart ∧ (m.setLearningRate e).coef.isSome then m.setLearningRate e else (m.setLearningRate e).reset)
          = (if m.opts.warmStart ∧ m.coef.isSome then m else m.reset).setLearningRate e := by
        by_cases hc : m.opts.warmStart ∧ m.coef.isSome
        · rw [if_pos hc]; exact if_pos hc
        · rw [if_neg hc]; exact if_neg hc
      have hj : (if m.opts.warmStart ∧ m.coef.isSome then m else m.reset).opts = m.opts := by split <;> rfl
      unfold Reg.fitBegin
      rw [hi]
      obtain ⟨b1, b2⟩ := optimal_ensure init X.c { (if m.opts.warmStart ∧ m.coef.isSome then m else m.reset) with nFeatures := X.c } e
      exact ⟨b1, b2.trans hj⟩
    obtain ⟨e', h1, h2⟩ := optimal_fitLoop N pick X y m.opts.maxIter 0 (m.fitBegin init X.c) (by rw [hb.2]; exact h) e
    have ho : (m.setLearningRate e).opts = m.opts := rfl
    rw [ho, hb.1, h1]
    rw [hb.2] at h2
    generalize Reg.fitLoop N pick X y m.opts.maxIter 0 (m.fitBegin init X.c) = r at h2 ⊢
    obtain ⟨m', b⟩ := r
    cases b with
    | true => exact ⟨e', rfl, h2⟩
    | false => exact ⟨e', rfl, h2⟩
  | partialFit init X y =>
    unfold Reg.call Reg.partialFit
    dsimp only
    have hb := optimal_begin init X.c m e
    rw [hb.1]
    have hnf : ((m.begin init X.c).setLearningRate e).nFeatures = (m.begin init X.c).nFeatures := rfl
    rw [hnf]
    split
    · exact ⟨e, rfl, hb.2⟩
    · obtain ⟨e', h1, h2⟩ := optimal_trainRows N X y (List.range X.r) (m.begin init X.c) (by rw [hb.2]; exact h) e 0
      rw [h1]
      rw [hb.2] at h2
      generalize Reg.trainRows N X y (List.range X.r) (m.begin init X.c) 0 = r at h2 ⊢
      obtain ⟨m', l, b⟩ := r
      cases b with
      | true => exact ⟨e', rfl, h2⟩
      | false => exact ⟨e', rfl, h2⟩

/-- **C291** (negation, the regressor): with the schedule "optimal" `SetLearningRate` has no effect. The rate reported is the same, and after any history of
`Fit` and `PartialFit` calls so are the outcomes, the weights, the intercept, the losses and the rate. -/
theorem optimal_ignores_rate (N : Num α) (cs : List (RegCall α)) (m : Reg α) (h : m.opts.schedule = "optimal") (lr : α) :
    let a := Reg.run N cs m
    let b := Reg.run N cs (m.setLearningRate lr)
    b.2 = a.2 ∧ b.1.coef = a.1.coef ∧ b.1.intercept = a.1.intercept ∧ b.1.hist = a.1.hist ∧ b.1.getLearningRate N = a.1.getLearningRate N := by
  have key : ∃ e', Reg.run N cs (m.setLearningRate lr) = ((Reg.run N cs m).1.setLearningRate e', (Reg.run N cs m).2) ∧ (Reg.run N cs m).1.opts = m.opts := by
    induction cs generalizing m lr with
    | nil => exact ⟨lr, rfl, rfl⟩
    | cons c cs ih =>
      unfold Reg.run
      obtain ⟨e', h1, h2⟩ := optimal_call N c m h lr
      rw [h1]
      obtain ⟨e2, i1, i2⟩ := ih (m.call N c).1 (by rw [h2]; exact h) e'
      dsimp only
      rw [i1]
      exact ⟨e2, rfl, i2.trans h2⟩
  obtain ⟨e', h1, h2⟩ := key
  dsimp only
  rw [h1]
  refine ⟨rfl, rfl, rfl, rfl, ?_⟩
  simp [Reg.getLearningRate, Reg.setLearningRate, learningRate, h2, h]

/-! ## The classifier -/

theorem clf_optimal_update (N : Num α) (m : Clf α) (h : m.opts.schedule = "optimal") (e : α) (x : List α) (y : Int) :
    (m.setLearningRate e).updateWeights N x y = (m.updateWeights N x y).map (fun r => (r.1.setLearningRate e, r.2)) ∧
      ∀ r, m.updateWeights N x y = some r → r.1.opts = m.opts := by
  unfold Clf.updateWeights
  simp only [Clf.setLearningRate]
  cases m.classes.idxOf? y with
  | none => exact ⟨rfl, by rintro r ⟨⟩; rfl⟩
  | some k =>
    dsimp only
    by_cases hc : ((m.coef.getD []).any (fun w => decide (w.length < x.length))) = true
    · rw [if_pos hc]
      exact ⟨if_pos hc, by intro r hr; simp at hr⟩
    · rw [if_neg hc]
      refine ⟨(if_neg hc).trans ?_, by intro r hr; simp only [Option.some.injEq] at hr; rw [← hr]⟩
      simp [learningRate, h]

theorem clf_optimal_trainRows (N : Num α) (toInt : α → Int) (X y : Mat α) (is : List Nat) (m : Clf α) (h : m.opts.schedule = "optimal") (e acc : α) :
    (m.setLearningRate e).trainRows N toInt X y is acc =
      ((m.trainRows N toInt X y is acc).1.setLearningRate e, (m.trainRows N toInt X y is acc).2) ∧ (m.trainRows N toInt X y is acc).1.opts = m.opts := by
  induction is generalizing m acc with
  | nil => exact ⟨rfl, rfl⟩
  | cons i is ih =>
    unfold Clf.trainRows
    cases labelAt y i with
    | none => exact ⟨rfl, rfl⟩
    | some yi =>
      dsimp only
      obtain ⟨h1, h2⟩ := clf_optimal_update N m h e (X.row i) (toInt yi)
      rw [h1]
      cases hu : m.updateWeights N (X.row i) (toInt yi) with
      | none => exact ⟨rfl, rfl⟩
      | some r =>
        have h3 := h2 r hu
        obtain ⟨i1, i2⟩ := ih r.1 (h3 ▸ h) (acc + r.2)
        exact ⟨i1, i2.trans h3⟩

theorem clf_optimal_fitLoop (N : Num α) (toInt : α → Int) (pick : Nat → Nat → Nat) (X y : Mat α) (n : Nat) (k : Nat) (m : Clf α)
    (h : m.opts.schedule = "optimal") (e : α) :
    Clf.fitLoop N toInt pick X y n k (m.setLearningRate e) =
      ((Clf.fitLoop N toInt pick X y n k m).1.setLearningRate e, (Clf.fitLoop N toInt pick X y n k m).2) ∧
      (Clf.fitLoop N toInt pick X y n k m).1.opts = m.opts := by
  induction n generalizing k m with
  | zero => exact ⟨rfl, rfl⟩
  | succ n ih =>
    unfold Clf.fitLoop
    obtain ⟨h1, h2⟩ := clf_optimal_trainRows N toInt X y (epochOrder m.opts (pick k) X.r) m h e 0
    have ho : (m.setLearningRate e).opts = m.opts := rfl
    rw [ho, h1]
    generalize Clf.trainRows N toInt X y (epochOrder m.opts (pick k) X.r) m 0 = r at h2 ⊢
    obtain ⟨m', l, b⟩ := r
    dsimp only at h2 ⊢
    cases b with
    | true => exact ⟨rfl, h2⟩
    | false =>
      dsimp only [Clf.setLearningRate]
      split
      · exact ⟨rfl, h2⟩
      · obtain ⟨i1, i2⟩ := ih (k + 1) { m' with hist := m'.hist ++ [l / N.ofNat X.r], nIter := m'.nIter + 1 } (by rw [h2]; exact h)
        exact ⟨i1, i2.trans h2⟩

theorem clf_optimal_begin (toInt : α → Int) (iter : List Int → List Int) (init : Nat → Nat → List (List α)) (X y : Mat α) (cs : Option (List Int)) (m : Clf α)
    (e : α) : (m.setLearningRate e).begin toInt iter init X y cs = (m.begin toInt iter init X y cs).setLearningRate e ∧
      (m.begin toInt iter init X y cs).opts = m.opts := by
  unfold Clf.begin
  simp only [Clf.setLearningRate]
  cases hc : m.coef <;> simp [hc]

theorem clf_optimal_call (N : Num α) (toInt : α → Int) (iter : List Int → List Int) (c : ClfCall α) (m : Clf α) (h : m.opts.schedule = "optimal") (e : α) :
    (m.setLearningRate e).call N toInt iter c = ((m.call N toInt iter c).1.setLearningRate e, (m.call N toInt iter c).2) ∧
      (m.call N toInt iter c).1.opts = m.opts := by
  cases c with
  | fit init pick X y =>
    unfold Clf.call Clf.fit
    dsimp only
    have hb : (m.setLearningRate e).fitBegin toInt iter init X y = (m.fitBegin toInt iter init X y).setLearningRate e ∧
        (m.fitBegin toInt iter init X y).opts = m.opts := by
      have hi : (if (m.setLearningRate e).opts.warmStart ∧ (m.setLearningRate e).coef.isSome then m.setLearningRate e else (m.setLearningRate e).reset)
          = (if m.opts.warmStart ∧ m.coef.isSome then m else m.reset).setLearningRate e := by
        by_cases hc : m.opts.warmStart ∧ m.coef.isSome
        · rw [if_pos hc]; exact if_pos hc
        · rw [if_neg hc]; exact if_neg hc
      have hj : (if m.opts.warmStart ∧ m.coef.isSome then m else m.reset).opts = m.opts := by split <;> rfl
      unfold Clf.fitBegin
      rw [hi]
      obtain ⟨b1, b2⟩ := clf_optimal_begin toInt iter init X y none (if m.opts.warmStart ∧ m.coef.isSome then m else m.reset) e
      rw [b1]
      exact ⟨rfl, b2.trans hj⟩
    obtain ⟨h1, h2⟩ := clf_optimal_fitLoop N toInt pick X y m.opts.maxIter 0 (m.fitBegin toInt iter init X y) (by rw [hb.2]; exact h) e
    have ho : (m.setLearningRate e).opts = m.opts := rfl
    rw [ho, hb.1, h1]
    rw [hb.2] at h2
    generalize Clf.fitLoop N toInt pick X y m.opts.maxIter 0 (m.fitBegin toInt iter init X y) = r at h2 ⊢
    obtain ⟨m', b⟩ := r
    cases b with
    | true => exact ⟨rfl, h2⟩
    | false => exact ⟨rfl, h2⟩
  | partialFit init X y cs =>
    unfold Clf.call Clf.partialFit
    dsimp only
    have hb := clf_optimal_begin toInt iter init X y cs m e
    rw [hb.1]
    have hnf : ((m.begin toInt iter init X y cs).setLearningRate e).nFeatures = (m.begin toInt iter init X y cs).nFeatures := rfl
    rw [hnf]
    split
    · exact ⟨rfl, hb.2⟩
    · obtain ⟨h1, h2⟩ := clf_optimal_trainRows N toInt X y (List.range X.r) (m.begin toInt iter init X y cs) (by rw [hb.2]; exact h) e 0
      rw [h1]
      rw [hb.2] at h2
      generalize Clf.trainRows N toInt X y (List.range X.r) (m.begin toInt iter init X y cs) 0 = r at h2 ⊢
      obtain ⟨m', l, b⟩ := r
      cases b with
      | true => exact ⟨rfl, h2⟩
      | false => exact ⟨rfl, h2⟩

/-- **C291** (negation, the classifier, whose default schedule is "optimal"): `SetLearningRate` has no effect on any history of training calls, nor on the rate
reported. -/
theorem clf_optimal_ignores_rate (N : Num α) (toInt : α → Int) (iter : List Int → List Int) (cs : List (ClfCall α)) (m : Clf α)
    (h : m.opts.schedule = "optimal") (lr : α) :
    let a := Clf.run N toInt iter cs m
    let b := Clf.run N toInt iter cs (m.setLearningRate lr)
    b.2 = a.2 ∧ b.1.coef = a.1.coef ∧ b.1.intercept = a.1.intercept ∧ b.1.classes = a.1.classes ∧ b.1.hist = a.1.hist ∧
      b.1.getLearningRate N = a.1.getLearningRate N := by
  have key : Clf.run N toInt iter cs (m.setLearningRate lr) = ((Clf.run N toInt iter cs m).1.setLearningRate lr, (Clf.run N toInt iter cs m).2) ∧
      (Clf.run N toInt iter cs m).1.opts = m.opts := by
    induction cs generalizing m with
    | nil => exact ⟨rfl, rfl⟩
    | cons c cs ih =>
      unfold Clf.run
      obtain ⟨h1, h2⟩ := clf_optimal_call N toInt iter c m h lr
      rw [h1]
      obtain ⟨i1, i2⟩ := ih (m.call N toInt iter c).1 (by rw [h2]; exact h)
      dsimp only
      rw [i1]
      exact ⟨rfl, i2.trans h2⟩
  obtain ⟨h1, h2⟩ := key
  dsimp only
  rw [h1]
  refine ⟨rfl, rfl, rfl, rfl, rfl, ?_⟩
  simp [Clf.getLearningRate, Clf.setLearningRate, learningRate, h2, h]

end

/-! ## Witnesses -/

/-- a regressor with the schedule "optimal" and a fixed start (`sklearn/linear_model/sgd_regressor.go:60-90`) -/
def qRate (schedule : String) : Reg ℚ :=
  ⟨⟨"squared_error", "l2", schedule, 1 / 10, 0, 1 / 10, 1 / 4, 1 / 1000, true, false, false, 2⟩, 1 / 100, none, 0, 0, 0, 0, [], false, false⟩

/-- the witness of the negation: the rate 1/2 is set, the rate 10 is reported -/
theorem optimal_reports_other_rate : ((qRate "optimal").setLearningRate (1 / 2)).getLearningRate qNum = 10 := by
  decide +kernel

example : ((qRate "constant").setLearningRate (1 / 2)).getLearningRate qNum = 1 / 2 :=
  ((set_rate_partial qNum "constant" (1 / 2) (qRate "optimal") ⟨(qRate "optimal").opts, 1, none, [], [], 0, 0, 0, [], false, false⟩).2.2.1
    (by decide) (by decide) (by decide)).1

example : (Reg.run qNum [.partialFit (fun n => List.replicate n 0) qX1 qy, .fit (fun n => List.replicate n 0) (fun _ _ => 0) qX1 qy]
      ((qRate "optimal").setLearningRate 5)).1.coef
    = (Reg.run qNum [.partialFit (fun n => List.replicate n 0) qX1 qy, .fit (fun n => List.replicate n 0) (fun _ _ => 0) qX1 qy] (qRate "optimal")).1.coef :=
  (optimal_ignores_rate qNum _ (qRate "optimal") rfl 5).2.1

example : ∃ m' l, ({ qRate "constant" with coef := some [1] } : Reg ℚ).updateWeights qNum [2] 1 = some (m', l) ∧ m'.intercept = 0 - 1 / 100 * 1 := by
  obtain ⟨m', l, h1, h2, -⟩ := step_uses_reported_rate qNum ({ qRate "constant" with coef := some [1] } : Reg ℚ) [1] [2] 1 rfl rfl rfl
  refine ⟨m', l, h1, (h2 rfl).trans ?_⟩
  decide +kernel

end Scigo.Online
