import Verif.Online.SessionClf

/-!
# Diagnostics of the SGD models: iterations, losses and the convergence flag (C248)
-/

set_option linter.unusedSectionVars false

namespace Scigo.Online

variable {α : Type} [Add α] [Sub α] [Mul α] [Div α] [Neg α] [Zero α] [One α] [LT α] [DecidableLT α] [LE α] [DecidableLE α] [BEq α]

/-! ## Model -/

/-- `GetLoss`; `inf` is `math.Inf(1)` (`sklearn/linear_model/sgd_regressor.go:574-582`) -/
def Reg.getLoss (inf : α) (m : Reg α) : α := if m.hist.length = 0 then inf else m.hist.getD (m.hist.length - 1) inf

/-- `NIterations` (`sklearn/linear_model/sgd_regressor.go:553-557`) -/
def Reg.nIterations (m : Reg α) : Nat := m.nIter

/-- `GetConverged` (`sklearn/linear_model/sgd_regressor.go:595-599`) -/
def Reg.getConverged (m : Reg α) : Bool := m.converged

/-- does `Fit` warn that the maximal number of iterations was reached, given the state at its end? (`sklearn/linear_model/sgd_regressor.go:233-235`) -/
def Reg.warnsNotConverged (m : Reg α) : Bool := !m.converged

/-- `GetLoss`; `inf` is `math.Inf(1)` (`sklearn/linear_model/sgd_classifier.go:642-650`) -/
def Clf.getLoss (inf : α) (m : Clf α) : α := if m.hist.length = 0 then inf else m.hist.getD (m.hist.length - 1) inf

/-- `NIterations` (`sklearn/linear_model/sgd_classifier.go:621-625`) -/
def Clf.nIterations (m : Clf α) : Nat := m.nIter

/-! ## Frames -/

theorem reg_update_frame (N : Num α) (m : Reg α) (x : List α) (y : α) (m' : Reg α) (l : α) (h : m.updateWeights N x y = some (m', l)) :
    m'.hist = m.hist ∧ m'.nIter = m.nIter ∧ m'.converged = m.converged ∧ m'.opts = m.opts := by
  unfold Reg.updateWeights at h
  dsimp only at h
  split at h
  · cases h
  · split at h
    · cases h; exact ⟨rfl, rfl, rfl, rfl⟩
    · cases h; exact ⟨rfl, rfl, rfl, rfl⟩

theorem reg_rows_frame (N : Num α) (X y : Mat α) (is : List Nat) (m : Reg α) (acc : α) :
    (m.trainRows N X y is acc).1.hist = m.hist ∧ (m.trainRows N X y is acc).1.nIter = m.nIter ∧
    (m.trainRows N X y is acc).1.converged = m.converged ∧ (m.trainRows N X y is acc).1.opts = m.opts := by
  induction is generalizing m acc with
  | nil => exact ⟨rfl, rfl, rfl, rfl⟩
  | cons i is ih =>
    simp only [Reg.trainRows]
    cases labelAt y i with
    | none => exact ⟨rfl, rfl, rfl, rfl⟩
    | some yi =>
      dsimp only
      cases hu : m.updateWeights N (X.row i) yi with
      | none => exact ⟨rfl, rfl, rfl, rfl⟩
      | some r =>
        obtain ⟨m', l⟩ := r
        dsimp only
        obtain ⟨a1, a2, a3, a4⟩ := reg_update_frame N m _ _ m' l hu
        obtain ⟨b1, b2, b3, b4⟩ := ih m' (acc + l)
        exact ⟨b1.trans a1, b2.trans a2, b3.trans a3, b4.trans a4⟩

theorem reg_loop_diag (N : Num α) (pick : Nat → Nat → Nat) (X y : Mat α) (n k : Nat) (m : Reg α) :
    ∃ ls : List α, (Reg.fitLoop N pick X y n k m).1.hist = m.hist ++ ls ∧ ls.length ≤ n ∧
      (Reg.fitLoop N pick X y n k m).1.nIter = m.nIter + ls.length ∧
      (m.converged = true → (Reg.fitLoop N pick X y n k m).1.converged = true) ∧
      ((Reg.fitLoop N pick X y n k m).1.converged = true → m.converged = true ∨
        checkConvergence m.opts.tol (m.hist ++ ls) = true) ∧
      ((Reg.fitLoop N pick X y n k m).2 = false → ls.length = n ∨ (Reg.fitLoop N pick X y n k m).1.converged = true) := by
  induction n generalizing k m with
  | zero => exact ⟨[], by simp [Reg.fitLoop], by simp, by simp [Reg.fitLoop], fun h => h, fun h => Or.inl h, fun _ => Or.inl rfl⟩
  | succ n ih =>
    obtain ⟨a1, a2, a3, a4⟩ := reg_rows_frame N X y (epochOrder m.opts (pick k) X.r) m 0
    simp only [Reg.fitLoop]
    rcases e : m.trainRows N X y (epochOrder m.opts (pick k) X.r) 0 with ⟨m', l, _ | _⟩
    · rw [e] at a1 a2 a3 a4
      dsimp only at a1 a2 a3 a4 ⊢
      split
      · next hc =>
        refine ⟨[l / N.ofNat X.r], by simp only [a1], by simp, by simp [a2], fun _ => rfl, fun _ => ?_, fun _ => Or.inr rfl⟩
        rw [a1, a4] at hc; exact Or.inr hc
      · next hc =>
        obtain ⟨ls, b1, b2, b3, b4, b5, b6⟩ := ih (k + 1) { m' with hist := m'.hist ++ [l / N.ofNat X.r], nIter := m'.nIter + 1 }
        dsimp only at b1 b2 b3 b4 b5 b6
        refine ⟨(l / N.ofNat X.r) :: ls, by rw [b1, a1]; simp, by simp; omega, by rw [b3, a2]; simp; omega, ?_, ?_, ?_⟩
        · intro hm; exact b4 (by rw [a3]; exact hm)
        · intro hm
          rcases b5 hm with h | h
          · left; rw [a3] at h; exact h
          · right; rw [a1, a4] at h; simpa using h
        · intro hm
          rcases b6 hm with h | h
          · left; simp [h]
          · right; exact h
    · rw [e] at a1 a2 a3 a4
      exact ⟨[], by simpa using a1, by simp, by simpa using a2, fun h => a3.trans h, fun h => Or.inl (a3.symm.trans h), fun h => by cases h⟩

theorem reg_fitBegin_diag (init : Nat → List α) (m : Reg α) (cols : Nat) :
    (m.fitBegin init cols).opts = m.opts ∧
    (m.opts.warmStart = true ∧ m.coef.isSome = true → (m.fitBegin init cols).hist = m.hist ∧ (m.fitBegin init cols).nIter = m.nIter ∧
      (m.fitBegin init cols).converged = m.converged) ∧
    (¬ (m.opts.warmStart = true ∧ m.coef.isSome = true) → (m.fitBegin init cols).hist = [] ∧ (m.fitBegin init cols).nIter = 0 ∧
      (m.fitBegin init cols).converged = false) := by
  unfold Reg.fitBegin Reg.ensureCoef
  by_cases h : m.opts.warmStart = true ∧ m.coef.isSome = true
  · rw [if_pos h]
    refine ⟨?_, fun _ => ?_, fun h' => absurd h h'⟩
    · dsimp only; split <;> rfl
    · dsimp only; split <;> exact ⟨rfl, rfl, rfl⟩
  · rw [if_neg h]
    refine ⟨?_, fun h' => absurd h' h, fun _ => ?_⟩
    · dsimp only; split <;> rfl
    · dsimp only; split <;> exact ⟨rfl, rfl, rfl⟩

theorem reg_begin_diag (init : Nat → List α) (m : Reg α) (cols : Nat) :
    (m.begin init cols).hist = m.hist ∧ (m.begin init cols).nIter = m.nIter ∧ (m.begin init cols).converged = m.converged ∧ (m.begin init cols).opts = m.opts := by
  unfold Reg.begin
  cases m.coef <;> exact ⟨rfl, rfl, rfl, rfl⟩

/-! ## SGDRegressor -/

/-- **C248** (law-free), every history of training calls and setters, failing calls included: `NIterations` is the number of losses in
`GetLossHistory`, and `GetLoss` is the last of them, or infinity if there is none. -/
theorem reg_iterations_losses (N : Num α) (inf : α) (m : Reg α) (h : RegState N m) :
    m.nIterations = m.hist.length ∧ m.getLoss inf = m.hist.getLast?.getD inf := by
  constructor
  · unfold Reg.nIterations
    induction h with
    | new o eta0 => rfl
    | @fit m h init hinit pick X y hw ih =>
      obtain ⟨ls, e1, -, e3, -⟩ := reg_loop_diag N pick X y m.opts.maxIter 0 (m.fitBegin init X.c)
      obtain ⟨-, f1, f2⟩ := reg_fitBegin_diag init m X.c
      have key : (Reg.fitLoop N pick X y m.opts.maxIter 0 (m.fitBegin init X.c)).1.nIter =
          (Reg.fitLoop N pick X y m.opts.maxIter 0 (m.fitBegin init X.c)).1.hist.length := by
        rw [e3, e1, List.length_append]
        by_cases hc : m.opts.warmStart = true ∧ m.coef.isSome = true
        · rw [(f1 hc).1, (f1 hc).2.1, ih]
        · rw [(f2 hc).1, (f2 hc).2.1]; simp
      unfold Reg.fit
      rcases e : Reg.fitLoop N pick X y m.opts.maxIter 0 (m.fitBegin init X.c) with ⟨m', _ | _⟩
      · rw [e] at key; exact key
      · rw [e] at key; exact key
    | @partialFit m h init hinit X y ih =>
      obtain ⟨f1, f2, -, -⟩ := reg_begin_diag init m X.c
      unfold Reg.partialFit
      dsimp only
      split
      · rw [f1, f2]; exact ih
      · obtain ⟨a1, a2, -, -⟩ := reg_rows_frame N X y (List.range X.r) (m.begin init X.c) 0
        rcases e : (m.begin init X.c).trainRows N X y (List.range X.r) 0 with ⟨m', l, _ | _⟩
        · rw [e] at a1 a2
          dsimp only at a1 a2 ⊢
          rw [a1, a2, f1, f2, ih]
          simp
        · rw [e] at a1 a2
          dsimp only at a1 a2 ⊢
          rw [a1, a2, f1, f2, ih]
    | setWarmStart h b ih => exact ih
    | setSchedule h s ih => exact ih
    | setLearningRate h lr ih => exact ih
  · unfold Reg.getLoss
    by_cases hz : m.hist.length = 0
    · rw [if_pos hz, List.length_eq_zero_iff.1 hz]; rfl
    · rw [if_neg hz, List.getLast?_eq_getElem?, List.getD_eq_getElem?_getD]

/-- **C248** (law-free), `Fit` from scratch: the history holds one loss per epoch of this call, and `GetConverged` is true only if the
losses of this call have levelled off; if it is false after a successful call, all epochs were run and the warning is given. -/
theorem reg_fit_reports_partial (N : Num α) (init : Nat → List α) (pick : Nat → Nat → Nat) (m m' : Reg α) (X y : Mat α)
    (hw : m.opts.warmStart = false ∨ m.coef = none) (h : m.fit N init pick X y = (m', .ok ())) :
    m'.hist.length ≤ m.opts.maxIter ∧ m'.nIterations = m'.hist.length ∧
    (m'.getConverged = true → checkConvergence m.opts.tol m'.hist = true) ∧
    (m'.getConverged = false → m'.warnsNotConverged = true ∧ m'.hist.length = m.opts.maxIter) := by
  have hc : ¬ (m.opts.warmStart = true ∧ m.coef.isSome = true) := by
    rintro ⟨h1, h2⟩
    rcases hw with hw | hw
    · rw [hw] at h1; cases h1
    · rw [hw] at h2; cases h2
  obtain ⟨ls, e1, e2, e3, -, e5, e6⟩ := reg_loop_diag N pick X y m.opts.maxIter 0 (m.fitBegin init X.c)
  obtain ⟨f0, -, f2⟩ := reg_fitBegin_diag init m X.c
  obtain ⟨g1, g2, g3⟩ := f2 hc
  unfold Reg.fit at h
  rcases e : Reg.fitLoop N pick X y m.opts.maxIter 0 (m.fitBegin init X.c) with ⟨a, _ | _⟩
  · rw [e] at h e1 e3 e5 e6
    rw [g1, f0] at e5
    rw [g1] at e1
    rw [g2] at e3
    dsimp only at h e1 e3 e5 e6
    cases h
    simp only [List.nil_append, Nat.zero_add] at e1 e3 e5
    unfold Reg.nIterations Reg.getConverged Reg.warnsNotConverged
    dsimp only
    rw [e1]
    refine ⟨e2, e3, fun hv => ?_, fun hv => ⟨by rw [hv]; rfl, ?_⟩⟩
    · rcases e5 hv with h | h
      · rw [g3] at h; cases h
      · exact h
    · rcases e6 rfl with h | h
      · exact h
      · rw [h] at hv; cases hv
  · rw [e] at h; cases h

/-- **C248** (law-free): training that does not start from scratch (`PartialFit`, and `Fit` with warm start on a model with weights) only
appends to the loss history and never takes the convergence flag back. -/
theorem reg_history_grows (N : Num α) (init : Nat → List α) (pick : Nat → Nat → Nat) (m : Reg α) (X y : Mat α) :
    (∃ ls, (m.partialFit N init X y).1.hist = m.hist ++ ls ∧ ls.length ≤ 1 ∧
      ((m.partialFit N init X y).2 = .ok () → ls.length = 1) ∧ (m.partialFit N init X y).1.converged = m.converged) ∧
    (m.opts.warmStart = true → m.coef.isSome = true → ∃ ls, (m.fit N init pick X y).1.hist = m.hist ++ ls ∧ ls.length ≤ m.opts.maxIter ∧
      (m.converged = true → (m.fit N init pick X y).1.converged = true)) := by
  constructor
  · obtain ⟨f1, f2, f3, -⟩ := reg_begin_diag init m X.c
    unfold Reg.partialFit
    dsimp only
    split
    · exact ⟨[], by simpa using f1, by simp, (nomatch ·), f3⟩
    · obtain ⟨a1, a2, a3, -⟩ := reg_rows_frame N X y (List.range X.r) (m.begin init X.c) 0
      rcases e : (m.begin init X.c).trainRows N X y (List.range X.r) 0 with ⟨m', l, _ | _⟩
      · rw [e] at a1 a2 a3
        exact ⟨[l / N.ofNat X.r], by dsimp only at a1 ⊢; rw [a1, f1], by simp, fun _ => rfl, a3.trans f3⟩
      · rw [e] at a1 a2 a3
        exact ⟨[], by dsimp only at a1 ⊢; rw [a1, f1]; simp, by simp, (nomatch ·), a3.trans f3⟩
  · intro hw hs
    obtain ⟨ls, e1, e2, -, e4, -⟩ := reg_loop_diag N pick X y m.opts.maxIter 0 (m.fitBegin init X.c)
    obtain ⟨-, f1, -⟩ := reg_fitBegin_diag init m X.c
    obtain ⟨g1, -, g3⟩ := f1 ⟨hw, hs⟩
    unfold Reg.fit
    rcases e : Reg.fitLoop N pick X y m.opts.maxIter 0 (m.fitBegin init X.c) with ⟨a, _ | _⟩
    · rw [e] at e1 e4
      exact ⟨ls, by dsimp only at e1 ⊢; rw [e1, g1], e2, fun h => e4 (g3.trans h)⟩
    · rw [e] at e1 e4
      exact ⟨ls, by dsimp only at e1 ⊢; rw [e1, g1], e2, fun h => e4 (g3.trans h)⟩

/-! ## SGDClassifier -/

theorem clf_begin_diag (toInt : α → Int) (iter : List Int → List Int) (init : Nat → Nat → List (List α)) (X y : Mat α) (cs : Option (List Int))
    (m : Clf α) : (Clf.begin toInt iter init X y cs m).hist = m.hist ∧ (Clf.begin toInt iter init X y cs m).nIter = m.nIter := by
  unfold Clf.begin
  cases m.coef <;> exact ⟨rfl, rfl⟩

theorem clf_update_frame (N : Num α) (m : Clf α) (x : List α) (y : Int) (m' : Clf α) (l : α) (h : m.updateWeights N x y = some (m', l)) :
    m'.hist = m.hist ∧ m'.nIter = m.nIter := by
  unfold Clf.updateWeights at h
  dsimp only at h
  split at h
  · cases h; exact ⟨rfl, rfl⟩
  · split at h
    · cases h
    · cases h; exact ⟨rfl, rfl⟩

theorem clf_rows_frame (N : Num α) (toInt : α → Int) (X y : Mat α) (is : List Nat) (m : Clf α) (acc : α) :
    (Clf.trainRows N toInt X y is m acc).1.hist = m.hist ∧ (Clf.trainRows N toInt X y is m acc).1.nIter = m.nIter := by
  induction is generalizing m acc with
  | nil => exact ⟨rfl, rfl⟩
  | cons i is ih =>
    simp only [Clf.trainRows]
    cases labelAt y i with
    | none => exact ⟨rfl, rfl⟩
    | some yi =>
      dsimp only
      cases hu : m.updateWeights N (X.row i) (toInt yi) with
      | none => exact ⟨rfl, rfl⟩
      | some r =>
        obtain ⟨m', l⟩ := r
        dsimp only
        obtain ⟨a1, a2⟩ := clf_update_frame N m _ _ m' l hu
        obtain ⟨b1, b2⟩ := ih m' (acc + l)
        exact ⟨b1.trans a1, b2.trans a2⟩

theorem clf_loop_diag (N : Num α) (toInt : α → Int) (pick : Nat → Nat → Nat) (X y : Mat α) (n k : Nat) (m : Clf α) :
    ∃ ls : List α, (Clf.fitLoop N toInt pick X y n k m).1.hist = m.hist ++ ls ∧
      (Clf.fitLoop N toInt pick X y n k m).1.nIter = m.nIter + ls.length := by
  induction n generalizing k m with
  | zero => exact ⟨[], by simp [Clf.fitLoop]⟩
  | succ n ih =>
    obtain ⟨a1, a2⟩ := clf_rows_frame N toInt X y (epochOrder m.opts (pick k) X.r) m 0
    simp only [Clf.fitLoop]
    rcases e : Clf.trainRows N toInt X y (epochOrder m.opts (pick k) X.r) m 0 with ⟨m', l, _ | _⟩
    · rw [e] at a1 a2
      dsimp only at a1 a2 ⊢
      split
      · exact ⟨[l / N.ofNat X.r], by simp only [a1], by simp [a2]⟩
      · obtain ⟨ls, b1, b3⟩ := ih (k + 1) { m' with hist := m'.hist ++ [l / N.ofNat X.r], nIter := m'.nIter + 1 }
        dsimp only at b1 b3
        exact ⟨(l / N.ofNat X.r) :: ls, by rw [b1, a1]; simp, by rw [b3, a2]; simp; omega⟩
    · rw [e] at a1 a2
      exact ⟨[], by simpa using a1, by simpa using a2⟩

/-- **C248** (law-free), `SGDClassifier`, every history: `GetLoss` is the last loss or infinity; `NIterations` never exceeds the number of
losses. It falls short by one for every successful `PartialFit` (`clf_partialFit_not_counted`). -/
theorem clf_iterations_partial (N : Num α) (toInt : α → Int) (iter : List Int → List Int) (inf : α) (m : Clf α) (h : ClfState N toInt iter m) :
    m.nIterations ≤ m.hist.length ∧ m.getLoss inf = m.hist.getLast?.getD inf := by
  constructor
  · unfold Clf.nIterations
    induction h with
    | new o eta0 => simp
    | @fit m h init hinit pick X y hy hw ih =>
      obtain ⟨ls, e1, e3⟩ := clf_loop_diag N toInt pick X y m.opts.maxIter 0 (m.fitBegin toInt iter init X y)
      have f : (m.fitBegin toInt iter init X y).nIter ≤ (m.fitBegin toInt iter init X y).hist.length := by
        unfold Clf.fitBegin
        dsimp only
        split
        · rw [(clf_begin_diag toInt iter init X y none m).1, (clf_begin_diag toInt iter init X y none m).2]; exact ih
        · rw [(clf_begin_diag toInt iter init X y none m.reset).1, (clf_begin_diag toInt iter init X y none m.reset).2]; exact Nat.le_refl 0
      have key : (Clf.fitLoop N toInt pick X y m.opts.maxIter 0 (m.fitBegin toInt iter init X y)).1.nIter ≤
          (Clf.fitLoop N toInt pick X y m.opts.maxIter 0 (m.fitBegin toInt iter init X y)).1.hist.length := by
        rw [e3, e1, List.length_append]; omega
      unfold Clf.fit
      rcases e : Clf.fitLoop N toInt pick X y m.opts.maxIter 0 (m.fitBegin toInt iter init X y) with ⟨m', _ | _⟩
      · rw [e] at key; exact key
      · rw [e] at key; exact key
    | @partialFit m h init hinit X y hy cs hcs ih =>
      obtain ⟨f1, f2⟩ := clf_begin_diag toInt iter init X y cs m
      unfold Clf.partialFit
      dsimp only
      split
      · rw [f1, f2]; exact ih
      · obtain ⟨a1, a2⟩ := clf_rows_frame N toInt X y (List.range X.r) (Clf.begin toInt iter init X y cs m) 0
        rcases e : Clf.trainRows N toInt X y (List.range X.r) (Clf.begin toInt iter init X y cs m) 0 with ⟨m', l, _ | _⟩
        · rw [e] at a1 a2
          dsimp only at a1 a2 ⊢
          rw [a1, a2, f1, f2]
          simp; omega
        · rw [e] at a1 a2
          dsimp only at a1 a2 ⊢
          rw [a1, a2, f1, f2]; exact ih
    | setWarmStart h b ih => exact ih
    | setSchedule h s ih => exact ih
    | setLearningRate h lr ih => exact ih
  · unfold Clf.getLoss
    by_cases hz : m.hist.length = 0
    · rw [if_pos hz, List.length_eq_zero_iff.1 hz]; rfl
    · rw [if_neg hz, List.getLast?_eq_getElem?, List.getD_eq_getElem?_getD]

/-- **C248** is false for `SGDClassifier`: a successful `PartialFit` adds a loss but no iteration. -/
theorem clf_partialFit_not_counted (N : Num α) (toInt : α → Int) (iter : List Int → List Int) (init : Nat → Nat → List (List α)) (m : Clf α)
    (X y : Mat α) (cs : Option (List Int)) (h : (m.partialFit N toInt iter init X y cs).2 = .ok ()) :
    (m.partialFit N toInt iter init X y cs).1.nIterations = m.nIterations ∧
    (m.partialFit N toInt iter init X y cs).1.hist.length = m.hist.length + 1 := by
  unfold Clf.nIterations
  obtain ⟨f1, f2⟩ := clf_begin_diag toInt iter init X y cs m
  unfold Clf.partialFit at h ⊢
  dsimp only at h ⊢
  split at h
  · cases h
  · next hc =>
    rw [if_neg hc]
    obtain ⟨a1, a2⟩ := clf_rows_frame N toInt X y (List.range X.r) (Clf.begin toInt iter init X y cs m) 0
    rcases e : Clf.trainRows N toInt X y (List.range X.r) (Clf.begin toInt iter init X y cs m) 0 with ⟨m', l, _ | _⟩
    · rw [e] at a1 a2
      dsimp only at a1 a2 ⊢
      rw [a1, a2, f1, f2]
      simp
    · rw [e] at h
      cases h

/-! ## Concrete cases -/

/-- exact rationals; only the arithmetic is used -/
def diagNum : Num Rat := ⟨id, fun v => if v < 0 then -v else v, fun v _ => v, id, id, fun _ => false, fun n => n, 1 / 2, 1 / 10, 10, 2, 4⟩

/-- squared error, constant rate 1/10, six epochs, warm start -/
def diagOpts (warm : Bool) : Opts Rat := ⟨"squared_error", "none", "constant", 0, 0, 0, 0, 1 / 1000, true, false, warm, 6⟩

/-- a new regressor -/
def diagReg : Reg Rat := ⟨diagOpts true, 1 / 10, none, 0, 0, 0, 0, [], false, false⟩

/-- the regressor fitted on one row with value 0 -/
def diagOnce : Reg Rat := (diagReg.fit diagNum (fun c => List.replicate c 0) (fun _ _ => 0) (Mat.ofRows [[0]] 1 0) (Mat.ofRows [[0]] 1 0)).1

/-- ... and then, warm, on one row with value 100 -/
def diagTwice : Reg Rat := (diagOnce.fit diagNum (fun c => List.replicate c 0) (fun _ _ => 0) (Mat.ofRows [[0]] 1 0) (Mat.ofRows [[100]] 1 0)).1

theorem diagTwice_state : RegState diagNum diagTwice := by
  refine .fit (.fit (.new (diagOpts true) (1 / 10)) _ (by simp) _ _ _ (.inr (.inl rfl))) _ (by simp) _ _ _ (.inr (.inr (by decide +kernel)))

example : diagTwice.nIterations = 12 ∧ diagTwice.hist.length = 12 :=
  have h : diagTwice.nIterations = 12 := by decide +kernel
  ⟨h, ((reg_iterations_losses diagNum 0 diagTwice diagTwice_state).1.symm.trans h)⟩

/-- **C248** is false with warm start: after a first `Fit` that converged, a second one that runs all its epochs and whose losses are far
apart still reports convergence, and does not warn. Without the first call it would report that it did not converge. -/
theorem converged_is_stale :
    diagOnce.getConverged = true ∧ diagTwice.getConverged = true ∧ diagTwice.warnsNotConverged = false ∧
    diagTwice.hist.length = diagOnce.hist.length + 6 ∧ checkConvergence (1 / 1000) diagTwice.hist = false ∧
    (diagReg.fit diagNum (fun c => List.replicate c 0) (fun _ _ => 0) (Mat.ofRows [[0]] 1 0) (Mat.ofRows [[100]] 1 0)).1.getConverged = false := by
  decide +kernel

example : ∃ m', diagReg.fit diagNum (fun c => List.replicate c 0) (fun _ _ => 0) (Mat.ofRows [[0]] 1 0) (Mat.ofRows [[100]] 1 0) = (m', .ok ()) ∧
    m'.warnsNotConverged = true ∧ m'.hist.length = 6 := by
  rcases h : diagReg.fit diagNum (fun c => List.replicate c 0) (fun _ _ => 0) (Mat.ofRows [[0]] 1 0) (Mat.ofRows [[100]] 1 0) with ⟨m', o⟩
  have ho : (diagReg.fit diagNum (fun c => List.replicate c 0) (fun _ _ => 0) (Mat.ofRows [[0]] 1 0) (Mat.ofRows [[100]] 1 0)).2 = .ok () := by
    decide +kernel
  rw [h] at ho
  dsimp only at ho
  subst ho
  have hc := converged_is_stale.2.2.2.2.2
  rw [h] at hc
  obtain ⟨h1, h2⟩ := (reg_fit_reports_partial diagNum _ _ diagReg m' _ _ (.inr rfl) h).2.2.2 hc
  exact ⟨m', rfl, h1, h2⟩

/-- a new classifier after one `PartialFit`: one loss, no iteration -/
example : ((⟨diagOpts false, 1 / 10, none, [], [], 0, 0, 0, [], false, false⟩ : Clf Rat).partialFit diagNum (fun v => v.floor) id
      (fun k c => List.replicate k (List.replicate c 0)) (Mat.ofRows [[1], [2]] 1 0) (Mat.ofRows [[0], [1]] 1 0) none).1.nIterations = 0 :=
  (clf_partialFit_not_counted diagNum _ _ _ _ _ _ _ (by decide +kernel)).1

end Scigo.Online
