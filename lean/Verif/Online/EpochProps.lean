import Verif.Online.FitProps

/-!
# C275: the number of iterations the online learners report
-/

set_option linter.unusedSectionVars false

namespace Scigo.Online

section
variable {α : Type _} [Zero α] [One α] [Add α] [Sub α] [Neg α] [Mul α] [Div α] [LT α] [LE α] [DecidableLT α]
  [DecidableLE α] [BEq α]

theorem pa_rows_count (N : Num α) (X y : Mat α) (is : List Nat) (m : PA α) : (PA.trainRows N X y is m).1.nIter = m.nIter := by
  induction is generalizing m with
  | nil => rfl
  | cons i is ih =>
    unfold PA.trainRows
    split
    · rfl
    · rename_i yi _
      have hu : ∀ m', m.updateWeights N (X.row i) yi = some m' → m'.nIter = m.nIter := by
        intro m' h
        unfold PA.updateWeights at h
        dsimp only at h
        split at h
        · cases h
        · split at h <;> (injection h with h; rw [← h])
      split
      · rfl
      · rename_i m' h
        rw [ih, hu m' h]

theorem paClf_rows_count (N : Num α) (toInt : α → Int) (X y : Mat α) (is : List Nat) (m : PAClf α) :
    (PAClf.trainRows N toInt X y is m).1.nIter = m.nIter := by
  induction is generalizing m with
  | nil => rfl
  | cons i is ih =>
    unfold PAClf.trainRows
    split
    · rfl
    · rename_i yi _
      have hu : ∀ m', m.updateWeights N (X.row i) (toInt yi) = some m' → m'.nIter = m.nIter := by
        intro m' h
        unfold PAClf.updateWeights at h
        split at h
        · injection h with h; rw [← h]
        · dsimp only at h
          split at h
          · cases h
          · injection h with h; rw [← h]
      split
      · rfl
      · rename_i m' h
        rw [ih, hu m' h]

theorem clf_rows_count (N : Num α) (toInt : α → Int) (X y : Mat α) (is : List Nat) (m : Clf α) (acc : α) :
    (Clf.trainRows N toInt X y is m acc).1.nIter = m.nIter ∧ (Clf.trainRows N toInt X y is m acc).1.hist = m.hist ∧
      (Clf.trainRows N toInt X y is m acc).1.opts = m.opts ∧ (Clf.trainRows N toInt X y is m acc).1.converged = m.converged := by
  induction is generalizing m acc with
  | nil => exact ⟨rfl, rfl, rfl, rfl⟩
  | cons i is ih =>
    unfold Clf.trainRows
    split
    · exact ⟨rfl, rfl, rfl, rfl⟩
    · rename_i yi _
      have hu : ∀ m' l, m.updateWeights N (X.row i) (toInt yi) = some (m', l) → m'.nIter = m.nIter ∧ m'.hist = m.hist ∧ m'.opts = m.opts ∧
          m'.converged = m.converged := by
        intro m' l h
        unfold Clf.updateWeights at h
        split at h
        · injection h with h; injection h with h _; rw [← h]; exact ⟨rfl, rfl, rfl, rfl⟩
        · dsimp only at h
          split at h
          · cases h
          · injection h with h; injection h with h _; rw [← h]; exact ⟨rfl, rfl, rfl, rfl⟩
      split
      · exact ⟨rfl, rfl, rfl, rfl⟩
      · rename_i m' l h
        obtain ⟨a, b, c, d⟩ := hu m' l h
        obtain ⟨a', b', c', d'⟩ := ih m' (acc + l)
        exact ⟨a'.trans a, b'.trans b, c'.trans c, d'.trans d⟩

/-- **C275** (law-free). A successful `Fit` of PassiveAggressiveRegressor makes exactly `maxIter` passes: `NIterations` is `maxIter`, plus the passes made before
if it is warm started from weights. -/
theorem pa_iterations (N : Num α) (m : PA α) (X y : Mat α) (h : (m.fit N X y).2 = .ok ()) :
    (m.fit N X y).1.nIter = (if m.warmStart = true ∧ m.coef.isSome = true then m.nIter else 0) + m.maxIter := by
  have he : ∀ (n : Nat) (m : PA α), (PA.epochs N X y n m).2 = false → (PA.epochs N X y n m).1.nIter = m.nIter + n := by
    intro n
    induction n with
    | zero => intro m _; rfl
    | succ n ih =>
      intro m hok
      unfold PA.epochs at hok ⊢
      have hc := pa_rows_count N X y (List.range X.r) m
      rcases hr : PA.trainRows N X y (List.range X.r) m with ⟨m', _ | _⟩
      · rw [hr] at hok hc
        dsimp only at hok hc ⊢
        rw [ih _ hok]
        dsimp only
        omega
      · rw [hr] at hok
        cases hok
  have hb : (m.fitBegin X.c).nIter = if m.warmStart = true ∧ m.coef.isSome = true then m.nIter else 0 := by
    unfold PA.fitBegin PA.begin
    dsimp only
    split_ifs
    · split <;> rfl
    · rfl
  unfold PA.fit at h ⊢
  rcases hr : PA.epochs N X y m.maxIter (m.fitBegin X.c) with ⟨m', _ | _⟩
  · have := he m.maxIter (m.fitBegin X.c) (by rw [hr])
    rw [hr, hb] at this
    exact this
  · rw [hr] at h
    cases h

/-- **C275** (law-free). The same for PassiveAggressiveClassifier. -/
theorem paClf_iterations (N : Num α) (toInt : α → Int) (iter : List Int → List Int) (m : PAClf α) (X y : Mat α) (h : (m.fit N toInt iter X y).2 = .ok ()) :
    (m.fit N toInt iter X y).1.nIter = (if m.warmStart = true ∧ m.coef.isSome = true then m.nIter else 0) + m.maxIter := by
  have he : ∀ (n : Nat) (m : PAClf α), (PAClf.epochs N toInt X y n m).2 = false → (PAClf.epochs N toInt X y n m).1.nIter = m.nIter + n := by
    intro n
    induction n with
    | zero => intro m _; rfl
    | succ n ih =>
      intro m hok
      unfold PAClf.epochs at hok ⊢
      have hc := paClf_rows_count N toInt X y (List.range X.r) m
      rcases hr : PAClf.trainRows N toInt X y (List.range X.r) m with ⟨m', _ | _⟩
      · rw [hr] at hok hc
        dsimp only at hok hc ⊢
        rw [ih _ hok]
        dsimp only
        omega
      · rw [hr] at hok
        cases hok
  have hb : (m.fitBegin toInt iter X y).nIter = if m.warmStart = true ∧ m.coef.isSome = true then m.nIter else 0 := by
    unfold PAClf.fitBegin PAClf.begin
    dsimp only
    split_ifs
    · split <;> rfl
    · rfl
  unfold PAClf.fit at h ⊢
  rcases hr : PAClf.epochs N toInt X y m.maxIter (m.fitBegin toInt iter X y) with ⟨m', _ | _⟩
  · have := he m.maxIter (m.fitBegin toInt iter X y) (by rw [hr])
    rw [hr, hb] at this
    exact this
  · rw [hr] at h
    cases h

/-- **C275** is false of the code as a common rule: `PartialFit` counts as an iteration for SGDRegressor only; the three other estimators report the count of the
last `Fit`. -/
theorem partial_fit_counts (N : Num α) (toInt : α → Int) (iter : List Int → List Int) (X y : Mat α) (cs : Option (List Int)) :
    (∀ (init : Nat → List α) (m : Reg α), (m.partialFit N init X y).2 = .ok () → (m.partialFit N init X y).1.nIter = m.nIter + 1) ∧
    (∀ (init : Nat → Nat → List (List α)) (m : Clf α), (m.partialFit N toInt iter init X y cs).1.nIter = m.nIter) ∧
    (∀ m : PA α, (m.partialFit N X y).1.nIter = m.nIter) ∧
    (∀ m : PAClf α, (m.partialFit N toInt iter X y cs).1.nIter = m.nIter) := by
  refine ⟨fun init m h => ?_, fun init m => ?_, fun m => ?_, fun m => ?_⟩
  · have hrow : ∀ (is : List Nat) (m : Reg α) (acc : α), (m.trainRows N X y is acc).1.nIter = m.nIter := by
      intro is
      induction is with
      | nil => intro m acc; rfl
      | cons i is ih =>
        intro m acc
        unfold Reg.trainRows
        split
        · rfl
        · rename_i yi _
          have hu : ∀ m' l, m.updateWeights N (X.row i) yi = some (m', l) → m'.nIter = m.nIter := by
            intro m' l h
            unfold Reg.updateWeights at h
            dsimp only at h
            split at h
            · cases h
            · split at h <;> (injection h with h; injection h with h _; rw [← h])
          split
          · rfl
          · rename_i m' l h
            rw [ih, hu m' l h]
    have hb : (m.begin init X.c).nIter = m.nIter := by
      unfold Reg.begin
      split <;> rfl
    unfold Reg.partialFit at h ⊢
    dsimp only at h ⊢
    split at h
    · cases h
    · rename_i hc
      rw [if_neg hc]
      have := hrow (List.range X.r) (m.begin init X.c) 0
      rcases hr : (m.begin init X.c).trainRows N X y (List.range X.r) 0 with ⟨m', l, _ | _⟩
      · rw [hr] at this
        dsimp only at this ⊢
        omega
      · rw [hr] at h
        cases h
  · have hb : (m.begin toInt iter init X y cs).nIter = m.nIter := by
      unfold Clf.begin
      split <;> rfl
    unfold Clf.partialFit
    dsimp only
    split
    · exact hb
    · have := (clf_rows_count N toInt X y (List.range X.r) (m.begin toInt iter init X y cs) 0).1
      rcases hr : Clf.trainRows N toInt X y (List.range X.r) (m.begin toInt iter init X y cs) 0 with ⟨m', l, _ | _⟩ <;> rw [hr] at this <;>
        exact this.trans hb
  · have hb : (m.begin X.c).nIter = m.nIter := by
      unfold PA.begin
      split <;> rfl
    unfold PA.partialFit
    dsimp only
    split
    · exact hb
    · have := pa_rows_count N X y (List.range X.r) (m.begin X.c)
      rcases hr : PA.trainRows N X y (List.range X.r) (m.begin X.c) with ⟨m', _ | _⟩ <;> rw [hr] at this <;> exact this.trans hb
  · have hb : (m.begin toInt iter X y cs).nIter = m.nIter := by
      unfold PAClf.begin
      split <;> rfl
    unfold PAClf.partialFit
    dsimp only
    split
    · exact hb
    · have := paClf_rows_count N toInt X y (List.range X.r) (m.begin toInt iter X y cs)
      rcases hr : PAClf.trainRows N toInt X y (List.range X.r) (m.begin toInt iter X y cs) with ⟨m', _ | _⟩ <;> rw [hr] at this <;> exact this.trans hb

end

/-- **C275** SGDClassifier: a successful `Fit` without warm start makes `n ≤ maxIter` passes and reports `n`; it records one loss per pass, stops early only when
the last losses are within `tol` of each other, and reports convergence exactly then. -/
theorem clf_iterations (N : Num ℝ) (toInt : ℝ → Int) (iter : List Int → List Int) (init : Nat → Nat → List (List ℝ)) (pick : Nat → Nat → Nat) (m : Clf ℝ)
    (X y : Mat ℝ) (hw : m.opts.warmStart = false) (h : (m.fit N toInt iter init pick X y).2 = .ok ()) :
    ∃ m', m.fit N toInt iter init pick X y = (m', .ok ()) ∧ m'.nIter ≤ m.opts.maxIter ∧ m'.hist.length = m'.nIter ∧
      (m'.nIter < m.opts.maxIter → m'.converged = true) ∧ (m'.converged = true → Plateau m.opts.tol m'.hist) := by
  have he : ∀ (n k : Nat) (m : Clf ℝ), (Clf.fitLoop N toInt pick X y n k m).2 = false → m.converged = false →
      ∃ j ≤ n, (Clf.fitLoop N toInt pick X y n k m).1.nIter = m.nIter + j ∧ (Clf.fitLoop N toInt pick X y n k m).1.hist.length = m.hist.length + j ∧
        (j < n → (Clf.fitLoop N toInt pick X y n k m).1.converged = true) ∧
        ((Clf.fitLoop N toInt pick X y n k m).1.converged = true → Plateau m.opts.tol (Clf.fitLoop N toInt pick X y n k m).1.hist) := by
    intro n
    induction n with
    | zero => intro k m _ hc; exact ⟨0, le_refl _, rfl, rfl, fun h => absurd h (by omega), fun h => absurd (hc.symm.trans h) (by simp)⟩
    | succ n ih =>
      intro k m hok hcv
      unfold Clf.fitLoop at hok ⊢
      obtain ⟨a, b, c, d⟩ := clf_rows_count N toInt X y (epochOrder m.opts (pick k) X.r) m 0
      rcases hr : Clf.trainRows N toInt X y (epochOrder m.opts (pick k) X.r) m 0 with ⟨m', l, _ | _⟩
      · rw [hr] at hok a b c d
        dsimp only at hok a b c d ⊢
        by_cases hcc : checkConvergence m'.opts.tol (m'.hist ++ [l / N.ofNat X.r]) = true
        · rw [if_pos hcc] at hok ⊢
          refine ⟨1, by omega, by dsimp only; omega, by simp [b], fun _ => rfl, fun _ => ?_⟩
          rw [← c]
          exact (checkConvergence_iff _ _).1 hcc
        · rw [if_neg hcc] at hok ⊢
          obtain ⟨j, hj, i1, i2, i3, i4⟩ := ih (k + 1) _ hok (d.trans hcv)
          refine ⟨j + 1, by omega, ?_, ?_, fun hlt => i3 (by omega), fun hc => ?_⟩
          · rw [i1]; dsimp only; omega
          · rw [i2]; simp [b]; omega
          · rw [← c]
            exact i4 hc
      · rw [hr] at hok
        cases hok
  have hb : m.fitBegin toInt iter init X y = { Clf.begin toInt iter init X y none m.reset with nFeatures := X.c } := by
    unfold Clf.fitBegin
    rw [if_neg (by simp [hw])]
  have hb1 : (m.fitBegin toInt iter init X y).nIter = 0 ∧ (m.fitBegin toInt iter init X y).hist = [] ∧ (m.fitBegin toInt iter init X y).converged = false ∧
      (m.fitBegin toInt iter init X y).opts = m.opts := by
    rw [hb]; exact ⟨rfl, rfl, rfl, rfl⟩
  unfold Clf.fit at h ⊢
  rcases hr : Clf.fitLoop N toInt pick X y m.opts.maxIter 0 (m.fitBegin toInt iter init X y) with ⟨m', _ | _⟩
  · obtain ⟨j, hj, i1, i2, i3, i4⟩ := he m.opts.maxIter 0 (m.fitBegin toInt iter init X y) (by rw [hr]) hb1.2.2.1
    rw [hr] at i1 i2 i3 i4
    rw [hb1.1] at i1
    rw [hb1.2.1] at i2
    rw [hb1.2.2.2] at i4
    dsimp only at i1 i2 i3 i4 ⊢
    simp only [List.length_nil] at i2
    exact ⟨_, rfl, by dsimp only; omega, by dsimp only; omega, fun h => i3 (by dsimp only at h; omega), i4⟩
  · rw [hr] at h
    cases h

/-- a classifier and data for the examples -/
private def exPA : PAClf ℚ := ⟨1, "hinge", true, false, 3, none, [], [], 0, 7, 0, false⟩
private def exN : Num ℚ := ⟨id, abs, fun x _ => x, id, id, fun _ => false, fun n => n, 1 / 2, 1 / 10, 10, 2, 4⟩

example : ((exPA.fit exN (fun x => x.floor) List.dedup (Mat.ofRows [[1], [-1]] 1 0) (Mat.ofRows [[1], [0]] 1 0)).1.nIter = 3) := by decide +kernel

end Scigo.Online
