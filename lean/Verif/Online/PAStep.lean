import Verif.Online.PAProps

/-!
# The step of `PassiveAggressiveClassifier` in closed form, with and without an intercept
-/

namespace Scigo.Online

open Finset

/-- the PA-II step of one class: the hinge loss of the class against the rest, over the squared length of the sample plus
`1/(2C)`, in the direction of the target -/
noncomputable def pa2Step (C t p : ℝ) (x : List ℝ) : ℝ :=
  t * (max 0 (1 - t * p) / (∑ i ∈ range x.length, entry x i ^ 2 + 1 / (2 * C)))

/-- **C45** (classifier, closed form) One sample of a known class moves the weights of every class along the sample by the
PA-II step of that class, and the intercept by the same step exactly if an intercept is fitted. The number of the step is
counted; the classes do not change. -/
theorem paClf_step_partial (m : PAClf ℝ) (W : List (List ℝ)) (x : List ℝ) (label : Int)
    (hc : m.coef = some W) (hW : W.length = m.classes.length)
    (hx : ∀ w ∈ W, w.length = x.length) (k : Nat) (hk : m.classes.idxOf? label = some k) :
    ∃ m' W', m.updateWeights realNum x label = some m' ∧ m'.coef = some W' ∧ m'.classes = m.classes ∧ m'.t = m.t + 1 ∧
      W'.length = W.length ∧ m'.intercept.length = m.classes.length ∧
      ∀ c < m.classes.length,
        (W'.getD c []).length = x.length ∧
        (∀ i < x.length, entry (W'.getD c []) i = entry (W.getD c []) i +
          pa2Step m.C (if c = k then 1 else -1) (lin x.length (entry x) (entry (W.getD c [])) (entry m.intercept c)) x
            * entry x i) ∧
        entry m'.intercept c = entry m.intercept c + if m.fitIntercept then
          pa2Step m.C (if c = k then 1 else -1) (lin x.length (entry x) (entry (W.getD c [])) (entry m.intercept c)) x
          else 0 := by
  have hany : W.any (fun w => decide (w.length < x.length)) = false := by
    rw [List.any_eq_false]
    intro w hw
    rw [hx w hw]; simp
  have htau : ∀ c, paClfTau realNum m.C (target c k) (score (W.getD c []) (m.intercept.getD c 0) x) x =
      pa2Step m.C (if c = k then 1 else -1) (lin x.length (entry x) (entry (W.getD c [])) (entry m.intercept c)) x := by
    intro c
    rw [score_eq, show (target c k : ℝ) = if c = k then 1 else -1 from rfl]
    unfold paClfTau pa2Step
    rw [dotSelf_eq]
    generalize (if c = k then (1 : ℝ) else -1) = σ
    change (if σ * lin x.length (entry x) (entry (W.getD c [])) (entry m.intercept c) < 1 then _ else _) = _
    split_ifs with h
    · rw [max_eq_right (by linarith)]
      simp only [realNum]
      change (1 - σ * lin x.length (entry x) (entry (W.getD c [])) (entry m.intercept c)) / _ * σ = _
      ring
    · rw [max_eq_left (by linarith)]; simp
  unfold PAClf.updateWeights
  simp only [hk, hc, Option.getD_some, hany, Bool.false_eq_true, if_false]
  refine ⟨_, _, rfl, rfl, rfl, rfl, by simp [hW], by simp, fun c hcl => ?_⟩
  have hwl : (W.getD c []).length = x.length := by
    rw [List.getD_eq_getElem _ _ (by omega)]
    exact hx _ (List.getElem_mem _)
  rw [getD_map_range _ _ _ _ hcl, show ∀ (f : Nat → ℝ), entry ((List.range m.classes.length).map f) c = f c from
    fun f => getD_map_range _ _ f _ hcl]
  simp only [htau]
  generalize pa2Step m.C (if c = k then 1 else -1) (lin x.length (entry x) (entry (W.getD c [])) (entry m.intercept c)) x = t
  by_cases ht : t = 0
  · subst ht
    simp only [beq_self_eq_true, if_true, zero_mul, add_zero, ite_self]
    exact ⟨hwl, fun _ _ => trivial, rfl⟩
  · rw [if_neg (fun e => ht (beq_iff_eq.1 e)), if_neg (fun e => ht (beq_iff_eq.1 e))]
    refine ⟨by rw [← hwl]; simp [addScaled], fun i hi => entry_addScaled _ x t hwl.symm i (hwl ▸ hi), ?_⟩
    by_cases hf : m.fitIntercept = true
    · rw [if_pos hf, if_pos hf]; rfl
    · rw [if_neg hf, if_neg hf, add_zero]; rfl

/-- two classes, one feature: a sample of class 7 moves both -/
example : ∃ m' : PAClf ℝ, PAClf.updateWeights realNum
      (⟨1, "hinge", true, false, 1, some [[0], [0]], [0, 0], [3, 7], 1, 0, 0, true⟩ : PAClf ℝ) [1] 7 = some m' ∧
    entry m'.intercept 1 = 2 / 3 ∧ entry m'.intercept 0 = -2 / 3 := by
  obtain ⟨m', W', h1, -, -, -, -, -, h2⟩ := paClf_step_partial
    (⟨1, "hinge", true, false, 1, some [[0], [0]], [0, 0], [3, 7], 1, 0, 0, true⟩ : PAClf ℝ) [[0], [0]] [1] 7 rfl rfl
    (by simp) 1 (by decide)
  refine ⟨m', h1, ?_, ?_⟩
  · rw [(h2 1 (by decide)).2.2]
    simp [pa2Step, lin, entry]; norm_num
  · rw [(h2 0 (by decide)).2.2]
    simp [pa2Step, lin, entry]; norm_num

end Scigo.Online
