import Verif.Online.FitProps
import Mathlib.Analysis.SpecialFunctions.Log.Deriv
import Mathlib.Analysis.Calculus.LocalExtr.Basic

/-!
# Properties of SGDClassifier (C86, C87)
-/

set_option linter.unusedSectionVars false

namespace Scigo.Online

open Finset

/-! ## C86: the step -/

/-- the loss names other than the logistic one, or a margin that is not negative: the cases in which
the derivative used by the code is right -/
def LossOk (loss : String) (z : ℝ) : Prop := loss ≠ "log_loss" ∨ 0 ≤ z

theorem hinge_pair (t s : ℝ) :
    (if t * s < 1 then (1 - t * s, -t) else (0, 0) : ℝ × ℝ) =
      (max 0 (1 - t * s), t * (if t * s < 1 then -1 else 0)) := by
  split_ifs with h
  · rw [max_eq_right (by linarith)]; simp
  · rw [max_eq_left (by linarith)]; simp

theorem clfLoss_sq (t s : ℝ) :
    clfLoss realNum "squared_hinge" t s =
      if t * s < 1 then (1 / 2 * (1 - t * s) * (1 - t * s), -t * (1 - t * s)) else (0, 0) := by
  simp [clfLoss, realNum]

theorem clfLoss_log (t s : ℝ) :
    clfLoss realNum "log_loss" t s =
      if 0 < t * s then (Real.log (1 + Real.exp (-(t * s))),
        -t * Real.exp (-(t * s)) / (1 + Real.exp (-(t * s))))
      else (-(t * s) + Real.log (1 + Real.exp (t * s)),
        -t * Real.exp (t * s) / (1 + Real.exp (t * s))) := by
  simp [clfLoss, realNum]

theorem clfLoss_mh (t s : ℝ) :
    clfLoss realNum "modified_huber" t s =
      if t * s < -1 then (-4 * (t * s), -4 * t)
      else if t * s < 1 then ((1 - t * s) * (1 - t * s), -2 * t * (1 - t * s)) else (0, 0) := by
  simp [clfLoss, realNum]

theorem clfLoss_perc (t s : ℝ) :
    clfLoss realNum "perceptron" t s = if t * s ≤ 0 then (-t * s, -t) else (0, 0) := by
  simp [clfLoss, realNum]

theorem clfLoss_other (loss : String) (t s : ℝ) (h1 : loss ≠ "squared_hinge") (h2 : loss ≠ "log_loss")
    (h3 : loss ≠ "modified_huber") (h4 : loss ≠ "perceptron") :
    clfLoss realNum loss t s = if t * s < 1 then (1 - t * s, -t) else (0, 0) := by
  by_cases h0 : loss = "hinge"
  · exact if_pos h0
  · exact (if_neg h0).trans ((if_neg h1).trans ((if_neg h2).trans ((if_neg h3).trans (if_neg h4))))

theorem lossOf_sq (z : ℝ) : clfLossOf "squared_hinge" z = max 0 (1 - z) ^ 2 / 2 := if_pos rfl
theorem lossOf_log (z : ℝ) : clfLossOf "log_loss" z = Real.log (1 + Real.exp (-z)) :=
  (if_neg (by decide)).trans (if_pos rfl)
theorem lossOf_mh (z : ℝ) :
    clfLossOf "modified_huber" z = if z < -1 then -4 * z else max 0 (1 - z) ^ 2 :=
  (if_neg (by decide)).trans ((if_neg (by decide)).trans (if_pos rfl))
theorem lossOf_perc (z : ℝ) : clfLossOf "perceptron" z = max 0 (-z) :=
  (if_neg (by decide)).trans ((if_neg (by decide)).trans ((if_neg (by decide)).trans (if_pos rfl)))
theorem lossOf_other (loss : String) (z : ℝ) (h1 : loss ≠ "squared_hinge") (h2 : loss ≠ "log_loss")
    (h3 : loss ≠ "modified_huber") (h4 : loss ≠ "perceptron") : clfLossOf loss z = max 0 (1 - z) :=
  (if_neg h1).trans ((if_neg h2).trans ((if_neg h3).trans (if_neg h4)))

theorem clfLoss_fst (loss : String) (t s : ℝ) :
    (clfLoss realNum loss t s).1 = clfLossOf loss (t * s) := by
  by_cases h1 : loss = "squared_hinge"
  · rw [h1, clfLoss_sq, lossOf_sq]
    split_ifs with h
    · rw [max_eq_right (by linarith)]; ring
    · rw [max_eq_left (by linarith)]; norm_num
  by_cases h2 : loss = "log_loss"
  · rw [h2, clfLoss_log, lossOf_log]
    by_cases h : 0 < t * s
    · rw [if_pos h]
    · rw [if_neg h]
      have : 1 + Real.exp (-(t * s)) = Real.exp (-(t * s)) * (1 + Real.exp (t * s)) := by
        rw [mul_add, ← Real.exp_add]; simp [add_comm]
      rw [this, Real.log_mul (Real.exp_pos _).ne' (by positivity), Real.log_exp]
  by_cases h3 : loss = "modified_huber"
  · rw [h3, clfLoss_mh, lossOf_mh]
    by_cases ha : t * s < -1
    · rw [if_pos ha, if_pos ha]
    · rw [if_neg ha, if_neg ha]
      split_ifs with h
      · rw [max_eq_right (by linarith)]; ring
      · rw [max_eq_left (by linarith)]; norm_num
  by_cases h4 : loss = "perceptron"
  · rw [h4, clfLoss_perc, lossOf_perc]
    split_ifs with h
    · rw [max_eq_right (by linarith)]; ring
    · rw [max_eq_left (by linarith)]
  · rw [clfLoss_other _ _ _ h1 h2 h3 h4, lossOf_other _ _ h1 h2 h3 h4, hinge_pair]

theorem modhuber_tangent (z z' : ℝ) :
    (if z < -1 then -4 * z else max 0 (1 - z) ^ 2) +
      (if z < -1 then (-4 : ℝ) else if z < 1 then -2 * (1 - z) else 0) * (z' - z) ≤
    (if z' < -1 then -4 * z' else max 0 (1 - z') ^ 2) := by
  by_cases h : z < -1
  · rw [if_pos h, if_pos h]
    split_ifs with h'
    · linarith
    · rcases le_total 0 (1 - z') with h2 | h2
      · rw [max_eq_right h2]; nlinarith [sq_nonneg (z' + 1)]
      · rw [max_eq_left h2]; nlinarith
  · rw [if_neg h, if_neg h]
    by_cases h' : z' < -1
    · rw [if_pos h']
      split_ifs with h1
      · rw [max_eq_right (by linarith)]; nlinarith
      · rw [max_eq_left (by linarith)]; nlinarith
    · rw [if_neg h']
      exact sqhinge_tangent z z'

/-- the derivative with respect to the score is `t` times a subgradient in the margin -/
theorem clfLoss_tangent (loss : String) (t s : ℝ) (hok : LossOk loss (t * s)) (q : ℝ) :
    clfLossOf loss (t * s) + (clfLoss realNum loss t s).2 * (q - s) ≤ clfLossOf loss (t * q) := by
  have emul : t * q - t * s = t * (q - s) := by ring
  by_cases h1 : loss = "squared_hinge"
  · subst h1
    have := sqhinge_tangent (t * s) (t * q)
    rw [clfLoss_sq, lossOf_sq, lossOf_sq]
    rw [emul] at this
    by_cases h : t * s < 1
    · rw [if_pos h] at this ⊢
      have e : -t * (1 - t * s) * (q - s) = -2 * (1 - t * s) * (t * (q - s)) / 2 := by ring
      simp only
      rw [e]; linarith
    · rw [if_neg h] at this ⊢
      simp only [zero_mul] at this ⊢
      linarith
  by_cases h2 : loss = "log_loss"
  · subst h2
    rw [clfLoss_log, lossOf_log, lossOf_log]
    have key := logistic_tangent (t * s) (t * q)
    rw [emul] at key
    have hz : 0 ≤ t * s := hok.resolve_left (by simp)
    rcases hz.lt_or_eq with h | h
    · rw [if_pos h]
      simp only
      have e : -t * Real.exp (-(t * s)) / (1 + Real.exp (-(t * s))) * (q - s)
          = -(Real.exp (-(t * s)) / (1 + Real.exp (-(t * s))) * (t * (q - s))) := by ring
      rw [e]; linarith
    · rw [if_neg (by rw [← h]; exact lt_irrefl _)]
      rw [← h] at key ⊢
      simp only [neg_zero] at key ⊢
      have e : -t * Real.exp 0 / (1 + Real.exp 0) * (q - s)
          = -(Real.exp 0 / (1 + Real.exp 0) * (t * (q - s))) := by ring
      rw [e]; linarith
  by_cases h3 : loss = "modified_huber"
  · subst h3
    have := modhuber_tangent (t * s) (t * q)
    rw [clfLoss_mh, lossOf_mh, lossOf_mh]
    rw [emul] at this
    by_cases ha : t * s < -1
    · rw [if_pos ha, if_pos ha] at this
      rw [if_pos ha, if_pos ha]
      have e : -4 * t * (q - s) = -4 * (t * (q - s)) := by ring
      simp only
      rw [e]; exact this
    · rw [if_neg ha, if_neg ha] at this
      rw [if_neg ha, if_neg ha]
      by_cases hb : t * s < 1
      · rw [if_pos hb] at this ⊢
        have e : -2 * t * (1 - t * s) * (q - s) = -2 * (1 - t * s) * (t * (q - s)) := by ring
        simp only
        rw [e]; exact this
      · rw [if_neg hb] at this ⊢
        simp only [zero_mul] at this ⊢
        exact this
  by_cases h4 : loss = "perceptron"
  · subst h4
    rw [clfLoss_perc, lossOf_perc, lossOf_perc]
    split_ifs with h
    · rw [max_eq_right (by linarith)]
      refine le_max_of_le_right ?_
      simp only; linarith
    · rw [max_eq_left (by linarith)]; simp
  · rw [clfLoss_other _ _ _ h1 h2 h3 h4, lossOf_other _ _ h1 h2 h3 h4, lossOf_other _ _ h1 h2 h3 h4,
      hinge_pair]
    have := hinge_tangent (t * s) (t * q)
    rw [emul] at this
    have e : t * (if t * s < 1 then (-1 : ℝ) else 0) * (q - s)
        = (if t * s < 1 then (-1 : ℝ) else 0) * (t * (q - s)) := by ring
    simp only
    rw [e]; exact this

theorem entry_clfStep (o : Opts ℝ) (lr d : ℝ) (w x : List ℝ) (h : w.length = x.length) (i : Nat)
    (hi : i < x.length) :
    entry (clfStep o lr d w x) i = entry w i - lr * addPenalty o (entry w i) (d * entry x i) := by
  rw [entry, clfStep, getD_map_range _ _ _ _ (h ▸ hi), if_pos hi]
  rfl

/-- **C86** (the part that holds) One training sample with a known label: for every class separately, the
weights and intercept of its one-vs-rest problem move by minus the learning rate times a
(sub)gradient of loss plus penalty, for hinge, squared hinge, modified Huber and perceptron loss always
and for logistic loss when the sample is on the right side for that class (margin ≥ 0); the reported
loss is the mean of the class losses. What is missing: logistic loss with negative margin, see
`sgdClf_log_loss_gradient_false`. -/
theorem sgdClf_step_partial (m : Clf ℝ) (W : List (List ℝ)) (x : List ℝ) (label : Int) (k : Nat)
    (ho : OptsOk m.opts) (hc : m.coef = some W) (hW : W.length = m.classes.length)
    (hx : ∀ w ∈ W, w.length = x.length) (hk : m.classes.idxOf? label = some k)
    (hok : ∀ c < m.classes.length, LossOk m.opts.loss ((if c = k then 1 else -1) *
      lin x.length (entry x) (entry (W.getD c [])) (m.intercept.getD c 0))) :
    ∃ m' W', m.updateWeights realNum x label = some (m',
        (∑ c ∈ range m.classes.length, clfLossOf m.opts.loss ((if c = k then 1 else -1) *
          lin x.length (entry x) (entry (W.getD c [])) (m.intercept.getD c 0))) / m.classes.length) ∧
      m'.coef = some W' ∧ W'.length = W.length ∧ m'.t = m.t + 1 ∧ m'.classes = m.classes ∧
      m'.opts = m.opts ∧ m'.eta0 = m.eta0 ∧
      ∀ c < m.classes.length, ∃ (g : Nat → ℝ) (gb : ℝ),
        IsSubgradient x.length (clfObjective m.opts x.length (entry x) (if c = k then 1 else -1))
          (entry (W.getD c [])) (m.intercept.getD c 0) g gb ∧
        (W'.getD c []).length = x.length ∧
        (∀ i < x.length, entry (W'.getD c []) i =
          entry (W.getD c []) i - learningRate realNum m.opts m.eta0 m.t m.hist * g i) ∧
        m'.intercept.getD c 0 = (if m.opts.fitIntercept then
          m.intercept.getD c 0 - learningRate realNum m.opts m.eta0 m.t m.hist * gb
          else m.intercept.getD c 0) := by
  have hany : W.any (fun w => decide (w.length < x.length)) = false := by
    rw [List.any_eq_false]
    intro w hw
    rw [hx w hw]; simp
  set lr := learningRate realNum m.opts m.eta0 m.t m.hist with hlr
  set p : Nat → ℝ := fun c => lin x.length (entry x) (entry (W.getD c [])) (m.intercept.getD c 0) with hp
  set d : Nat → ℝ := fun c => (clfLoss realNum m.opts.loss (if c = k then 1 else -1) (p c)).2 with hd
  refine ⟨{ m with
      t := m.t + 1
      coef := some ((List.range m.classes.length).map (fun c => clfStep m.opts lr (d c) (W.getD c []) x))
      intercept := (List.range m.classes.length).map (fun c =>
        if m.opts.fitIntercept then m.intercept.getD c 0 - lr * d c else m.intercept.getD c 0) },
    _, ?_, rfl, by simp [hW], rfl, rfl, rfl, rfl, ?_⟩
  · unfold Clf.updateWeights
    simp only [hk, hc, Option.getD_some, hany, Bool.false_eq_true, if_false, score_eq, sumTo_eq,
      clfLoss_fst]
    rfl
  · intro c hcl
    have hwl : (W.getD c []).length = x.length := by
      rw [List.getD_eq_getElem _ _ (by omega)]
      exact hx _ (List.getElem_mem _)
    refine ⟨fun i => addPenalty m.opts (entry (W.getD c []) i) (d c * entry x i), d c, ?_, ?_, ?_, ?_⟩
    · refine subgradient_of_tangent m.opts ho x.length (entry x) (entry (W.getD c []))
        (m.intercept.getD c 0) (d c)
        (fun s => clfLossOf m.opts.loss ((if c = k then 1 else -1) * s)) (fun q => ?_)
      exact clfLoss_tangent m.opts.loss _ _ (hok c hcl) q
    · rw [getD_map_range _ _ _ _ hcl, clfStep, List.length_map, List.length_range, hwl]
    · intro i hi
      rw [getD_map_range _ _ _ _ hcl, entry_clfStep _ _ _ _ _ hwl i hi]
    · rw [getD_map_range _ _ _ _ hcl]

/-- a two-class state with hinge loss meeting the hypotheses -/
noncomputable def exClf : Clf ℝ :=
  { opts := { exOpts with loss := "hinge", penalty := "l2" }, eta0 := 1 / 100,
    coef := some [[1, 2], [3, 4]], intercept := [0, 1], classes := [3, 7], nFeatures := 2, nIter := 0,
    t := 4, hist := [], converged := false, fitted := true }

example : OptsOk exClf.opts ∧ exClf.coef = some [[1, 2], [3, 4]] ∧ exClf.classes.length = 2 ∧
    exClf.classes.idxOf? 7 = some 1 ∧ (∀ z, LossOk exClf.opts.loss z) ∧
    ∀ w ∈ ([[1, 2], [3, 4]] : List (List ℝ)), w.length = ([5, 6] : List ℝ).length :=
  ⟨⟨by norm_num [exClf, exOpts], by norm_num [exClf, exOpts], by norm_num [exClf, exOpts],
    by norm_num [exClf, exOpts]⟩, rfl, rfl, by decide, fun _ => Or.inl (by decide), by simp⟩

/-- derivative of the logistic loss with respect to the score -/
theorem logistic_hasDerivAt (t s : ℝ) :
    HasDerivAt (fun q => clfLossOf "log_loss" (t * q)) (-t / (1 + Real.exp (t * s))) s := by
  have h0 : ∀ z, clfLossOf "log_loss" z = Real.log (1 + Real.exp (-z)) := fun z => by
    unfold clfLossOf; rw [if_neg (by decide), if_pos rfl]
  simp only [h0]
  have h1 : HasDerivAt (fun q : ℝ => -(t * q)) (-t) s := by
    have := ((hasDerivAt_id s).const_mul t).neg
    rw [mul_one] at this
    exact this
  have h2 := ((h1.exp).const_add 1).log (by positivity)
  refine h2.congr_deriv ?_
  have : 1 + Real.exp (t * s) = Real.exp (t * s) * (1 + Real.exp (-(t * s))) := by
    rw [mul_add, ← Real.exp_add]; simp [add_comm]
  rw [this, Real.exp_neg]
  field_simp

/-- **C86** is false for logistic loss on the wrong side: for every negative margin the derivative used
differs from the derivative of the loss — it is `exp(margin)` times the right one, so the worse a sample
is classified the less it corrects the model — and it is not a subgradient. -/
theorem sgdClf_log_loss_gradient_false (t s : ℝ) (ht : t = 1 ∨ t = -1) (hz : t * s < 0) :
    ∃ d, HasDerivAt (fun q => clfLossOf "log_loss" (t * q)) d s ∧ d ≠ 0 ∧
      (clfLoss realNum "log_loss" t s).2 = Real.exp (t * s) * d ∧
      (clfLoss realNum "log_loss" t s).2 ≠ d ∧
      ¬ ∀ q, clfLossOf "log_loss" (t * s) + (clfLoss realNum "log_loss" t s).2 * (q - s) ≤
        clfLossOf "log_loss" (t * q) := by
  have ht0 : t ≠ 0 := by rcases ht with h | h <;> rw [h] <;> norm_num
  have hp : 0 < 1 + Real.exp (t * s) := by positivity
  have hd : -t / (1 + Real.exp (t * s)) ≠ 0 := div_ne_zero (neg_ne_zero.2 ht0) hp.ne'
  have he : (clfLoss realNum "log_loss" t s).2 = Real.exp (t * s) * (-t / (1 + Real.exp (t * s))) := by
    rw [clfLoss_log, if_neg (not_lt.2 hz.le)]; ring
  have hne : (clfLoss realNum "log_loss" t s).2 ≠ -t / (1 + Real.exp (t * s)) := by
    rw [he]
    intro h
    have : Real.exp (t * s) = 1 := by
      have := mul_right_cancel₀ hd (h.trans (one_mul _).symm)
      exact this
    rw [Real.exp_eq_one_iff] at this
    linarith
  refine ⟨_, logistic_hasDerivAt t s, hd, he, hne, fun h => ?_⟩
  have hmin : IsLocalMin (fun q => clfLossOf "log_loss" (t * q)
      - (clfLoss realNum "log_loss" t s).2 * q) s := by
    refine Filter.Eventually.of_forall fun q => ?_
    have := h q
    simp only
    linarith
  have hder := (logistic_hasDerivAt t s).sub
    ((hasDerivAt_id s).const_mul (clfLoss realNum "log_loss" t s).2)
  have := hmin.hasDerivAt_eq_zero hder
  rw [mul_one] at this
  exact hne (by linarith)

example : (1 : ℝ) * (-3) < 0 ∧ ((1 : ℝ) = 1 ∨ (1 : ℝ) = -1) := ⟨by norm_num, Or.inl rfl⟩

/-! ## C87: predictions -/

theorem argmax_fold (l : List (ℝ × Int)) (b : ℝ × Int) :
    let r := l.foldl (fun best p => if best.1 < p.1 then p else best) b
    (r = b ∨ r ∈ l) ∧ b.1 ≤ r.1 ∧ ∀ p ∈ l, p.1 ≤ r.1 := by
  induction l generalizing b with
  | nil => simp
  | cons a l ih =>
    simp only [List.foldl_cons]
    obtain ⟨h1, h2, h3⟩ := ih (if b.1 < a.1 then a else b)
    have hab : b.1 ≤ (if b.1 < a.1 then a else b).1 ∧ a.1 ≤ (if b.1 < a.1 then a else b).1 := by
      split_ifs with h
      · exact ⟨h.le, le_rfl⟩
      · exact ⟨le_rfl, not_lt.1 h⟩
    refine ⟨?_, hab.1.trans h2, ?_⟩
    · rcases h1 with h1 | h1
      · rw [h1]
        split_ifs
        · right; simp
        · left; rfl
      · right; exact List.mem_cons_of_mem _ h1
    · intro p hp
      rcases List.mem_cons.1 hp with e | hp
      · rw [e]; exact hab.2.trans h2
      · exact h3 p hp

/-- the scan returns a class of greatest score -/
theorem argmaxClass_spec (ninf : ℝ) (classes : List Int) (scores : List ℝ)
    (hl : scores.length = classes.length) (hne : classes ≠ []) (hi : ∀ s ∈ scores, ninf < s) :
    ∃ c, c < classes.length ∧ argmaxClass ninf classes scores = classes.getD c 0 ∧
      ∀ c' < classes.length, scores.getD c' 0 ≤ scores.getD c 0 := by
  unfold argmaxClass
  obtain ⟨h1, h2, h3⟩ := argmax_fold (List.zip scores classes) (ninf, classes.headD 0)
  set r := (List.zip scores classes).foldl (fun best p => if best.1 < p.1 then p else best)
    (ninf, classes.headD 0)
  have hpos : 0 < classes.length := List.length_pos_of_ne_nil hne
  have hzip : ∀ c, (h : c < classes.length) → (scores.getD c 0, classes.getD c 0) ∈ List.zip scores classes := by
    intro c h
    rw [List.mem_iff_getElem]
    refine ⟨c, by simp [hl, h], ?_⟩
    rw [List.getElem_zip, List.getD_eq_getElem _ _ (by omega), List.getD_eq_getElem _ _ h]
  have hr : r ∈ List.zip scores classes := by
    rcases h1 with h1 | h1
    · exfalso
      have := h3 _ (hzip 0 hpos)
      rw [h1] at this
      have hm : scores.getD 0 0 ∈ scores := by
        rw [List.getD_eq_getElem _ _ (by omega)]; exact List.getElem_mem _
      exact absurd (hi _ hm) (not_lt.2 this)
    · exact h1
  obtain ⟨c, hc, e⟩ := List.mem_iff_getElem.1 hr
  have hc' : c < classes.length := by simp [hl] at hc; exact hc
  rw [List.getElem_zip] at e
  refine ⟨c, hc', ?_, fun c' h' => ?_⟩
  · rw [← e, List.getD_eq_getElem _ _ hc']
  · have := h3 _ (hzip c' h')
    rw [← e] at this
    rw [List.getD_eq_getElem scores _ (show c < scores.length by omega)]
    exact this

theorem softmaxPlain_spec (l : List ℝ) (hne : l ≠ []) :
    (softmaxPlain Real.exp l).length = l.length ∧
    (∀ i < l.length, 0 < (softmaxPlain Real.exp l).getD i 0 ∧
      (softmaxPlain Real.exp l).getD i 0 = Real.exp (l.getD i 0) / (l.map Real.exp).sum) ∧
    (softmaxPlain Real.exp l).sum = 1 ∧ 0 < (l.map Real.exp).sum := by
  have hs : 0 < (l.map Real.exp).sum := by
    refine List.sum_pos _ (fun x hx => ?_) (by simpa using hne)
    obtain ⟨a, _, rfl⟩ := List.mem_map.1 hx
    exact Real.exp_pos a
  have hso : sumOver (l.map Real.exp) id = (l.map Real.exp).sum := by rw [sumOver_eq]; simp
  refine ⟨by simp [softmaxPlain], fun i hi => ?_, ?_, hs⟩
  · have e : (softmaxPlain Real.exp l).getD i 0 = Real.exp (l.getD i 0) / (l.map Real.exp).sum := by
      unfold softmaxPlain
      simp only
      rw [hso, List.getD_eq_getElem _ _ (by simpa using hi), List.getElem_map, List.getElem_map,
        List.getD_eq_getElem _ _ hi]
    exact ⟨by rw [e]; exact div_pos (Real.exp_pos _) hs, e⟩
  · unfold softmaxPlain
    simp only
    rw [hso]
    have : ((l.map Real.exp).map (· / (l.map Real.exp).sum)).sum
        = (l.map Real.exp).sum / (l.map Real.exp).sum := by
      simp only [div_eq_mul_inv, List.sum_map_mul_right, List.map_id']
    rw [this, div_self hs.ne']

/-- **C87** (the part that holds) Over the reals — no overflow of `exp` — for every fitted classifier and
every batch of the right width: `Predict`, `PredictProba` and `DecisionFunction` all succeed; every
probability is positive and each row sums to one; the predicted label is one of the training classes,
and it has the greatest decision value and the greatest probability of its row. What is missing:
scores large enough for `exp` to overflow, see `sgdClf_proba_overflow_false`. -/
theorem sgdClf_predictions_consistent_partial (ofInt : Int → ℝ) (ninf : ℝ) (m : Clf ℝ) (X : Mat ℝ)
    (W : List (List ℝ)) (hf : m.fitted = true) (hc : m.coef = some W) (hne : m.classes ≠ [])
    (hw : ∀ w ∈ W, m.nFeatures ≤ w.length) (hX : X.c = m.nFeatures) (hr : 0 < X.r)
    (hi : ∀ i < X.r, ∀ s ∈ m.scores X i, ninf < s) :
    ∃ L P D, m.predict ofInt ninf X = .ok L ∧ m.predictProba Real.exp X = .ok P ∧
      m.decisionFunction X = .ok D ∧ L.r = X.r ∧ L.c = 1 ∧ P.r = X.r ∧ P.c = m.classes.length ∧
      D.r = X.r ∧ D.c = m.classes.length ∧
      ∀ i < X.r,
        (∀ c < m.classes.length, 0 < P.at' i c ∧ D.at' i c =
          lin X.c (X.at' i) (entry (W.getD c [])) (m.intercept.getD c 0)) ∧
        ∑ c ∈ range m.classes.length, P.at' i c = 1 ∧
        ∃ c, c < m.classes.length ∧ L.at' i 0 = ofInt (m.classes.getD c 0) ∧
          ∀ c' < m.classes.length, D.at' i c' ≤ D.at' i c ∧ P.at' i c' ≤ P.at' i c := by
  have hany : (m.coef.getD []).any (fun w => decide (w.length < X.c)) = false := by
    rw [hc, List.any_eq_false]
    intro w hw'
    have := hw w hw'
    simp only [decide_eq_true_eq]; omega
  have hch : ∀ {β : Type} (k : Outcome β), checked m.fitted m.nFeatures X k = k := by
    intro β k
    unfold checked
    rw [hf]
    simp [hX, hr.ne']
  have hL : m.predict ofInt ninf X =
      .ok ⟨X.r, 1, fun i _ => ofInt (argmaxClass ninf m.classes (m.scores X i))⟩ := by
    unfold Clf.predict; rw [hch, if_neg hne, hany]; rfl
  have hP : m.predictProba Real.exp X =
      .ok ⟨X.r, m.classes.length, fun i c => (softmaxPlain Real.exp (m.scores X i)).getD c 0⟩ := by
    unfold Clf.predictProba; rw [hch, if_neg hne, hany]; rfl
  have hD : m.decisionFunction X =
      .ok ⟨X.r, m.classes.length, fun i c => (m.scores X i).getD c 0⟩ := by
    unfold Clf.decisionFunction; rw [hch, if_neg hne, hany]; rfl
  refine ⟨_, _, _, hL, hP, hD, rfl, rfl, rfl, rfl, rfl, rfl, ?_⟩
  · intro i hir
    simp only
    have hsl : (m.scores X i).length = m.classes.length := by simp [Clf.scores]
    have hsn : m.scores X i ≠ [] := by
      intro h; rw [h] at hsl; exact hne (List.length_eq_zero_iff.1 hsl.symm)
    obtain ⟨p1, p2, p3, p4⟩ := softmaxPlain_spec (m.scores X i) hsn
    rw [hsl] at p1 p2
    refine ⟨fun c hcl => ⟨(p2 c hcl).1, ?_⟩, ?_, ?_⟩
    · rw [Clf.scores, getD_map_range _ _ _ _ hcl, predRow_eq, hc]; rfl
    · rw [← p3, ← p1]
      exact (sum_getD _).symm
    · obtain ⟨c, h1, h2, h3⟩ := argmaxClass_spec ninf m.classes (m.scores X i) hsl hne (hi i hir)
      refine ⟨c, h1, by rw [h2], fun c' h' => ⟨h3 c' h', ?_⟩⟩
      rw [(p2 c' h').2, (p2 c h1).2]
      exact div_le_div_of_nonneg_right (Real.exp_le_exp.2 (h3 c' h')) p4.le
where
  sum_getD (l : List ℝ) : l.sum = ∑ c ∈ range l.length, l.getD c 0 := by
    induction l with
    | nil => simp
    | cons a l ih =>
      rw [List.sum_cons, List.length_cons, sum_range_succ', ih, add_comm]
      simp

example : exClf.fitted = true ∧ exClf.coef = some [[1, 2], [3, 4]] ∧ exClf.classes ≠ [] ∧
    (Mat.ofRows [[5, 6]] 2 (0 : ℝ)).c = exClf.nFeatures := ⟨rfl, rfl, by decide, rfl⟩

/-- `math.Exp` on `float64`: overflows to `+Inf` above `709.79` -/
noncomputable def expOverflow : XReal → XReal
  | .fin x => if x ≤ 709.79 then .fin (Real.exp x) else .pinf
  | .nan => .nan
  | .ninf => .fin 0
  | .pinf => .pinf

/-- **C87** is false for large scores: the softmax is not shifted by its maximum, so one score of 1000
makes `exp` overflow and the probability of the best class comes out as NaN. -/
theorem sgdClf_proba_overflow_false :
    let m : Clf XReal :=
      { opts := exFresh.opts, eta0 := .fin 1, coef := some [[.fin 1], [.fin 0]],
        intercept := [.fin 0, .fin 0], classes := [0, 1], nFeatures := 1, nIter := 0, t := 0, hist := [],
        converged := false, fitted := true }
    let X : Mat XReal := Mat.ofRows [[.fin 1000]] 1 (.fin 0)
    ∃ P D, m.predictProba expOverflow X = .ok P ∧ m.decisionFunction X = .ok D ∧
      D.at' 0 0 = .fin 1000 ∧ D.at' 0 1 = .fin 0 ∧ P.at' 0 0 = .nan := by
  intro m X
  have h0 : (m.scores X 0) = [.fin 1000, .fin 0] := by
    simp [Clf.scores, m, X, predRow, Mat.ofRows]
    rw [List.range_succ, List.range_succ]
    simp
  refine ⟨_, _, rfl, rfl, ?_, ?_, ?_⟩
  · simp only [h0]; rfl
  · simp only [h0]; rfl
  · simp only [h0]
    have h1 : expOverflow (.fin 1000) = .pinf := by
      simp only [expOverflow]; rw [if_neg (by norm_num)]
    have h2 : expOverflow (.fin 0) = .fin 1 := by
      simp only [expOverflow]; rw [if_pos (by norm_num)]; simp
    simp only [softmaxPlain, List.map_cons, List.map_nil, h1, h2, sumOver, List.foldl, id]
    rfl

end Scigo.Online
