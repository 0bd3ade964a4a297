import Verif.LGB.TaylorSoftmaxProps
import Verif.LGB.EnsembleProps

/-!
# C258: probabilities of the two predictors; C259: how many trees they use
-/

set_option linter.unusedSectionVars false

namespace Scigo.LGB

/-! ## C258 -/

/-- the logistic function -/
noncomputable def sig (x : ℝ) : ℝ := 1 / (1 + Real.exp (-x))

theorem sig_neg_form (x : ℝ) : Real.exp x / (1 + Real.exp x) = sig x := by
  have h := Real.exp_pos x
  have h' := Real.exp_pos (-x)
  have e : Real.exp x * Real.exp (-x) = 1 := by rw [← Real.exp_add]; simp
  unfold sig
  rw [div_eq_div_iff (by linarith) (by linarith)]
  linarith

/-- **C258**: the sigmoid of `SimplePredictor` is the logistic function between -500 and 500, 1 above and 0 below. -/
theorem simple_sigmoid_value (N : ENum ℝ) (hN : RealENum N) (x : ℝ) :
    (|x| ≤ 500 → simpleSigmoid N x = sig x) ∧ (500 < x → simpleSigmoid N x = 1) ∧ (x < -500 → simpleSigmoid N x = 0) := by
  unfold simpleSigmoid
  rw [hN.c500]
  refine ⟨fun h => ?_, fun h => if_pos h, fun h => by rw [if_neg (by linarith), if_pos h]⟩
  obtain ⟨a, b⟩ := abs_le.1 h
  rw [if_neg (by linarith), if_neg (by linarith), hN.exp, hN.exp, sig_neg_form]
  split <;> rfl

/-- **C258**: the sigmoid of `Predictor` has the same values, up to `epsilon`, below which it writes 0. -/
theorem stable_sigmoid_value (N : ENum ℝ) (hN : RealENum N) (h0 : 0 ≤ N.epsilon) (x : ℝ) :
    (|x| ≤ 500 → |stableSigmoid N x - sig x| ≤ N.epsilon) ∧ (500 < x → stableSigmoid N x = 1) ∧ (x < -500 → stableSigmoid N x = 0) := by
  unfold stableSigmoid
  rw [hN.c500]
  refine ⟨fun h => ?_, fun h => if_pos h, fun h => by rw [if_neg (by linarith), if_pos h]⟩
  obtain ⟨a, b⟩ := abs_le.1 h
  rw [if_neg (by linarith), if_neg (by linarith), hN.exp, hN.exp, sig_neg_form]
  split
  · exact ensure_near N.toPNum hN.isInf h0 _
  · exact ensure_near N.toPNum hN.isInf h0 _

theorem simple_softmax_list (N : ENum ℝ) (hN : RealENum N) (l : List ℝ) (hl : l ≠ []) :
    simpleSoftmax N l = l.map fun v => Real.exp v / (l.map Real.exp).sum := by
  have hs : ∀ (c : ℝ) (l : List ℝ), (l.map fun v => Real.exp (v - c)).sum = (l.map Real.exp).sum / Real.exp c := by
    intro c l
    induction l with
    | nil => simp
    | cons a l ih => rw [List.map_cons, List.sum_cons, List.map_cons, List.sum_cons, ih, Real.exp_sub, add_div]
  have hpos : 0 < (l.map Real.exp).sum := by
    obtain ⟨a, l', rfl⟩ := List.exists_cons_of_ne_nil hl
    rw [List.map_cons, List.sum_cons]
    have := Real.exp_pos a
    have h2 : 0 ≤ (l'.map Real.exp).sum := List.sum_nonneg fun v hv => by
      obtain ⟨w, -, rfl⟩ := List.mem_map.1 hv
      exact (Real.exp_pos w).le
    linarith
  have hc := Real.exp_pos (maxOf l)
  have e : (l.map fun v => N.exp (v - maxOf l)) = l.map fun v => Real.exp (v - maxOf l) := List.map_congr_left fun v _ => hN.exp _
  unfold simpleSoftmax
  simp only
  rw [e, sumOver_real, hs, if_pos (div_pos hpos hc), List.map_map]
  refine List.map_congr_left fun v _ => ?_
  simp only [Function.comp_apply]
  rw [Real.exp_sub, div_div_div_cancel_right₀ hc.ne']

/-- **C258**: `SimplePredictor.PredictSingle` for more than two classes: the probability of class `j` is `exp sⱼ / Σ exp sₖ` of the raw scores; all are positive
and they sum to 1. For two classes it is the sigmoid of the raw score with objective `binary` or `cross_entropy`, and the raw score with
every other objective. -/
theorem simple_predict_link (N : ENum ℝ) (hN : RealENum N) (m : Model ℝ) (x s : List ℝ) (hs : m.sRaw x = .ok s) (hne : s ≠ []) :
    (m.numClass > 2 → ∃ p, m.sSample N x = .ok p ∧ p = s.map (fun v => Real.exp v / (s.map Real.exp).sum) ∧ p.sum = 1 ∧ ∀ v ∈ p, 0 < v) ∧
    (¬ m.numClass > 2 → (m.objective = "binary" ∨ m.objective = "cross_entropy") → ∀ v, s = [v] → |v| ≤ 500 → m.sSample N x = .ok [sig v]) ∧
    (¬ m.numClass > 2 → m.objective ≠ "binary" → m.objective ≠ "cross_entropy" → m.sSample N x = .ok s) := by
  have hpos : 0 < (s.map Real.exp).sum := by
    obtain ⟨a, l', rfl⟩ := List.exists_cons_of_ne_nil hne
    rw [List.map_cons, List.sum_cons]
    have := Real.exp_pos a
    have h2 : 0 ≤ (l'.map Real.exp).sum := List.sum_nonneg fun v hv => by
      obtain ⟨w, -, rfl⟩ := List.mem_map.1 hv
      exact (Real.exp_pos w).le
    linarith
  unfold Model.sSample
  rw [hs]
  refine ⟨fun h => ⟨_, ?_, rfl, ?_, fun v hv => ?_⟩, fun h ho v hv hb => ?_, fun h h1 h2 => ?_⟩
  · simp only [Outcome.map, if_pos h]
    rw [Outcome.bind_ok, simple_softmax_list N hN s hne]
  · have : ∀ (l : List ℝ) (c : ℝ), (l.map fun v => Real.exp v / c).sum = (l.map Real.exp).sum / c := by
      intro l c
      induction l with
      | nil => simp
      | cons a l ih => rw [List.map_cons, List.sum_cons, ih, List.map_cons, List.sum_cons, add_div]
    rw [this, div_self hpos.ne']
  · obtain ⟨w, -, rfl⟩ := List.mem_map.1 hv
    exact div_pos (Real.exp_pos w) hpos
  · subst hv
    simp only [Outcome.map, if_neg h, if_pos ho, ← (simple_sigmoid_value N hN v).1 hb]
    rfl
  · simp only [Outcome.map, if_neg h, h1, h2, or_self, if_false]
    rfl

/-! ## C259 -/

section
variable {α : Type _} [BEq α] [LE α] [DecidableLE α] [LT α] [DecidableLT α] [Zero α] [One α] [Add α] [Sub α] [Neg α] [Mul α] [Div α]

theorem accumulate_append (m : Model α) (out : Tree α → Outcome α) (upd : Tree α → α → α → α) (l l' : List (Tree α × Nat)) (p : List α) :
    m.accumulate out upd (l ++ l') p = (m.accumulate out upd l p).bind (m.accumulate out upd l') := by
  induction l generalizing p with
  | nil => rfl
  | cons a l ih =>
    obtain ⟨t, i⟩ := a
    simp only [List.cons_append, Model.accumulate]
    cases out t with
    | ok v => exact ih _
    | err e => rfl
    | panic e => rfl

theorem accumulate_model (m m' : Model α) (h : m'.numClass = m.numClass) (out : Tree α → Outcome α) (upd : Tree α → α → α → α) (l : List (Tree α × Nat))
    (p : List α) : m'.accumulate out upd l p = m.accumulate out upd l p := by
  induction l generalizing p with
  | nil => rfl
  | cons a l ih =>
    obtain ⟨t, i⟩ := a
    have hs : m'.slot i = m.slot i := by unfold Model.slot; rw [h]
    simp only [Model.accumulate, hs]
    cases out t with
    | ok v => exact ih _
    | err e => rfl
    | panic e => rfl

/-- **C259, as far as it holds**: with a best iteration between 1 and the number of iterations, the scores of `Predictor` are those of the model cut off after as
many trees; otherwise those of the model cut off after `NumIteration` trees, or of the whole model if that number is 0. The
whole model adds its last tree's output, times its shrinkage, to the score of the trees before it. For models of more than two classes the
cut is wrong, see `best_iteration_cuts_classes`. -/
theorem predictor_best_partial (N : ENum α) (m : Model α) (x : List α) :
    (0 < m.bestIteration → m.bestIteration < m.numIteration →
      m.pRaw N x = ({ m with trees := m.trees.take m.bestIteration.toNat, numIteration := 0, bestIteration := 0 } : Model α).pRaw N x) ∧
    (m.bestIteration ≤ 0 ∨ m.numIteration ≤ m.bestIteration → 0 < m.numIteration →
      m.pRaw N x = ({ m with trees := m.trees.take m.numIteration.toNat, numIteration := 0, bestIteration := 0 } : Model α).pRaw N x) ∧
    (m.numIteration = 0 → m.pRaw N x = ({ m with bestIteration := 0 } : Model α).pRaw N x) ∧
    (m.numIteration = 0 → ¬ m.numClass > 2 → ∀ ts t, m.trees = ts ++ [t] →
      m.pRaw N x = (({ m with trees := ts } : Model α).pRaw N x).bind fun s =>
        (t.pPredict N.toPNum (x.map fun v => if isNaN v then 0 else v)).map fun v =>
          s.modify 0 fun a => N.toPNum.ensure (a + v * (if t.shrinkage == 0 then m.learningRate else t.shrinkage))) := by
  have whole : ∀ m' : Model α, m'.numIteration = 0 → m'.usedTrees = m'.trees.length := by
    intro m' h
    simp only [Model.usedTrees, h]
    have : ¬ (m'.bestIteration > 0 ∧ m'.bestIteration < 0) := by omega
    rw [if_neg this, if_pos rfl]
  have cut : ∀ k : Nat, m.usedTrees = k →
      m.pRaw N x = ({ m with trees := m.trees.take k, numIteration := 0, bestIteration := 0 } : Model α).pRaw N x := by
    intro k hk
    unfold Model.pRaw
    rw [whole { m with trees := m.trees.take k, numIteration := 0, bestIteration := 0 } rfl, hk, List.take_length,
      accumulate_model m { m with trees := m.trees.take k, numIteration := 0, bestIteration := 0 } rfl]
    rfl
  refine ⟨fun h1 h2 => cut _ ?_, fun h1 h2 => cut _ ?_, fun h => ?_, fun h hn ts t ht => ?_⟩
  · simp only [Model.usedTrees, gt_iff_lt, h1, h2, and_self, if_true]
    rw [if_neg (by omega)]
  · have : ¬ (m.bestIteration > 0 ∧ m.bestIteration < m.numIteration) := by omega
    simp only [Model.usedTrees, if_neg this]
    rw [if_neg (by omega)]
  · unfold Model.pRaw
    rw [whole m h, whole { m with bestIteration := 0 } h, accumulate_model m { m with bestIteration := 0 } rfl]
    rfl
  · unfold Model.pRaw
    rw [whole m h, whole { m with trees := ts } h, List.take_length, ht, List.zipIdx_append, accumulate_append,
      accumulate_model m { m with trees := ts } rfl]
    simp only [List.take_length]
    congr 1
    funext s
    simp only [List.zipIdx_cons, List.zipIdx_nil, Model.accumulate]
    change (match t.pPredict N.toPNum (fillMissing x) with | .ok v => _ | .err e => _ | .panic e => _) = (t.pPredict N.toPNum (fillMissing x)).map _
    cases t.pPredict N.toPNum (fillMissing x) with
    | ok v =>
      have : m.slot (0 + ts.length) = 0 := by
        unfold Model.slot
        rw [if_neg hn]
      rw [this]
      rfl
    | err e => rfl
    | panic e => rfl

end

/-- six trees of one leaf, two iterations of three classes -/
def exSix : Model ℚ :=
  { objective := "none", numClass := 3, numIteration := 6, learningRate := 1, numFeatures := 1, bestIteration := 1, initScore := 0, deterministic := false,
    trees := (List.range 6).map fun k => ⟨[⟨-1, -1, .leaf, -1, 0, [], false, 0, (k : ℚ) + 1, 5, 0, 0⟩], [], 1, 1, 0⟩ }

/-- **C259 is false of the code**: the best iteration counts trees, not iterations: with three classes the best iteration 1 leaves one tree, of the first class
only, although the iteration has a tree for each class. -/
theorem best_iteration_cuts_classes :
    exSix.pRaw ratNum [0] = .ok [1, 0, 0] ∧
    ({ exSix with trees := exSix.trees.take 3, numIteration := 0, bestIteration := 0 } : Model ℚ).pRaw ratNum [0] = .ok [1, 2, 3] := by
  decide +kernel

/-- the number of iterations of a multiclass model cuts in the same way -/
example : ({ exSix with numIteration := 2, bestIteration := 0 } : Model ℚ).pRaw ratNum [0] = .ok [1, 2, 0] := by decide +kernel

/-- a regression model with three trees and the best iteration 2 -/
example : ({ exSix with numClass := 1, bestIteration := 2 } : Model ℚ).pRaw ratNum [0] = .ok [3] := by decide +kernel

/-- scores of three classes -/
example : exSix.sRaw [0] = .ok [5, 7, 9] := by decide +kernel

end Scigo.LGB
