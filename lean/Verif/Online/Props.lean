import Verif.Online.Lemmas
import Mathlib.Data.List.Induction

/-!
# Properties of SGDRegressor (C44, C84, C85)
-/

set_option linter.unusedSectionVars false

namespace Scigo.Online

open Finset Scigo.Errors

/-! ## C44: one step -/

theorem sum_map_sq (l : List ℝ) : (l.map (· ^ 2)).sum = ∑ i ∈ range l.length, entry l i ^ 2 := by
  rw [← dotSelf_eq, dotSelf, sumOver_eq]
  congr 1
  exact List.map_congr_left fun a _ => pow_two a

/-- **C44** One training sample. Whatever the loss and penalty, with options in their documented
ranges, the step moves the weights by minus the current learning rate times `s · g` and the intercept
by minus the learning rate times `gb`, where `(g, gb)` is a (sub)gradient of loss plus penalty at the
old weights and intercept, and `0 ≤ s ≤ 1` is one common factor: `1` when `‖g‖ ≤ 10`, and otherwise
such that `‖s · g‖ = 10`. The reported loss is the loss at the old weights. Nothing else changes but the
step counter. -/
theorem sgd_step (m : Reg ℝ) (w x : List ℝ) (y : ℝ) (ho : OptsOk m.opts) (hc : m.coef = some w)
    (hx : x.length = w.length) :
    ∃ (m' : Reg ℝ) (w' : List ℝ) (g : Nat → ℝ) (gb s : ℝ),
      m.updateWeights realNum x y =
        some (m', regLossOf m.opts.loss m.opts.epsilon (lin x.length (entry x) (entry w) m.intercept) y) ∧
      IsSubgradient x.length (regObjective m.opts x.length (entry x) y) (entry w) m.intercept g gb ∧
      0 ≤ s ∧ s ≤ 1 ∧
      (Real.sqrt (∑ i ∈ range x.length, g i ^ 2) ≤ 10 → s = 1) ∧
      (10 ≤ Real.sqrt (∑ i ∈ range x.length, g i ^ 2) →
        Real.sqrt (∑ i ∈ range x.length, (s * g i) ^ 2) = 10) ∧
      m'.coef = some w' ∧ w'.length = w.length ∧
      (∀ i < w.length, entry w' i = entry w i - m.getLearningRate realNum * (s * g i)) ∧
      m'.intercept = (if m.opts.fitIntercept then
        m.intercept - m.getLearningRate realNum * gb else m.intercept) ∧
      m'.t = m.t + 1 ∧ m'.opts = m.opts ∧ m'.eta0 = m.eta0 ∧ m'.nFeatures = m.nFeatures ∧
      m'.hist = m.hist ∧ m'.nIter = m.nIter ∧ m'.fitted = m.fitted := by
  set p := lin x.length (entry x) (entry w) m.intercept with hp
  set d := (regLoss realNum m.opts.loss m.opts.epsilon p y).2 with hd
  set gl := gradVec m.opts w x d with hgl
  have hgl_len : gl.length = x.length := by simp [hgl, gradVec]
  have hent : ∀ i < x.length, entry gl i = addPenalty m.opts (entry w i) (d * entry x i) := by
    intro i hi
    rw [entry, hgl, gradVec, getD_map_range _ _ _ _ hi]
    rfl
  have hnorm : (gl.map (· ^ 2)).sum
      = ∑ i ∈ range x.length, addPenalty m.opts (entry w i) (d * entry x i) ^ 2 := by
    rw [sum_map_sq, hgl_len]
    exact sum_congr rfl fun i hi => by rw [hent i (mem_range.1 hi)]
  obtain ⟨⟨s0, hs0, hs1, hclip⟩, hle, hun, hsat⟩ := clipGradient_spec gl 10 (by norm_num)
  -- the factor: `1` below the bound
  obtain ⟨s, h0, h1, hs, hone, hten⟩ : ∃ s : ℝ, 0 ≤ s ∧ s ≤ 1 ∧
      clipGradient Real.sqrt gl 10 = gl.map (· * s) ∧
      (Real.sqrt (gl.map (· ^ 2)).sum ≤ 10 → s = 1) ∧
      (10 ≤ Real.sqrt (gl.map (· ^ 2)).sum →
        Real.sqrt ((gl.map (· * s)).map (· ^ 2)).sum = 10) := by
    by_cases hb : Real.sqrt (gl.map (· ^ 2)).sum ≤ 10
    · refine ⟨1, zero_le_one, le_rfl, ?_, fun _ => rfl, fun h => ?_⟩
      · rw [hun hb]; simp
      · simpa using le_antisymm hb h
    · refine ⟨s0, hs0, hs1, hclip, fun h => absurd h hb, fun h => ?_⟩
      rw [← hclip]; exact hsat h
  have hsum : ((gl.map (· * s)).map (· ^ 2)).sum
      = ∑ i ∈ range x.length, (s * addPenalty m.opts (entry w i) (d * entry x i)) ^ 2 := by
    rw [sum_map_sq, List.length_map, hgl_len]
    refine sum_congr rfl fun i hi => ?_
    rw [← hent i (mem_range.1 hi), entry, List.getD_eq_getElem _ _ (by simpa [hgl_len] using hi),
      List.getElem_map, entry, List.getD_eq_getElem _ _ (by simpa [hgl_len] using hi)]
    ring
  refine ⟨{ m with
      t := m.t + 1
      coef := some ((List.range w.length).map (fun i =>
        if i < x.length then moveWeight realNum (m.getLearningRate realNum) (w.getD i 0)
          ((clipGradient Real.sqrt gl 10).getD i 0) else w.getD i 0))
      intercept := if m.opts.fitIntercept then m.intercept - m.getLearningRate realNum * d
        else m.intercept }, _, fun i => addPenalty m.opts (entry w i) (d * entry x i), d, s,
    ?_, ?_, h0, h1, ?_, ?_, rfl, ?_, ?_, rfl, rfl, rfl, rfl, rfl, rfl, rfl, rfl⟩
  · unfold Reg.updateWeights
    have hnp : ¬ (m.coef.getD []).length < x.length := by rw [hc]; simp [hx]
    have hst : ¬ realNum.unstable (score (m.coef.getD []) m.intercept x) = true := by simp [realNum]
    simp only
    rw [if_neg hnp, if_neg hst]
    rw [hc]
    simp only [Option.getD_some, score_eq, ← hp, regLoss_fst]
    rfl
  · exact subgradient_of_tangent m.opts ho x.length (entry x) (entry w) m.intercept d
      (fun p => regLossOf m.opts.loss m.opts.epsilon p y)
      (fun q => regLoss_tangent m.opts.loss m.opts.epsilon _ y ho.eps_nonneg q)
  · rw [← hnorm]; exact hone
  · rw [← hnorm, ← hsum]; exact hten
  · simp
  · intro i hi
    have hix : i < x.length := hx ▸ hi
    rw [entry, getD_map_range _ _ _ _ hi, if_pos hix, hs]
    have e : (gl.map (· * s)).getD i 0 = s * addPenalty m.opts (entry w i) (d * entry x i) := by
      rw [← hent i hix, List.getD_eq_getElem _ _ (by simpa [hgl_len] using hix), List.getElem_map,
        entry, List.getD_eq_getElem _ _ (by simpa [hgl_len] using hix), mul_comm]
    rw [e]
    simp [moveWeight, realNum, entry]

/-- options of the default regressor with Huber loss and elastic-net penalty -/
noncomputable def exOpts : Opts ℝ :=
  { loss := "huber", penalty := "elasticnet", schedule := "invscaling", alpha := 1 / 10,
    l1Ratio := 1 / 4, epsilon := 1 / 2, powerT := 1 / 4, tol := 1 / 1000, fitIntercept := true,
    shuffle := true, warmStart := false, maxIter := 10 }

/-- a non-trivial state meeting the hypotheses of `sgd_step` -/
noncomputable def exReg : Reg ℝ :=
  { opts := exOpts, eta0 := 1 / 100, coef := some [1, -2], intercept := 3, nFeatures := 2,
    nIter := 1, t := 7, hist := [1], converged := false, fitted := true }

example : OptsOk exReg.opts ∧ exReg.coef = some [1, -2] ∧ ([4, 5] : List ℝ).length = 2 :=
  ⟨⟨by norm_num [exReg, exOpts], by norm_num [exReg, exOpts], by norm_num [exReg, exOpts],
    by norm_num [exReg, exOpts]⟩, rfl, rfl⟩

/-! ## C44: splitting a batch (no arithmetic law needed) -/

section
variable {α : Type _} [Add α] [Sub α] [Mul α] [Div α] [Neg α] [Zero α] [One α] [LT α] [DecidableLT α]
  [LE α] [DecidableLE α] [BEq α]

/-- the same row loop on an explicit list of samples -/
def trainS (N : Num α) : List (List α × Option α) → Reg α → α → Reg α × α × Bool
  | [], m, acc => (m, acc, false)
  | s :: ss, m, acc =>
    match s.2 with
    | none => (m, acc, true)
    | some yi =>
      match m.updateWeights N s.1 yi with
      | none => (m, acc, true)
      | some (m', l) => trainS N ss m' (acc + l)

theorem trainRows_eq (N : Num α) (X y : Mat α) (is : List Nat) (m : Reg α) (acc : α) :
    m.trainRows N X y is acc = trainS N (is.map (fun i => (X.row i, labelAt y i))) m acc := by
  induction is generalizing m acc with
  | nil => rfl
  | cons i is ih =>
    simp only [Reg.trainRows, List.map_cons, trainS]
    cases labelAt y i with
    | none => rfl
    | some yi =>
      simp only
      cases m.updateWeights N (X.row i) yi with
      | none => rfl
      | some r => exact ih _ _

theorem trainS_append (N : Num α) (a b : List (List α × Option α)) (m : Reg α) (acc : α) :
    trainS N (a ++ b) m acc =
      cond (trainS N a m acc).2.2 (trainS N a m acc)
        (trainS N b (trainS N a m acc).1 (trainS N a m acc).2.1) := by
  induction a generalizing m acc with
  | nil => simp [trainS]
  | cons s ss ih =>
    rcases s with ⟨x, _ | yi⟩
    · simp [trainS]
    · simp only [List.cons_append, trainS]
      rcases m.updateWeights N x yi with _ | ⟨m', l⟩
      · simp
      · exact ih _ _

/-- equal except for the loss history, the iteration count and the two flags -/
def Core (a b : Reg α) : Prop :=
  a.opts = b.opts ∧ a.eta0 = b.eta0 ∧ a.coef = b.coef ∧ a.intercept = b.intercept ∧
  a.nFeatures = b.nFeatures ∧ a.t = b.t

theorem learningRate_core (N : Num α) (a b : Reg α) (h : Core a b)
    (hs : a.opts.schedule ≠ "adaptive") : a.getLearningRate N = b.getLearningRate N := by
  obtain ⟨h1, h2, _, _, _, h6⟩ := h
  unfold Reg.getLearningRate learningRate
  rw [← h1, ← h2, ← h6, if_neg hs, if_neg hs]

theorem updateWeights_core (N : Num α) (a b : Reg α) (h : Core a b)
    (hs : a.opts.schedule ≠ "adaptive") (x : List α) (y : α) :
    (a.updateWeights N x y = none ∧ b.updateWeights N x y = none) ∨
    ∃ a' b' l, a.updateWeights N x y = some (a', l) ∧ b.updateWeights N x y = some (b', l) ∧
      Core a' b' ∧ a'.opts = a.opts ∧ a'.fitted = a.fitted ∧ b'.fitted = b.fitted := by
  have hl := learningRate_core N a b h hs
  unfold Reg.getLearningRate at hl
  obtain ⟨h1, h2, h3, h4, h5, h6⟩ := h
  unfold Reg.updateWeights
  simp only
  rw [← h3, ← h4]
  by_cases hw : (a.coef.getD []).length < x.length
  · left; rw [if_pos hw, if_pos hw]; exact ⟨rfl, rfl⟩
  · right
    rw [if_neg hw, if_neg hw]
    by_cases hu : N.unstable (score (a.coef.getD []) a.intercept x) = true
    · rw [if_pos hu, if_pos hu]
      exact ⟨_, _, _, rfl, rfl, ⟨h1, by simp [h2], rfl, rfl, h5, h6⟩, rfl, rfl, rfl⟩
    · rw [if_neg hu, if_neg hu, ← hl, ← h1]
      refine ⟨_, _, _, rfl, rfl, ⟨rfl, h2, rfl, rfl, h5, by simp [h6]⟩, rfl, rfl, rfl⟩

theorem trainS_core (N : Num α) (ss : List (List α × Option α)) (a b : Reg α) (h : Core a b)
    (hs : a.opts.schedule ≠ "adaptive") (p q : α) :
    Core (trainS N ss a p).1 (trainS N ss b q).1 ∧
    (trainS N ss a p).2.2 = (trainS N ss b q).2.2 ∧
    (trainS N ss a p).1.fitted = a.fitted ∧ (trainS N ss b q).1.fitted = b.fitted ∧
    (trainS N ss a p).1.opts = a.opts := by
  induction ss generalizing a b p q with
  | nil => exact ⟨h, rfl, rfl, rfl, rfl⟩
  | cons s ss ih =>
    simp only [trainS]
    cases s.2 with
    | none => exact ⟨h, rfl, rfl, rfl, rfl⟩
    | some yi =>
      simp only
      rcases updateWeights_core N a b h hs s.1 yi with ⟨e1, e2⟩ | ⟨a', b', l, e1, e2, hc, ho, f1, f2⟩
      · rw [e1, e2]; exact ⟨h, rfl, rfl, rfl, rfl⟩
      · rw [e1, e2]
        simp only
        obtain ⟨i1, i2, i3, i4, i5⟩ := ih a' b' hc (by rw [ho]; exact hs) (p + l) (q + l)
        exact ⟨i1, i2, i3.trans f1, i4.trans f2, i5.trans ho⟩

/-- the samples of a batch -/
def samplesOf (X y : Mat α) : List (List α × Option α) :=
  (List.range X.r).map (fun i => (X.row i, labelAt y i))

theorem samplesOf_vstack (A B ya yb : Mat α) (hc : A.c = B.c) (hy : ya.r = A.r) (hyc : ya.c = yb.c) :
    samplesOf (vstack A B) (vstack ya yb) = samplesOf A ya ++ samplesOf B yb := by
  unfold samplesOf
  have : (vstack A B).r = A.r + B.r := rfl
  rw [this, List.range_add, List.map_append, List.map_map]
  congr 1
  · refine List.map_congr_left fun i hi => ?_
    have hi := List.mem_range.1 hi
    refine Prod.ext ?_ ?_
    · simp only [Mat.row, vstack]
      refine List.map_congr_left fun j _ => by rw [if_pos hi]
    · have hr : (vstack ya yb).r = ya.r + yb.r := rfl
      have ha : (vstack ya yb).at' i 0 = ya.at' i 0 := if_pos (show i < ya.r by omega)
      have hcc : (vstack ya yb).c = ya.c := rfl
      simp only [labelAt]
      by_cases h : 0 < ya.c
      · rw [if_pos ⟨by omega, by omega⟩, if_pos ⟨by omega, h⟩, ha]
      · rw [if_neg (fun hh => h (hcc ▸ hh.2)), if_neg (fun hh => h hh.2)]
  · refine List.map_congr_left fun i hi => ?_
    have hi := List.mem_range.1 hi
    refine Prod.ext ?_ ?_
    · simp only [Function.comp, Mat.row, vstack, hc]
      refine List.map_congr_left fun j _ => ?_
      rw [if_neg (by omega), Nat.add_sub_cancel_left]
    · have hr : (vstack ya yb).r = ya.r + yb.r := rfl
      have ha : (vstack ya yb).at' (A.r + i) 0 = yb.at' i 0 := by
        refine (if_neg (show ¬ A.r + i < ya.r by omega)).trans ?_
        rw [hy, Nat.add_sub_cancel_left]
      have hcc : (vstack ya yb).c = ya.c := rfl
      simp only [Function.comp, labelAt]
      by_cases h : i < yb.r ∧ 0 < yb.c
      · rw [if_pos h, if_pos ⟨by omega, by omega⟩, ha]
      · rw [if_neg h, if_neg (fun hh => h ⟨by omega, by omega⟩)]

/-- the batch loop of `PartialFit` in terms of samples -/
def finish (N : Num α) (rows : Nat) (r : Reg α × α × Bool) : Reg α × Outcome Unit :=
  match r with
  | (m', _, true) => (m', .panic "index out of range")
  | (m', l, false) =>
    ({ m' with hist := m'.hist ++ [l / N.ofNat rows], nIter := m'.nIter + 1, fitted := true }, .ok ())

theorem partialFit_eq (N : Num α) (init : Nat → List α) (m : Reg α) (X y : Mat α) :
    m.partialFit N init X y =
      if X.c ≠ (m.begin init X.c).nFeatures then
        (m.begin init X.c, .err (.dimension (m.begin init X.c).nFeatures X.c 1))
      else finish N X.r (trainS N (samplesOf X y) (m.begin init X.c) 0) := by
  unfold Reg.partialFit finish
  simp only [trainRows_eq, samplesOf]
  split
  · rfl
  · rcases trainS N (List.map (fun i => (X.row i, labelAt y i)) (List.range X.r))
      (Reg.begin init X.c m) 0 with ⟨a, b, _ | _⟩ <;> rfl

theorem updateWeights_coef_isSome (N : Num α) (m m' : Reg α) (x : List α) (y l : α)
    (hc : m.coef.isSome) (h : m.updateWeights N x y = some (m', l)) :
    m'.coef.isSome ∧ m'.nFeatures = m.nFeatures := by
  unfold Reg.updateWeights at h
  simp only at h
  split at h
  · exact absurd h (by simp)
  · split at h
    · injection h with h; injection h with h1 _; subst h1; exact ⟨hc, rfl⟩
    · injection h with h; injection h with h1 _; subst h1; exact ⟨rfl, rfl⟩

theorem trainS_coef_isSome (N : Num α) (ss : List (List α × Option α)) (m : Reg α) (p : α)
    (hc : m.coef.isSome) :
    (trainS N ss m p).1.coef.isSome ∧ (trainS N ss m p).1.nFeatures = m.nFeatures := by
  induction ss generalizing m p with
  | nil => exact ⟨hc, rfl⟩
  | cons s ss ih =>
    simp only [trainS]
    cases s.2 with
    | none => exact ⟨hc, rfl⟩
    | some yi =>
      simp only
      cases h : m.updateWeights N s.1 yi with
      | none => exact ⟨hc, rfl⟩
      | some r =>
        obtain ⟨m', l⟩ := r
        simp only
        obtain ⟨h1, h2⟩ := updateWeights_coef_isSome N m m' _ _ _ hc h
        exact ⟨(ih m' _ h1).1, (ih m' _ h1).2.trans h2⟩

theorem begin_isSome (init : Nat → List α) (c : Nat) (m : Reg α) : (m.begin init c).coef.isSome := by
  unfold Reg.begin; cases h : m.coef <;> simp [h]

theorem begin_of_isSome (init : Nat → List α) (c : Nat) (m : Reg α) (h : m.coef.isSome) :
    m.begin init c = m := by
  unfold Reg.begin; cases h' : m.coef with
  | none => simp [h'] at h
  | some _ => rfl

/-- **C44** Splitting a batch: if `PartialFit` succeeds on one batch and then on a second, then one
call on the two batches stacked succeeds and gives the same model — weights, intercept, learning rate
state and step counter — for every schedule except `adaptive` (which looks at the per-call losses).
No arithmetic law is used, so this holds of floating point, NaN and infinities included. -/
theorem partialFit_split (N : Num α) (init : Nat → List α) (m m1 m2 : Reg α) (A B ya yb : Mat α)
    (hs : m.opts.schedule ≠ "adaptive") (hc : A.c = B.c) (hy : ya.r = A.r) (hyc : ya.c = yb.c)
    (h1 : m.partialFit N init A ya = (m1, .ok ())) (h2 : m1.partialFit N init B yb = (m2, .ok ())) :
    ∃ m3, m.partialFit N init (vstack A B) (vstack ya yb) = (m3, .ok ()) ∧ SameModel m2 m3 := by
  have hvc : (vstack A B).c = A.c := rfl
  rw [partialFit_eq] at h1 h2
  rw [partialFit_eq, hvc, samplesOf_vstack A B ya yb hc hy hyc]
  set b := m.begin init A.c with hb
  have hbo : b.opts = m.opts := by
    rw [hb]; unfold Reg.begin; cases m.coef <;> rfl
  by_cases hcols : A.c ≠ b.nFeatures
  · rw [if_pos hcols] at h1; simp at h1
  · rw [if_neg hcols] at h1 ⊢
    rw [trainS_append]
    rcases hr : trainS N (samplesOf A ya) b 0 with ⟨r1, l1, f1⟩
    have hbs : b.coef.isSome := begin_isSome init A.c m
    have hrs := trainS_coef_isSome N (samplesOf A ya) b 0 hbs
    have hro := (trainS_core N (samplesOf A ya) b b ⟨rfl, rfl, rfl, rfl, rfl, rfl⟩
      (by rw [hbo]; exact hs) 0 0).2.2.2.2
    rw [hr] at h1 hrs hro
    cases f1 with
    | true => simp [finish] at h1
    | false =>
      simp only [finish, Prod.mk.injEq, and_true] at h1
      simp only [cond_false]
      have hm1s : m1.coef.isSome := by rw [← h1]; exact hrs.1
      rw [begin_of_isSome init B.c m1 hm1s] at h2
      by_cases hcols2 : B.c ≠ m1.nFeatures
      · rw [if_pos hcols2] at h2; simp at h2
      · rw [if_neg hcols2] at h2
        have hcore : Core m1 r1 := by rw [← h1]; exact ⟨rfl, rfl, rfl, rfl, rfl, rfl⟩
        have hso : m1.opts.schedule ≠ "adaptive" := by
          rw [hcore.1]; simp only at hro; rw [hro, hbo]; exact hs
        have key := trainS_core N (samplesOf B yb) m1 r1 hcore hso 0 l1
        rcases hr2 : trainS N (samplesOf B yb) m1 0 with ⟨r2, l2, f2⟩
        rcases hr3 : trainS N (samplesOf B yb) r1 l1 with ⟨r3, l3, f3⟩
        rw [hr2] at h2 key
        rw [hr3] at key
        obtain ⟨⟨k1, k2, k3, k4, k5, k6⟩, hf, _, _, _⟩ := key
        simp only at hf k1 k2 k3 k4 k5 k6
        cases f2 with
        | true => simp [finish] at h2
        | false =>
          subst hf
          simp only [finish, Prod.mk.injEq, and_true] at h2 ⊢
          refine ⟨_, rfl, ?_⟩
          rw [← h2]
          exact ⟨k1, k2, k3, k4, k5, k6, rfl⟩

/-- **C44** A call with the wrong number of columns is refused and changes nothing at all. -/
theorem partialFit_wrong_width (N : Num α) (init : Nat → List α) (m : Reg α) (X y : Mat α)
    (w : List α) (hc : m.coef = some w) (hw : X.c ≠ m.nFeatures) :
    m.partialFit N init X y = (m, .err (.dimension m.nFeatures X.c 1)) := by
  have hb : m.begin init X.c = m := begin_of_isSome init X.c m (by simp [hc])
  rw [partialFit_eq, hb, if_pos hw]

end

/-- a split of a two-row batch into two one-row batches: both calls succeed, so the hypotheses of
`partialFit_split` are met -/
example : ∃ m1 m2,
    ({ exReg with coef := none, fitted := false } : Reg ℝ).partialFit realNum
      (fun c => List.replicate c 1) (Mat.ofRows [[1, 2]] 2 0) (Mat.ofRows [[3]] 1 0) = (m1, .ok ()) ∧
    m1.partialFit realNum (fun c => List.replicate c 1) (Mat.ofRows [[0, 5]] 2 0)
      (Mat.ofRows [[4]] 1 0) = (m2, .ok ()) := ⟨_, _, rfl, rfl⟩

/-! ## C44: learning rate schedules -/

/-- **C44** The schedules: `constant` is `eta0`; `optimal` is `1/(alpha (t+1))`; `invscaling` is
`eta0/(t+1)^power_t`; `adaptive` is `eta0` or half of it. With `alpha > 0`, `eta0 ≥ 0`, `power_t ≥ 0`
the rate is never negative and, for the schedules that do not look at the losses, never grows with
the number of steps taken. -/
theorem learningRate_spec (o : Opts ℝ) (eta0 : ℝ) (t : Nat) (hist : List ℝ) (ha : 0 < o.alpha)
    (he : 0 ≤ eta0) (hp : 0 ≤ o.powerT) :
    (o.schedule = "constant" → learningRate realNum o eta0 t hist = eta0) ∧
    (o.schedule = "optimal" → learningRate realNum o eta0 t hist = 1 / (o.alpha * (t + 1))) ∧
    (o.schedule = "invscaling" →
      learningRate realNum o eta0 t hist = eta0 / (t + 1 : ℝ) ^ o.powerT) ∧
    (o.schedule = "adaptive" → learningRate realNum o eta0 t hist = eta0 ∨
      learningRate realNum o eta0 t hist = eta0 / 2) ∧
    0 ≤ learningRate realNum o eta0 t hist ∧
    (o.schedule ≠ "adaptive" → ∀ t' ≥ t, ∀ hist', learningRate realNum o eta0 t' hist' ≤
      learningRate realNum o eta0 t hist) := by
  have h1 : o.schedule = "constant" → ∀ t hist, learningRate realNum o eta0 t hist = eta0 := by
    intro h t hist; simp [learningRate, h]
  have h2 : o.schedule = "optimal" →
      ∀ (t : Nat) hist, learningRate realNum o eta0 t hist = 1 / (o.alpha * (t + 1)) := by
    intro h t hist; simp [learningRate, h, realNum]
  have h3 : o.schedule = "invscaling" →
      ∀ (t : Nat) hist, learningRate realNum o eta0 t hist = eta0 / (t + 1 : ℝ) ^ o.powerT := by
    intro h t hist; simp [learningRate, h, realNum]
  have h4 : o.schedule = "adaptive" → ∀ t hist, learningRate realNum o eta0 t hist = eta0 ∨
      learningRate realNum o eta0 t hist = eta0 / 2 := by
    intro h t hist
    unfold learningRate
    rw [if_neg (by simp [h]), if_neg (by simp [h]), if_neg (by simp [h]), if_pos h]
    split_ifs
    · right; simp only [realNum]; ring
    · left; rfl
  have h5 : o.schedule ≠ "constant" → o.schedule ≠ "optimal" → o.schedule ≠ "invscaling" →
      o.schedule ≠ "adaptive" → ∀ t hist, learningRate realNum o eta0 t hist = eta0 := by
    intro a b c d t hist; simp [learningRate, a, b, c, d]
  refine ⟨fun h => h1 h t hist, fun h => h2 h t hist, fun h => h3 h t hist, fun h => h4 h t hist,
    ?_, ?_⟩
  · by_cases a : o.schedule = "constant"
    · rw [h1 a]; exact he
    by_cases b : o.schedule = "optimal"
    · rw [h2 b]; positivity
    by_cases c : o.schedule = "invscaling"
    · rw [h3 c]; positivity
    by_cases d : o.schedule = "adaptive"
    · rcases h4 d t hist with e | e <;> rw [e] <;> linarith
    · rw [h5 a b c d]; exact he
  · intro d t' ht hist'
    have ht' : (t : ℝ) ≤ t' := by exact_mod_cast ht
    by_cases a : o.schedule = "constant"
    · rw [h1 a, h1 a]
    by_cases b : o.schedule = "optimal"
    · rw [h2 b, h2 b]
      exact one_div_le_one_div_of_le (by positivity)
        (mul_le_mul_of_nonneg_left (by linarith) ha.le)
    by_cases c : o.schedule = "invscaling"
    · rw [h3 c, h3 c]
      refine div_le_div_of_nonneg_left he (by positivity) ?_
      exact Real.rpow_le_rpow (by positivity) (by linarith) hp
    · rw [h5 a b c d, h5 a b c d]

example : 0 < exOpts.alpha ∧ (0 : ℝ) ≤ 1 / 100 ∧ 0 ≤ exOpts.powerT ∧ exOpts.schedule ≠ "adaptive" :=
  ⟨by norm_num [exOpts], by norm_num, by norm_num [exOpts], by decide⟩

end Scigo.Online
