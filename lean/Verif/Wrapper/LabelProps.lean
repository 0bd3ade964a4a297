import Verif.Wrapper.TrainProps

/-!
# C165: which labels a binary classifier can be trained on
-/

set_option linter.unusedSectionVars false

namespace Scigo.Wrapper

open Scigo.LGB (ENum RealENum)
open Scigo.Trainer (bind_ok_inv Config Problem St)

/-- exact arithmetic in the trainer, with the literals of the code as far as they matter here -/
structure RealEnv (E : Env ℝ) : Prop where
  exp : ∀ x, E.num.exp x = Real.exp x
  log : ∀ x, E.num.log x = Real.log x
  ofNat : ∀ n : Nat, E.num.ofNat n = n
  tenth : E.num.tenth = 1 / 10
  e15 : 0 < E.lits.e15 ∧ E.lits.e15 ≤ 1 / 2
  e16 : 0 ≤ E.lits.e16
  eps : 0 < E.lib.eps

/-- all values of leaves are at least 0 -/
def NonnegLeaves (nodes : List (LGB.Node ℝ)) : Prop := ∀ n ∈ nodes, 0 ≤ n.leafValue

theorem buildNode_nonneg (G : Trainer.Grower ℝ) (hG : ∀ I, 0 ≤ G.leaf I) (fuel : Nat) (nodes : List (LGB.Node ℝ)) (I : List Nat) (d : Nat)
    (out : List (LGB.Node ℝ) × Nat) (h : G.buildNode fuel nodes I d = some out) (hn : NonnegLeaves nodes) : NonnegLeaves out.1 := by
  have hleaf : NonnegLeaves (nodes ++ [Trainer.leafNode (G.leaf I)]) := by
    intro n hn'
    rcases List.mem_append.1 hn' with h | h
    · exact hn n h
    · rw [List.mem_singleton.1 h]; exact hG I
  induction fuel generalizing nodes I d out with
  | zero => cases h
  | succ fuel ih =>
    rw [Trainer.Grower.buildNode] at h
    by_cases h1 : G.stops (Trainer.countLeavesInTree nodes) I d = true
    · rw [if_pos h1] at h
      cases h
      exact hleaf
    rw [if_neg h1] at h
    by_cases h2 : G.refuses (G.find I) = true
    · rw [if_pos h2] at h
      cases h
      exact hleaf
    rw [if_neg h2] at h
    have app : ∀ ns : List (LGB.Node ℝ), NonnegLeaves ns → ∀ v, 0 ≤ v → NonnegLeaves (ns ++ [Trainer.leafNode v]) := by
      intro ns hns v hv n hn'
      rcases List.mem_append.1 hn' with h | h
      · exact hns n h
      · rw [List.mem_singleton.1 h]; exact hv
    split at h
    · cases h
    · next n1 l he =>
      have hs : NonnegLeaves (nodes ++ [G.splitNode I (G.find I)]) := by
        intro n hn'
        rcases List.mem_append.1 hn' with h | h
        · exact hn n h
        · rw [List.mem_singleton.1 h]; exact le_rfl
      have h1' := ih _ _ _ _ he hs (app _ hs _ (hG _))
      split at h
      · cases h
      · next n2 r he2 =>
        have h2' := ih _ _ _ _ he2 h1' (app _ h1' _ (hG _))
        cases h
        intro n hn'
        obtain ⟨i, hi, rfl⟩ := List.mem_iff_getElem.1 hn'
        simp only [List.getElem_modify]
        have hi' : i < n2.length := by simpa using hi
        split_ifs
        · exact h2' n2[i] (List.getElem_mem hi')
        · exact h2' n2[i] (List.getElem_mem hi')

theorem leafValue_nonneg {eps l1 l2 G H : ℝ} (hD : 0 < H + l2 + eps) (hG : G ≤ 0) : 0 ≤ Trainer.leafValue eps l1 l2 G H := by
  unfold Trainer.leafValue
  simp only
  split_ifs with h1 h2 h3
  · linarith
  · exact div_nonneg (by linarith) hD.le
  · exact le_rfl
  · exact div_nonneg (by linarith) hD.le

theorem ensure_nonneg {N : ENum ℝ} (hN : RealENum N) {v : ℝ} (h : 0 ≤ v) : 0 ≤ N.toPNum.ensure v := by
  rw [ensure_real hN]
  split_ifs
  · exact le_rfl
  · exact h

/-- a tree whose leaves are not negative and that has no separate leaf values predicts no negative number -/
theorem pPredict_nonneg {N : ENum ℝ} (hN : RealENum N) (t : LGB.Tree ℝ) (ht : NonnegLeaves t.nodes) (hl : t.leafValues = []) (x : List ℝ) (v : ℝ)
    (h : t.pPredict N.toPNum x = .ok v) : 0 ≤ v := by
  have hstep : ∀ s w, t.pStep N.toPNum x s = .ok (.stop w) → 0 ≤ w := by
    intro s w hs
    unfold LGB.Tree.pStep at hs
    cases hn : t.nodeAt s.1 with
    | none => rw [hn] at hs; cases hs; exact le_rfl
    | some n =>
      rw [hn] at hs
      have hmem : 0 ≤ n.leafValue := by
        apply ht
        unfold LGB.Tree.nodeAt at hn
        split_ifs at hn
        exact List.mem_of_getElem? hn
      simp only at hs
      by_cases h1 : ¬ s.2 < t.nodes.length * 2
      · rw [if_pos h1] at hs; cases hs; exact le_rfl
      rw [if_neg h1] at hs
      by_cases h2 : n.isLeaf = true
      · rw [if_pos h2] at hs; cases hs; exact ensure_nonneg hN hmem
      rw [if_neg h2] at hs
      by_cases h3 : n.feature < 0
      · rw [if_pos h3] at hs; cases hs
      rw [if_neg h3] at hs
      cases hx : x[n.feature.toNat]? with
      | none => rw [hx] at hs; cases hs
      | some u =>
        rw [hx] at hs
        simp only at hs
        by_cases h4 : LGB.isNaN u = true
        · rw [if_pos h4] at hs; cases hs
        rw [if_neg h4] at hs
        cases hk : n.kind with
        | numerical =>
          rw [hk] at hs
          simp only [hl, List.getElem?_nil] at hs
          split_ifs at hs <;> first | (cases hs; done) | (cases hs; exact le_rfl)
        | categorical =>
          rw [hk] at hs
          simp only [hl, List.getElem?_nil] at hs
          split_ifs at hs <;> first | (cases hs; done) | (cases hs; exact le_rfl)
        | leaf => rw [hk] at hs; cases hs; exact ensure_nonneg hN hmem
        | other =>
          rw [hk] at hs
          simp only [hl, List.getElem?_nil] at hs
          split_ifs at hs <;> first | (cases hs; done) | (cases hs; exact le_rfl)
  have hloop : ∀ n s w, LGB.loop (t.pStep N.toPNum x) n s = some (.ok w) → 0 ≤ w := by
    intro n
    induction n with
    | zero => intro s w h; cases h
    | succ n ih =>
      intro s w h
      rw [LGB.loop] at h
      cases hs : t.pStep N.toPNum x s with
      | err e => rw [hs] at h; cases h
      | panic e => rw [hs] at h; cases h
      | ok mv =>
        rw [hs] at h
        cases mv with
        | stop u => cases h; exact hstep s w hs
        | go s' => exact ih s' w h
  unfold LGB.Tree.pPredict at h
  cases hh : LGB.loop (t.pStep N.toPNum x) ((t.nodes.length * 2 + 1) * (t.nodes.length + 1) + 1) (0, 0) with
  | none => rw [hh] at h; cases h
  | some o =>
    rw [hh] at h
    have h : o = .ok v := h
    rw [h] at hh
    exact hloop _ _ _ hh

theorem accumulate_nonneg {m : LGB.Model ℝ} {out : LGB.Tree ℝ → Outcome ℝ} {upd : LGB.Tree ℝ → ℝ → ℝ → ℝ} {ts : List (LGB.Tree ℝ × Nat)}
    (hout : ∀ p ∈ ts, ∀ v, out p.1 = .ok v → ∀ s, 0 ≤ s → 0 ≤ upd p.1 s v) {p q : List ℝ} (hp : ∀ s ∈ p, 0 ≤ s)
    (h : m.accumulate out upd ts p = .ok q) : ∀ s ∈ q, 0 ≤ s := by
  induction ts generalizing p with
  | nil => cases h; exact hp
  | cons t ts ih =>
    obtain ⟨t, i⟩ := t
    rw [LGB.Model.accumulate] at h
    cases ho : out t with
    | err e => rw [ho] at h; cases h
    | panic e => rw [ho] at h; cases h
    | ok v =>
      rw [ho] at h
      refine ih (fun p hp' => hout p (List.mem_cons_of_mem _ hp')) ?_ h
      intro s hs
      obtain ⟨j, hj, rfl⟩ := List.mem_iff_getElem.1 hs
      simp only [List.getElem_modify]
      have hj' : j < p.length := by simpa using hj
      split_ifs
      · exact hout (t, i) (List.mem_cons_self ..) v ho _ (hp _ (List.getElem_mem hj'))
      · exact hp _ (List.getElem_mem hj')

theorem sum_nonpos (g : Nat → ℝ) (hg : ∀ i, g i ≤ 0) (I : List Nat) : sumOver I g ≤ 0 := by
  rw [sumOver_eq]
  induction I with
  | nil => simp
  | cons a I ih => rw [List.map_cons, List.sum_cons]; linarith [hg a]

theorem sum_nonneg' (g : Nat → ℝ) (hg : ∀ i, 0 ≤ g i) (I : List Nat) : 0 ≤ sumOver I g := by
  rw [sumOver_eq]
  induction I with
  | nil => simp
  | cons a I ih => rw [List.map_cons, List.sum_cons]; linarith [hg a]

/-- the sigmoid of the objective lies between 0 and 1 -/
theorem clampedSigmoid_range {E : Env ℝ} (hE : RealEnv E) (p : ℝ) :
    0 < Boost.clampedSigmoid E.num E.lits p ∧ Boost.clampedSigmoid E.num E.lits p < 1 := by
  unfold Boost.clampedSigmoid
  rw [hE.exp]
  have := Real.exp_pos (-Boost.clampA E.lits p)
  refine ⟨by positivity, ?_⟩
  rw [div_lt_one (by linarith)]
  linarith

/-- what the scores, weights and targets of a training set with targets of at least 1 give -/
theorem binary_derivs_sign {E : Env ℝ} (hE : RealEnv E) (C : Config ℝ) (hobj : C.objective = Boost.binary E.num E.lits) (hcw : C.classWeight = none)
    (toInt : ℝ → Int) (P : Problem ℝ) (hw : ∀ i < P.rows, 0 ≤ Trainer.rowWeight C i) (hy : ∀ i < P.rows, 1 ≤ P.y.getD i 0) (scores : Nat → ℝ) (i : Nat) :
    Trainer.weightedDeriv C toInt P C.objective.grad scores i ≤ 0 ∧ 0 ≤ Trainer.weightedDeriv C toInt P C.objective.hess scores i := by
  unfold Trainer.weightedDeriv
  by_cases hi : i < P.rows
  · rw [if_pos hi, if_pos hi]
    unfold Trainer.factors
    rw [hcw, hobj]
    simp only [List.foldl_cons, List.foldl_nil, Boost.binary]
    obtain ⟨s1, s2⟩ := clampedSigmoid_range hE (scores i)
    have h1 := hw i hi
    have h2 := hy i hi
    constructor
    · exact mul_nonpos_of_nonpos_of_nonneg (by linarith) h1
    · refine mul_nonneg ?_ h1
      unfold Boost.maxA
      split_ifs with h
      · exact mul_nonneg s1.le (by linarith)
      · exact hE.e16
  · rw [if_neg hi, if_neg hi]
    exact ⟨le_rfl, le_rfl⟩

theorem binary_init_nonneg {E : Env ℝ} (hE : RealEnv E) (ys : List ℝ) (hy : ∀ v ∈ ys, 1 ≤ v) : 0 ≤ (Boost.binary E.num E.lits).init ys := by
  show 0 ≤ (if ys.length = 0 then 0 else E.num.log _)
  by_cases h0 : ys.length = 0
  · rw [if_pos h0]
  rw [if_neg h0, hE.log]
  have hmean : 1 ≤ Boost.meanOf E.num ys := by
    unfold Boost.meanOf
    rw [hE.ofNat]
    have hpos : (0 : ℝ) < ys.length := by exact_mod_cast Nat.pos_of_ne_zero h0
    rw [le_div_iff₀ hpos, one_mul]
    have : ∀ (l : List ℝ) (a : ℝ), (∀ v ∈ l, 1 ≤ v) → a + l.length ≤ l.foldl (· + ·) a := by
      intro l
      induction l with
      | nil => intro a _; simp
      | cons b l ih =>
        intro a hl
        rw [List.foldl_cons]
        have h1 := ih (a + b) (fun v hv => hl v (List.mem_cons_of_mem _ hv))
        have h2 := hl b (List.mem_cons_self ..)
        rw [List.length_cons]
        push_cast
        linarith
    have := this ys 0 hy
    linarith
  obtain ⟨e1, e2⟩ := hE.e15
  have hmin : Boost.minA (1 - E.lits.e15) (Boost.meanOf E.num ys) = 1 - E.lits.e15 := by
    unfold Boost.minA
    rw [if_neg (by linarith)]
  have hmax : Boost.maxA E.lits.e15 (1 - E.lits.e15) = 1 - E.lits.e15 := by
    unfold Boost.maxA
    split_ifs with h
    · rfl
    · linarith
  rw [hmin, hmax]
  apply Real.log_nonneg
  rw [le_div_iff₀ (by linarith)]
  linarith

/-- the weights a request carries are not negative -/
def NonnegWeights (r : Request ℝ) : Prop := ∀ w, r.weights = some w → ∀ v ∈ w, 0 ≤ v

/-- the objective a request for binary classification trains with -/
theorem train_binary {E : Env ℝ} {r : Request ℝ} (hobj : r.objective = "binary") {X y : Mat ℝ} {model : LGB.Model ℝ} (ht : train E r X y = .ok model) :
    ∃ st, (r.config E (Boost.binary E.num E.lits)).fit E.lib E.byGrad (E.rand r.seed r.deterministic) E.fuel (problem X y) (fun _ _ => .go)
        (fun _ _ => .go) Trainer.St.new = .ok st ∧
      model = (r.config E (Boost.binary E.num E.lits)).getModel r.objective r.numClass (problem X y) st := by
  obtain ⟨obj, st, ho, hfit, hm⟩ := train_ok ht
  have ho : Boost.binary E.num E.lits = obj := by
    rw [hobj] at ho
    have : Boost.createObjective E.num E.lits E.floor E.ceil r.huberDelta r.fairC r.quantileAlpha r.tweediePower E.threeHalves "binary" =
        some (Boost.binary E.num E.lits) := by
      unfold Boost.createObjective
      rw [if_neg (by decide), if_neg (by decide), if_neg (by decide), if_neg (by decide), if_neg (by decide), if_neg (by decide), if_neg (by decide),
        if_neg (by decide), if_neg (by decide), if_pos (by decide)]
    rw [this] at ho
    exact Option.some.inj ho
  subst ho
  exact ⟨st, hfit, hm⟩

/-- the raw score of a binary model trained on targets of at least 1 is never negative -/
theorem scores_nonneg {E : Env ℝ} (hE : RealEnv E) {N : ENum ℝ} (hN : RealENum N) (r : Request ℝ) (hobj : r.objective = "binary") (hb : r.boosting = "")
    (hlr : 0 ≤ r.learningRate) (hl : 0 ≤ r.lambda) (hw : NonnegWeights r) (hi : ∀ s, r.initScore = some s → 0 ≤ s) (X y : Mat ℝ) (hr : X.r = y.r)
    (hy : ∀ i < y.r, 1 ≤ y.at' i 0) (model : LGB.Model ℝ) (ht : train E r X y = .ok model) (x : List ℝ) (raw : List ℝ)
    (h : model.pRaw N x = .ok raw) : ∀ s ∈ raw, 0 ≤ s := by
  obtain ⟨st, hfit, rfl⟩ := train_binary hobj ht
  obtain ⟨C, hC⟩ : ∃ C, C = Request.config E r (Boost.binary E.num E.lits) := ⟨_, rfl⟩
  rw [← hC] at hfit h
  obtain ⟨-, -, hsh, hgrown, -, -, -⟩ := Trainer.fit_boosts C E.lib E.byGrad _ E.fuel (problem X y) _ _ st hfit
  have hlr' : 0 ≤ C.learningRate := by
    rw [hC]
    show 0 ≤ orDefault r.learningRate E.num.tenth
    unfold orDefault
    split_ifs
    · rw [hE.tenth]; norm_num
    · exact hlr
  have hrows : ∀ i < (problem X y).rows, 1 ≤ (problem X y).y.getD i 0 := by
    intro i hi'
    have hi' : i < y.r := hr ▸ hi'
    show 1 ≤ ((List.range y.r).map (fun i => y.at' i 0)).getD i 0
    rw [List.getD_eq_getElem?_getD, List.getElem?_map, List.getElem?_range hi']
    exact hy i hi'
  have hwt : ∀ i < (problem X y).rows, 0 ≤ Trainer.rowWeight C i := by
    intro i _
    have hcw' : C.weights = r.weights := by rw [hC]; rfl
    unfold Trainer.rowWeight
    rw [hcw']
    cases hrw : r.weights with
    | none => exact zero_le_one
    | some w =>
      simp only
      rw [List.getD_eq_getElem?_getD]
      cases hg : w[i]? with
      | none => exact le_rfl
      | some v => exact hw w hrw v (List.mem_of_getElem? hg)
  have hobjC : C.objective = Boost.binary E.num E.lits := by rw [hC]; rfl
  have hcw : C.classWeight = none := by rw [hC]; rfl
  have hbC : C.boosting ≠ "goss" := by rw [hC]; show r.boosting ≠ "goss"; rw [hb]; decide
  have htree : ∀ t ∈ st.trees, NonnegLeaves t.nodes ∧ t.leafValues = [] ∧ t.shrinkage = C.learningRate := by
    intro t htm
    obtain ⟨k, hk, rfl⟩ := List.mem_iff_getElem.1 htm
    obtain ⟨scores, -, hbt⟩ := hgrown k st.trees[k] (List.getElem?_eq_getElem hk)
    refine ⟨?_, ?_, hsh _ htm⟩
    · unfold Config.sample at hbt
      rw [if_neg hbC] at hbt
      simp only at hbt
      unfold Trainer.Grower.buildTree at hbt
      split at hbt
      · cases hbt
      · next nodes _ he =>
        have hbt := Option.some.inj hbt
        rw [← hbt]
        refine buildNode_nonneg _ (fun I => ?_) _ _ _ _ _ he (by intro n hn; cases hn)
        show 0 ≤ Trainer.calculateLeafValue E.lib.eps C.hb.alpha C.hb.lambda _ _ I
        unfold Trainer.calculateLeafValue
        have hsign := binary_derivs_sign hE C hobjC hcw E.lib.toInt (problem X y) hwt hrows scores
        have h1 := sum_nonpos _ (fun i => (hsign i).1) I
        have h2 := sum_nonneg' _ (fun i => (hsign i).2) I
        have h3 : 0 ≤ C.hb.lambda := by rw [hC]; exact hl
        have h4 := hE.eps
        exact leafValue_nonneg (by linarith) h1
    · unfold Trainer.Grower.buildTree at hbt
      simp only at hbt
      split at hbt
      · cases hbt
      · rw [← Option.some.inj hbt]
  have hinit : 0 ≤ C.init (problem X y) := by
    unfold Config.init
    rw [hC]
    show 0 ≤ r.initScore.getD ((Boost.binary E.num E.lits).init (problem X y).y)
    cases hs : r.initScore with
    | some s => exact hi s hs
    | none =>
      apply binary_init_nonneg hE
      intro v hv
      obtain ⟨i, hi', rfl⟩ := List.mem_map.1 hv
      exact hy i (List.mem_range.1 hi')
  unfold LGB.Model.pRaw at h
  refine accumulate_nonneg ?_ ?_ h
  · intro p hp v hv s hs
    have hmem : p.1 ∈ st.trees := List.mem_of_mem_take (LGB.mem_zipIdx_fst hp)
    obtain ⟨a1, a2, a3⟩ := htree p.1 hmem
    have hv0 := pPredict_nonneg hN p.1 a1 a2 _ v hv
    apply ensure_nonneg hN
    have : 0 ≤ LGB.Model.rate (C.getModel r.objective r.numClass (problem X y) st) p.1 := by
      unfold LGB.Model.rate
      split_ifs
      · exact hlr'
      · rw [a3]; exact hlr'
    have := mul_nonneg hv0 this
    linarith
  · intro s hs
    unfold LGB.Model.start at hs
    split_ifs at hs
    · rw [List.eq_of_mem_replicate hs]; exact hinit
    · rw [List.mem_singleton.1 hs]; exact hinit

/-- the request a training method of a classifier makes, for a classifier whose classes are known -/
theorem trained_request {c : ℝ} {toInt : ℝ → Int} {iter : List Int → List Int} {tr : Request ℝ → Mat ℝ → Mat ℝ → Outcome (LGB.Model ℝ)}
    {m : Clf ℝ} {X y : Mat ℝ} {m' : Clf ℝ} (h : m.fit c toInt iter tr X y = (m', .ok ())) (h2 : m'.classes.length = 2) :
    ∃ r model, r.objective = "binary" ∧ r.boosting = "" ∧ r.learningRate = m.opts.learningRate ∧ r.lambda = m.opts.regLambda ∧ r.weights = none ∧
      r.initScore = none ∧ r.numClass = 1 ∧ r.alpha = m.opts.regAlpha ∧ r.maxBin = 255 ∧ r.categorical = [] ∧ tr r X y = .ok model ∧ m'.model = some model := by
  unfold Clf.fit at h
  by_cases h1 : X.r ≠ y.r
  · rw [if_pos h1] at h; cases h
  rw [if_neg h1] at h
  by_cases h3 : y.c ≠ 1
  · rw [if_pos h3] at h; cases h
  rw [if_neg h3] at h
  obtain ⟨e1, e2⟩ := Prod.mk.inj h
  have hcls := (fitBody_inv toInt iter tr (Clf.request c) (fun _ => ⟨rfl, rfl⟩) m X y).1
  rw [e1] at hcls
  unfold Clf.fitBody at e1 e2
  simp only at e1 e2
  have hso : Clf.setObjective { m with classes := extractClasses toInt iter y } =
      some { m with classes := extractClasses toInt iter y, objective := "binary", numClass := 1 } := by
    unfold Clf.setObjective
    rw [if_pos (by rw [← hcls]; exact h2)]
  rw [hso] at e1 e2
  simp only at e1 e2
  split at e1
  · next model hm =>
    refine ⟨_, model, rfl, rfl, rfl, rfl, rfl, rfl, rfl, rfl, rfl, rfl, hm, ?_⟩
    rw [← e1]
  · next hm =>
    rw [hm] at e2
    cases e2
  · next hm =>
    rw [hm] at e2
    cases e2

/-- **C165** is false (exact arithmetic): a classifier trained with `Fit` on two classes whose targets are all at least 1, such as 1 and 2, predicts the
larger class for every input: the labels themselves are used as the 0/1 targets of the logistic loss. -/
theorem labels_from_one_never_separate (E : Env ℝ) (hE : RealEnv E) {N : ENum ℝ} (hN : RealENum N) (he : N.epsilon ≤ 1 / 2) (c : ℝ)
    (toInt : ℝ → Int) {iter : List Int → List Int} (hi : MapKeys iter) (m m' : Clf ℝ) (X y : Mat ℝ)
    (ht : m.fit c toInt iter (train E) X y = (m', .ok ())) (a b : Int) (hab : m'.classes = [a, b]) (hlr : 0 ≤ m.opts.learningRate)
    (hl : 0 ≤ m.opts.regLambda) (hy : ∀ i < y.r, 1 ≤ y.at' i 0) (Z : Mat ℝ) (ls : List Int) (h : m'.predict N (1 / 2) Z = .ok ls) :
    a < b ∧ ∀ l ∈ ls, l = b := by
  have hk := trained_knows c toInt hi (train E) m X y m' (.fit ht)
  refine ⟨?_, fun l hl' => ?_⟩
  · have := hk.sorted
    rw [hab] at this
    exact (List.pairwise_cons.1 this).1 b (by simp)
  obtain ⟨r, model, ho, hb, r1, r2, r3, r4, r5, -, -, -, htr, hm⟩ := trained_request ht (by rw [hab]; rfl)
  obtain ⟨P, p1, p2, p3, p4, p5⟩ := predict_follows_proba N (1 / 2) m' Z ls h
  obtain ⟨i, hi', rfl⟩ := List.mem_iff_getElem.1 hl'
  obtain ⟨l, e1, e2, -⟩ := p5 i (by omega)
  rw [List.getElem?_eq_getElem hi'] at e1
  cases e1
  rw [e2 a b hab]
  refine if_pos ?_
  obtain ⟨model', hm', hp⟩ := predictProba_ok p1
  rw [hm] at hm'
  cases hm'
  obtain ⟨s1, s2, -⟩ := train_serves E r X y model htr
  have hob : model.objective = "binary" ∨ model.objective = "cross_entropy" := Or.inl (s1.trans ho)
  unfold predictorProba at hp
  obtain ⟨Q, hq, hp⟩ := bind_ok_inv hp
  rw [if_pos hob] at hp
  have hp := Outcome.ok.inj hp
  obtain ⟨-, -, q3, q4, q5⟩ := LGB.batch_ok hq
  have hPi : P.at' i 1 = Q.at' i 0 := by rw [← hp]; rfl
  have hr' : Q.r = P.r := by rw [← hp]
  rw [hPi]
  obtain ⟨p, f1, f2⟩ := q5 i (by omega)
  rw [f2 0]
  unfold LGB.Model.pSample at f1
  obtain ⟨raw, g1, g2⟩ := bind_ok_inv f1
  have g2 : model.pLink N raw = p := Outcome.ok.inj g2
  have hnc : model.numClass = 1 := (s2 (by omega)).trans r5
  have hcols : model.outCols = 1 := by unfold LGB.Model.outCols; rw [if_neg (by omega)]
  have hlen := ((LGB.accumulate_length _ _ _ _ _ _ g1).trans (LGB.start_length model)).trans hcols
  have hnn := scores_nonneg hE hN r ho hb (by rw [r1]; exact hlr) (by rw [r2]; exact hl) (by intro w hw; rw [r3] at hw; cases hw)
    (by intro s hs; rw [r4] at hs; cases hs) X y hk.rows hy model htr _ raw g1
  obtain ⟨s, rfl⟩ := List.length_eq_one_iff.1 hlen
  rw [← g2]
  unfold LGB.Model.pLink
  rw [if_pos hob]
  simpa using stableSigmoid_half hN he s (hnn s (by simp))

/-- **C165**, what holds: for the labels 0 and 1 the targets of the logistic loss are the indicators of the larger class: every tree is grown from the
gradients `sigmoid(score) - [the row is in the larger class]` at the scores of the trees before it. Missing: any other pair of labels, see
`labels_from_one_never_separate`. -/
theorem zero_one_labels_partial (E : Env ℝ) (c : ℝ) (toInt : ℝ → Int) (h0 : toInt 0 = 0) (h1 : toInt 1 = 1) {iter : List Int → List Int}
    (hi : MapKeys iter) (m m' : Clf ℝ) (X y : Mat ℝ) (ht : m.fit c toInt iter (train E) X y = (m', .ok ()))
    (hy : ∀ i < y.r, y.at' i 0 = 0 ∨ y.at' i 0 = 1) :
    m'.classes = [0, 1] ∧ ∃ model, m'.model = some model ∧ ∀ (k : Nat) (t : LGB.Tree ℝ), model.trees[k]? = some t →
      ∃ (lim : Trainer.Limits ℝ) (rate : ℝ) (I : List Nat) (scores g h : Nat → ℝ),
        (∀ i < X.r, Trainer.IsScore E.lib.toInt rate model.initScore (X.row i) (model.trees.take k) (scores i)) ∧
        (Trainer.grower E.lib ⟨255, m.opts.regLambda, m.opts.regAlpha⟩ lim [] ⟨X.c, X.at', g, h⟩).buildTree rate E.fuel I = some t ∧
        ∀ i < X.r, g i = 1 / (1 + E.num.exp (-Boost.clampA E.lits (scores i))) - (if toInt (y.at' i 0) = 1 then 1 else 0) := by
  have hk := trained_knows c toInt hi (train E) m X y m' (.fit ht)
  have hcls : m'.classes = [0, 1] := by
    obtain ⟨r, model, ha, -, -⟩ := hk.model
    have hsub : ∀ c ∈ m'.classes, c = 0 ∨ c = 1 := by
      intro c hc
      obtain ⟨i, hi', rfl⟩ := (hk.seen c).1 hc
      rcases hy i hi' with h | h <;> rw [h]
      · exact Or.inl h0
      · exact Or.inr h1
    have hlen : 2 ≤ m'.classes.length := by
      rcases ha with ⟨h, -⟩ | ⟨h, -⟩ <;> omega
    have hs := hk.sorted
    match hm : m'.classes, hlen, hsub, hs with
    | [a, b], _, hsub, hs =>
      have hab : a < b := (List.pairwise_cons.1 hs).1 b (by simp)
      rcases hsub a (by simp) with rfl | rfl <;> rcases hsub b (by simp) with rfl | rfl
      · exact absurd hab (by decide)
      · rfl
      · exact absurd hab (by decide)
      · exact absurd hab (by decide)
    | a :: b :: d :: l, _, hsub, hs =>
      have hab : a < b := (List.pairwise_cons.1 hs).1 b (by simp)
      have hbd : b < d := (List.pairwise_cons.1 (List.pairwise_cons.1 hs).2).1 d (by simp)
      have := hsub a (by simp)
      have := hsub b (by simp)
      have := hsub d (by simp)
      omega
  refine ⟨hcls, ?_⟩
  obtain ⟨r, model, ho, hb, r1, r2, r3, r4, r5, r6, r7, r8, htr, hm⟩ := trained_request ht (by rw [hcls]; rfl)
  refine ⟨model, hm, ?_⟩
  obtain ⟨st, hfit, rfl⟩ := train_binary ho htr
  obtain ⟨C, hC⟩ : ∃ C, C = Request.config E r (Boost.binary E.num E.lits) := ⟨_, rfl⟩
  rw [← hC] at hfit ⊢
  obtain ⟨-, -, -, hgrown, -, -, -⟩ := Trainer.fit_boosts C E.lib E.byGrad _ E.fuel (problem X y) _ _ st hfit
  have hobjC : C.objective = Boost.binary E.num E.lits := by rw [hC]; rfl
  have hcw : C.classWeight = none := by rw [hC]; rfl
  have hwt : C.weights = none := by rw [hC]; exact r3
  have hbC : C.boosting ≠ "goss" := by rw [hC]; show r.boosting ≠ "goss"; rw [hb]; decide
  have hhb : C.hb = ⟨255, m.opts.regLambda, m.opts.regAlpha⟩ := by
    rw [hC]
    show (⟨(orDefault r.maxBin 255).toNat, r.lambda, r.alpha⟩ : Hist.Builder ℝ) = _
    rw [r2, r6, r7]
    rfl
  have hcat : C.categorical = [] := by rw [hC]; exact r8
  intro k t hkt
  obtain ⟨scores, hsc, hbt⟩ := hgrown k t hkt
  unfold Config.sample at hbt
  rw [if_neg hbC, hhb, hcat] at hbt
  refine ⟨C.lim, C.learningRate, _, scores, _, _, hsc, hbt, fun i hi' => ?_⟩
  have hiy : i < y.r := hk.rows ▸ hi'
  show Trainer.weightedDeriv C E.lib.toInt (problem X y) C.objective.grad scores i = _
  unfold Trainer.weightedDeriv
  rw [if_pos (show i < (problem X y).rows from hi')]
  unfold Trainer.factors Trainer.rowWeight
  rw [hcw, hwt, hobjC]
  have hyi : (problem X y).y.getD i 0 = y.at' i 0 := by
    show ((List.range y.r).map (fun i => y.at' i 0)).getD i 0 = _
    rw [List.getD_eq_getElem?_getD, List.getElem?_map, List.getElem?_range hiy]
    rfl
  have hind : (if toInt (y.at' i 0) = 1 then (1 : ℝ) else 0) = y.at' i 0 := by
    rcases hy i hiy with h | h <;> rw [h]
    · rw [h0, if_neg (by decide)]
    · rw [h1, if_pos rfl]
  rw [hyi, hind]
  simp only [List.foldl_cons, List.foldl_nil, Boost.binary, mul_one]
  rfl

end Scigo.Wrapper
