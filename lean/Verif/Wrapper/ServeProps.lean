import Verif.Wrapper.LabelProps

/-!
# C168: training and predicting do not fail
-/

set_option linter.unusedSectionVars false

namespace Scigo.Wrapper

open Scigo.LGB (ENum RealENum Stores Asks DTree)
open Scigo.Trainer (bind_ok_inv Config Problem St)

section lawfree
variable {α : Type} [BEq α] [LE α] [DecidableLE α] [LT α] [DecidableLT α] [Zero α] [One α] [Add α] [Sub α] [Neg α] [Mul α] [Div α]

/-- the predictor's traversal ends with a number, wherever the comparisons lead it -/
theorem stores_pReturns (P : LGB.PNum α) (t : LGB.Tree α) (x : List α) (id : Int) (d : DTree α) (h : Stores t id d) (hf : d.Features x.length) (it : Nat) :
    ∃ v, LGB.Returns (t.pStep P x) (id, it) (.ok v) := by
  induction h generalizing it with
  | outside id hn => exact ⟨0, LGB.returns_stop (by simp [LGB.Tree.pStep, hn])⟩
  | leaf id n hn hl =>
    by_cases h1 : it < t.nodes.length * 2
    · exact ⟨P.ensure n.leafValue, LGB.returns_stop (by unfold LGB.Tree.pStep; simp only [hn]; rw [if_neg (by omega), if_pos hl])⟩
    · exact ⟨0, LGB.returns_stop (by unfold LGB.Tree.pStep; simp only [hn]; rw [if_pos (by omega)])⟩
  | split id n s l r hn hl ha _ _ ihl ihr =>
    obtain ⟨h1, h2, h3⟩ := hf
    by_cases hc : it < t.nodes.length * 2
    swap
    · exact ⟨0, LGB.returns_stop (by unfold LGB.Tree.pStep; simp only [hn]; rw [if_pos (by omega)])⟩
    have hfeat : 0 ≤ n.feature ∧ n.feature < x.length ∧ (n.kind = .numerical ∨ n.kind = .categorical) := by
      cases ha with
      | num f hk hfe => rw [hfe]; exact ⟨by omega, by exact_mod_cast h1, Or.inl hk⟩
      | cat f hk hfe => rw [hfe]; exact ⟨by omega, by exact_mod_cast h1, Or.inr hk⟩
    obtain ⟨f0, f1, f2⟩ := hfeat
    have hv := LGB.getElem?_feature f0 f1
    have hgo : ∀ (b : Bool) (it : Nat), ∃ v, LGB.Returns (t.pStep P x) (if b then n.left else n.right, it) (.ok v) := by
      intro b it
      cases b
      · exact ihr h3 it
      · exact ihl h2 it
    by_cases hnan : LGB.isNaN (x.getD n.feature.toNat 0) = true
    · obtain ⟨v, h⟩ := hgo n.defaultLeft it
      refine ⟨v, LGB.returns_go (s' := (n.default, it)) ?_ h⟩
      unfold LGB.Tree.pStep
      simp only [hn]
      rw [if_neg (by omega), if_neg (by simp [hl]), if_neg (by omega), hv]
      simp only [hnan, if_true]
    have hnan : LGB.isNaN (x.getD n.feature.toNat 0) = false := by simpa using hnan
    have key : ∀ (b : Bool) (w : α), (if (if b then n.left else n.right) < 0 then .ok (.stop w) else .ok (.go (if b then n.left else n.right, it + 1))) =
        t.pStep P x (id, it) → ∃ v, LGB.Returns (t.pStep P x) (id, it) (.ok v) := by
      intro b w hb
      by_cases hneg : (if b then n.left else n.right) < 0
      · rw [if_pos hneg] at hb
        exact ⟨_, LGB.returns_stop hb.symm⟩
      · rw [if_neg hneg] at hb
        obtain ⟨v, h⟩ := hgo b (it + 1)
        exact ⟨v, LGB.returns_go hb.symm h⟩
    rcases f2 with hk | hk
    · refine key (P.leq (x.getD n.feature.toNat 0) n.threshold) ?_ ?_
      rotate_left
      · conv_rhs => unfold LGB.Tree.pStep
        simp only [hn]
        rw [if_neg (by omega : ¬ ¬ it < t.nodes.length * 2), if_neg (by simp [hl] : ¬ n.isLeaf = true), if_neg (by omega : ¬ n.feature < 0), hv]
        simp only [hnan, hk, Bool.false_eq_true, if_false]
        rfl
    · refine key (n.categories.contains (P.round (x.getD n.feature.toNat 0))) ?_ ?_
      rotate_left
      · conv_rhs => unfold LGB.Tree.pStep
        simp only [hn]
        rw [if_neg (by omega : ¬ ¬ it < t.nodes.length * 2), if_neg (by simp [hl] : ¬ n.isLeaf = true), if_neg (by omega : ¬ n.feature < 0), hv]
        simp only [hnan, hk, Bool.false_eq_true, if_false]
        rfl

theorem accumulate_total {m : LGB.Model α} {out : LGB.Tree α → Outcome α} {upd : LGB.Tree α → α → α → α} {ts : List (LGB.Tree α × Nat)}
    (h : ∀ p ∈ ts, ∃ v, out p.1 = .ok v) (p : List α) : ∃ q, m.accumulate out upd ts p = .ok q := by
  induction ts generalizing p with
  | nil => exact ⟨p, rfl⟩
  | cons t ts ih =>
    obtain ⟨t, i⟩ := t
    obtain ⟨v, hv⟩ := h (t, i) (List.mem_cons_self ..)
    obtain ⟨q, hq⟩ := ih (fun p hp => h p (List.mem_cons_of_mem _ hp)) (p.modify (m.slot i) (fun s => upd t s v))
    exact ⟨q, by rw [LGB.Model.accumulate, hv]; exact hq⟩

theorem batch_total {m : LGB.Model α} {X : Mat α} {f : List α → Outcome (List α)} (hc : (X.c : Int) = m.numFeatures) (hr : 0 < X.r)
    (h : ∀ i < X.r, ∃ p, f (LGB.rowOf X i) = .ok p) : ∃ M, m.batch X f = .ok M := by
  have : ∀ n ≤ X.r, ∃ rows, LGB.forRows X f n = .ok rows := by
    intro n
    induction n with
    | zero => intro _; exact ⟨[], rfl⟩
    | succ n ih =>
      intro hn
      obtain ⟨rows, e⟩ := ih (by omega)
      obtain ⟨p, hp⟩ := h n (by omega)
      exact ⟨rows ++ [p], by rw [LGB.forRows, e]; simp only; rw [hp]⟩
  obtain ⟨rows, e⟩ := this X.r le_rfl
  unfold LGB.Model.batch
  rw [if_neg (not_not.2 hc), if_neg (by omega), e]
  exact ⟨_, rfl⟩

/-- a model whose trees are stored properly and ask about its features predicts every matrix of its width -/
theorem pPredict_total (N : ENum α) (m : LGB.Model α) (k : Nat) (hk : m.numFeatures = k) (ht : ∀ t ∈ m.trees, ∃ d : DTree α, Stores t 0 d ∧ d.Features k)
    (X : Mat α) (hc : X.c = k) (hr : 0 < X.r) : ∃ P, m.pPredict N X = .ok P := by
  apply batch_total (by rw [hk, hc]) hr
  intro i _
  unfold LGB.Model.pSample LGB.Model.pRaw
  obtain ⟨q, hq⟩ := accumulate_total (m := m) (out := fun t => t.pPredict N.toPNum (LGB.fillMissing (LGB.rowOf X i)))
    (upd := fun t s v => N.toPNum.ensure (s + v * m.rate t)) (ts := (m.trees.take m.usedTrees).zipIdx) (by
      intro p hp
      obtain ⟨d, h1, h2⟩ := ht p.1 (List.mem_of_mem_take (LGB.mem_zipIdx_fst hp))
      obtain ⟨v, hv⟩ := stores_pReturns N.toPNum p.1 (LGB.fillMissing (LGB.rowOf X i)) 0 d h1
        (by rw [show (LGB.fillMissing (LGB.rowOf X i)).length = k by simp [LGB.fillMissing, LGB.rowOf, hc]]; exact h2) 0
      exact ⟨v, LGB.pPredict_returns _ _ _ _ hv⟩) m.start
  exact ⟨_, by rw [hq]; rfl⟩

theorem labelsOf_total {half : α} {classes : List Int} {rows : List (List α)} (h : ∀ r ∈ rows, ∃ l, labelOf half classes r = .ok l) :
    ∃ ls, labelsOf half classes rows = .ok ls := by
  induction rows with
  | nil => exact ⟨[], rfl⟩
  | cons r rs ih =>
    obtain ⟨l, hl⟩ := h r (List.mem_cons_self ..)
    obtain ⟨ls, hls⟩ := ih (fun r hr => h r (List.mem_cons_of_mem _ hr))
    exact ⟨l :: ls, by rw [labelsOf, hl, Outcome.bind_ok, hls, Outcome.bind_ok]⟩

theorem pickClass_total (cs : List Int) (ps : List α) (best : α) (c : Int) (h : cs.length ≤ ps.length) : ∃ l, pickClass cs ps best c = .ok l := by
  induction cs generalizing ps best c with
  | nil => exact ⟨c, rfl⟩
  | cons k ks ih =>
    cases ps with
    | nil => simp at h
    | cons p ps =>
      rw [pickClass]
      split_ifs
      · exact ih _ _ _ (by simpa using h)
      · exact ih _ _ _ (by simpa using h)

theorem labelOf_total (half : α) (cs : List Int) (row : List α) (h : cs.length ≤ row.length) : ∃ l, labelOf half cs row = .ok l := by
  unfold labelOf
  split
  · next c0 c1 =>
    have h : 2 ≤ row.length := h
    rw [List.getElem?_eq_getElem (by omega)]
    exact ⟨_, rfl⟩
  · exact pickClass_total _ _ _ _ h

end lawfree

section field
variable {α : Type} [Field α] [LinearOrder α] [IsStrictOrderedRing α]

/-- the trees of a trained model -/
theorem train_trees {E : Env α} (hratio : ∀ l, (E.lib.byRatio l).Perm l) {r : Request α} {X y : Mat α} {model : LGB.Model α} (h : train E r X y = .ok model) :
    ∀ t ∈ model.trees, ∃ d : DTree α, Stores t 0 d ∧ d.Features X.c := by
  obtain ⟨obj, st, -, hfit, rfl⟩ := train_ok h
  intro t ht
  obtain ⟨C, hC⟩ : ∃ C, C = Request.config E r obj := ⟨_, rfl⟩
  rw [← hC] at hfit
  obtain ⟨-, -, -, hgrown, -, -, -⟩ := Trainer.fit_boosts C E.lib E.byGrad _ E.fuel (problem X y) _ _ st hfit
  obtain ⟨k, hk, rfl⟩ := List.mem_iff_getElem.1 (show t ∈ st.trees from ht)
  obtain ⟨scores, -, hbt⟩ := hgrown k st.trees[k] (List.getElem?_eq_getElem hk)
  obtain ⟨d, parts, h1, h2, -⟩ := Trainer.rows_reach_their_leaf_partial _ (fun v thr h => by simp at h) X.c
    (fun I => Trainer.findBestSplit_feature E.lib hratio C.hb C.categorical C.lim.minData C.lim.minGain _ I) _ _ _ _ hbt
  exact ⟨d, h1, h2⟩

/-- training with a positive depth limit ends with a model -/
theorem train_total (E : Env α) (hratio : ∀ l, (E.lib.byRatio l).Perm l) (r : Request α) (X y : Mat α) (hr : X.r = y.r)
    (ho : Boost.createObjective E.num E.lits E.floor E.ceil r.huberDelta r.fairC r.quantileAlpha r.tweediePower E.threeHalves r.objective ≠ none)
    (hw : ∀ w, r.weights = some w → X.r ≤ w.length) (hd : 0 < r.maxDepth) (hf : r.maxDepth < E.fuel) :
    ∃ model, train E r X y = .ok model ∧ model.trees.length = (orDefault r.iterations 100).toNat := by
  unfold train
  cases hob : Boost.createObjective E.num E.lits E.floor E.ceil r.huberDelta r.fairC r.quantileAlpha r.tweediePower E.threeHalves r.objective with
  | none => exact absurd hob ho
  | some obj =>
    obtain ⟨st, hst, hl⟩ := Trainer.fit_succeeds (r.config E obj) E.lib hratio E.byGrad (E.rand r.seed r.deterministic) E.fuel (problem X y)
      (by simp [problem, hr]) hw hd hf (fun _ _ => .go) (fun _ _ => .go) (fun _ _ => ⟨rfl, rfl⟩)
    simp only
    rw [hst, Outcome.bind_ok]
    exact ⟨_, rfl, hl⟩

/-- **C168** (exact arithmetic): `Fit` with a positive depth limit, as many labels as rows and at least two different (truncated) labels succeeds. -/
theorem classifier_fit_succeeds (E : Env α) (hratio : ∀ l, (E.lib.byRatio l).Perm l) (c : α) (toInt : α → Int) {iter : List Int → List Int}
    (hi : MapKeys iter) (m : Clf α) (X y : Mat α) (hr : X.r = y.r) (hc : y.c = 1) (i j : Nat) (hi' : i < y.r) (hj : j < y.r)
    (hij : toInt (y.at' i 0) ≠ toInt (y.at' j 0)) (hd : 0 < m.opts.maxDepth) (hf : m.opts.maxDepth < E.fuel) :
    ∃ m', m.fit c toInt iter (train E) X y = (m', .ok ()) := by
  obtain ⟨s1, s2⟩ := extractClasses_spec toInt hi y
  have hlen : 2 ≤ (extractClasses toInt iter y).length := by
    have h1 := (s2 _).2 ⟨i, hi', rfl⟩
    have h2 := (s2 _).2 ⟨j, hj, rfl⟩
    match hm : extractClasses toInt iter y, h1, h2 with
    | [], h1, _ => cases h1
    | [a], h1, h2 => exact absurd ((List.mem_singleton.1 h1).trans (List.mem_singleton.1 h2).symm) hij
    | _ :: _ :: _, _, _ => simp
  unfold Clf.fit
  rw [if_neg (not_not.2 hr), if_neg (not_not.2 hc)]
  unfold Clf.fitBody
  simp only
  have hobj : ∃ m1, Clf.setObjective { m with classes := extractClasses toInt iter y } = some m1 ∧ m1.opts = m.opts ∧
      (m1.objective = "binary" ∨ m1.objective = "multiclass") := by
    unfold Clf.setObjective
    by_cases h2 : (extractClasses toInt iter y).length = 2
    · rw [if_pos h2]; exact ⟨_, rfl, rfl, Or.inl rfl⟩
    · rw [if_neg h2, if_pos (show 2 < (extractClasses toInt iter y).length by omega)]; exact ⟨_, rfl, rfl, Or.inr rfl⟩
  obtain ⟨m1, e1, e2, e3⟩ := hobj
  rw [e1]
  simp only
  obtain ⟨model, hmodel, -⟩ := train_total E hratio (Clf.request c { m1 with nFeatures := X.c }) X y hr (by
    show Boost.createObjective E.num E.lits E.floor E.ceil 0 0 0 0 E.threeHalves m1.objective ≠ none
    rcases e3 with h | h <;> rw [h] <;> unfold Boost.createObjective <;> simp) (by intro w hw; cases hw) (by show 0 < m1.opts.maxDepth; rw [e2]; exact hd)
    (by show m1.opts.maxDepth < _; rw [e2]; exact hf)
  rw [hmodel]
  exact ⟨_, rfl⟩

/-- **C168** (exact arithmetic): after a successful `Fit`, `FitWeighted` or `FitWithInit`, `Predict` and `PredictProba` succeed for every non-empty
matrix with as many columns as the training matrix. -/
theorem trained_classifier_predicts (E : Env α) (hratio : ∀ l, (E.lib.byRatio l).Perm l) (c half : α) (toInt : α → Int) {iter : List Int → List Int}
    (hi : MapKeys iter) (m m' : Clf α) (X y : Mat α) (ht : TrainedBy c toInt iter (train E) m X y m' (.ok ())) (N : ENum α) (Z : Mat α)
    (hc : Z.c = X.c) (hr : 0 < Z.r) : ∃ P ls, m'.predictProba N Z = .ok P ∧ P.r = Z.r ∧ P.c = m'.classes.length ∧ m'.predict N half Z = .ok ls := by
  have hk := trained_knows c toInt hi (train E) m X y m' ht
  obtain ⟨r, model, hask, htr, hm⟩ := hk.model
  obtain ⟨s1, s2, s3⟩ := train_serves E r X y model htr
  obtain ⟨Q, hQ⟩ := pPredict_total N model X.c s3 (train_trees hratio htr) Z hc hr
  obtain ⟨-, -, q3, q4, -⟩ := LGB.batch_ok hQ
  have hP : ∃ P, predictorProba N model Z = .ok P ∧ P.r = Z.r ∧ P.c = m'.classes.length := by
    unfold predictorProba
    rw [hQ, Outcome.bind_ok]
    rcases hask with ⟨hlen, ho, hn⟩ | ⟨hlen, ho, hn⟩
    · rw [if_pos (Or.inl (s1.trans ho))]
      exact ⟨_, rfl, q3, hlen.symm⟩
    · rw [if_neg (by rw [s1, ho]; decide), if_pos (s1.trans ho)]
      refine ⟨_, rfl, q3, q4.trans ?_⟩
      unfold LGB.Model.outCols
      rw [s2 (by omega), hn, if_pos (by omega)]
      rfl
  obtain ⟨P, h1, h2, h3⟩ := hP
  have hproba : m'.predictProba N Z = .ok P := by
    unfold Clf.predictProba
    rw [if_neg (by rw [hk.fitted]; decide), if_neg (by rw [hk.width, hc]; simp), hm]
    exact h1
  obtain ⟨ls, hls⟩ := labelsOf_total (half := half) (classes := m'.classes) (rows := rowsOf P) (by
    intro row hrow
    obtain ⟨i, -, rfl⟩ := List.mem_map.1 hrow
    exact labelOf_total _ _ _ (by rw [row_length, h3]))
  refine ⟨P, ls, hproba, h2, h3, ?_⟩
  unfold Clf.predict
  rw [if_neg (by rw [hk.fitted]; decide), if_neg (by rw [hk.width, hc]; simp), hproba, Outcome.bind_ok]
  exact hls

end field
end Scigo.Wrapper
