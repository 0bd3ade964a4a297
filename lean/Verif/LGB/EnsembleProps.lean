import Verif.LGB.PredictParallelProps
import Verif.LGB.TreeProps
import Mathlib.Algebra.Order.Field.Basic
import Mathlib.Algebra.Order.Field.Rat
import Mathlib.Tactic.Linarith
import Mathlib.Tactic.Ring

/-!
# C53: how the prediction entry points agree
-/

set_option linter.unusedSectionVars false

namespace Scigo.LGB

/-! ## law-free part -/

section

variable {α : Type _} [BEq α] [LE α] [DecidableLE α] [LT α] [DecidableLT α] [Zero α] [One α] [Add α] [Sub α]
  [Neg α] [Mul α] [Div α]

theorem Proper.leaf_or {k : Nat} {t : Tree α} (h : Proper k t) {id : Int} {n : Node α}
    (hn : t.nodeAt id = some n) : (n.isLeaf = true ∧ n.kind = .leaf) ∨
    (n.kind = .numerical ∧ 0 ≤ n.feature ∧ n.feature < k ∧
      id < n.left ∧ n.left < t.nodes.length ∧ id < n.right ∧ n.right < t.nodes.length ∧ n.isLeaf = false) := by
  obtain ⟨h0, h1, h2⟩ := nodeAt_some hn
  rcases h.2 _ _ h1 with h | ⟨g1, g2, g3, g4, g5, g6, g7⟩
  · exact .inl h
  · refine .inr ⟨g1, g2, g3, by omega, g5, by omega, g7, ?_⟩
    simp only [Node.isLeaf, Bool.and_eq_false_iff, beq_eq_false_iff_ne]
    left; omega

theorem Proper.wellFormed {k : Nat} {t : Tree α} (h : Proper k t) : WellFormed k t := by
  intro i n hn hl
  rcases h.2 i n hn with ⟨h1, -⟩ | ⟨g1, g2, g3, g4, g5, g6, g7⟩
  · rw [h1] at hl; cases hl
  · exact ⟨.inl g1, g2, g3, .inr g4, .inr g6⟩

theorem Proper.inside {k : Nat} {t : Tree α} (h : Proper k t) {id : Int} (h0 : 0 ≤ id)
    (h1 : id < t.nodes.length) : ∃ n, t.nodeAt id = some n := by
  unfold Tree.nodeAt
  rw [if_neg (by omega)]
  exact ⟨_, List.getElem?_eq_getElem (by omega)⟩

theorem featureAt_some {x : List α} {f : Int} (h0 : 0 ≤ f) (h : f < x.length) :
    featureAt x f = some (x.getD f.toNat 0) := by
  unfold featureAt
  rw [if_neg (by omega)]
  have : f.toNat < x.length := by omega
  simp [List.getElem?_eq_getElem this, this]

theorem getElem?_feature {x : List α} {f : Int} (h0 : 0 ≤ f) (h : f < x.length) :
    x[f.toNat]? = some (x.getD f.toNat 0) := by
  have := featureAt_some h0 h
  unfold featureAt at this
  rwa [if_neg (by omega)] at this

/-- the path of `Predictor.predictTree` in a proper tree -/
theorem proper_pReturns (toInt : α → Int) (P : PNum α) (k : Nat) (t : Tree α) (hp : Proper k t) (x : List α)
    (hk : k ≤ x.length) (hnan : ∀ v ∈ x, isNaN v = false)
    (hclear : ∀ n ∈ t.nodes, ∀ v, featureAt x n.feature = some v → P.leq v n.threshold = decide (v ≤ n.threshold))
    (id : Int) (d : DTree α) (hs : Stores t id d) (h0 : 0 ≤ id) (h1 : id < t.nodes.length) (it : Nat)
    (hit : it ≤ id.toNat) : Returns (t.pStep P x) (id, it) (.ok (P.ensure (d.eval toInt x))) := by
  induction hs generalizing it with
  | outside id hn =>
    obtain ⟨n, hn'⟩ := hp.inside h0 h1
    rw [hn] at hn'; cases hn'
  | leaf id n hn hl =>
    refine returns_stop ?_
    unfold Tree.pStep
    simp only [hn]
    rw [if_neg (by omega), if_pos hl]
    rfl
  | split id n s l r hn hl ha _ _ ihl ihr =>
    rcases hp.leaf_or hn with ⟨h, -⟩ | ⟨g1, g2, g3, g4, g5, g6, g7, -⟩
    · rw [h] at hl; cases hl
    have hmem : n ∈ t.nodes := List.mem_of_getElem? (nodeAt_some hn).2.1
    have hfx : n.feature < x.length := by omega
    have hv := getElem?_feature g2 hfx
    have hc := hclear n hmem _ (featureAt_some g2 hfx)
    have hnv : isNaN (x.getD n.feature.toNat 0) = false := hnan _ (List.mem_of_getElem? hv)
    have hsl : s.left toInt x = decide (x.getD n.feature.toNat 0 ≤ n.threshold) := by
      cases ha with
      | num f hk hfe =>
        rw [hfe] at hnv ⊢
        rw [Int.toNat_natCast] at hnv ⊢
        unfold isNaN at hnv
        simp only [Split.left]
        exact if_neg (by rw [hnv]; decide)
      | cat f hk hfe => rw [g1] at hk; cases hk
    refine returns_go (s' := (if s.left toInt x then n.left else n.right, it + 1)) ?_ ?_
    · unfold Tree.pStep
      simp only [hn]
      rw [if_neg (by omega), if_neg (by simp [hl]), if_neg (by omega), hv]
      simp only [hnv, g1]
      rw [if_neg (by simp), hc, ← hsl]
      cases s.left toInt x
      · simp only [Bool.false_eq_true, if_false]
        rw [if_neg (by omega)]
      · simp only [if_true]
        rw [if_neg (by omega)]
    · unfold DTree.eval
      split_ifs
      · exact ihl (by omega) g5 (it + 1) (by omega)
      · exact ihr (by omega) g7 (it + 1) (by omega)

theorem pStep_go_live {P : PNum α} {t : Tree α} {x : List α} {s s' : Int × Nat}
    (h : t.pStep P x s = .ok (.go s')) : 0 ≤ s.1 ∧ s.1.toNat < t.nodes.length ∧ s.2 < t.nodes.length * 2 := by
  unfold Tree.pStep at h
  split at h
  · simp at h
  · next n hn =>
    split at h
    · simp at h
    next hlt =>
    exact ⟨(nodeAt_some hn).1, (nodeAt_some hn).2.2, by omega⟩

theorem pPredict_returns (P : PNum α) (t : Tree α) (x : List α) (r : Outcome α)
    (h : Returns (t.pStep P x) (0, 0) r) : t.pPredict P x = r := by
  unfold Tree.pPredict
  rw [loop_bound ((t.nodes.length * 2 + 1) * (t.nodes.length + 1))
    (fun s => s.2 * (t.nodes.length + 1) + s.1.toNat) ?_ ?_ _ r h]
  · rfl
  · intro s s' hs
    obtain ⟨h1, h2, h3⟩ := pStep_go_live hs
    have : (s.2 + 1) * (t.nodes.length + 1) ≤ (t.nodes.length * 2 + 1) * (t.nodes.length + 1) :=
      Nat.mul_le_mul_right _ (by omega)
    have e : (s.2 + 1) * (t.nodes.length + 1) = s.2 * (t.nodes.length + 1) + (t.nodes.length + 1) := by ring
    show s.2 * (t.nodes.length + 1) + s.1.toNat < _
    omega
  · intro s s' u u' hs hs' he
    obtain ⟨h1, h2, h3⟩ := pStep_go_live hs
    obtain ⟨g1, g2, g3⟩ := pStep_go_live hs'
    have he : s.2 * (t.nodes.length + 1) + s.1.toNat = s'.2 * (t.nodes.length + 1) + s'.1.toNat := he
    have e1 : s.2 = s'.2 := by
      have : (s.2 * (t.nodes.length + 1) + s.1.toNat) / (t.nodes.length + 1)
          = (s'.2 * (t.nodes.length + 1) + s'.1.toNat) / (t.nodes.length + 1) := by rw [he]
      rw [Nat.mul_comm, Nat.mul_add_div (by omega), Nat.div_eq_of_lt (by omega : s.1.toNat < t.nodes.length + 1),
        Nat.mul_comm, Nat.mul_add_div (by omega),
        Nat.div_eq_of_lt (by omega : s'.1.toNat < t.nodes.length + 1)] at this
      omega
    rw [e1] at he
    have e2 : s.1 = s'.1 := by omega
    exact Prod.ext e2 e1

/-- the path of `SimplePredictor.predictTree` in a proper tree -/
theorem proper_sReturns (toInt : α → Int) (k : Nat) (t : Tree α) (hp : Proper k t) (x : List α)
    (hk : k ≤ x.length) (id : Int) (d : DTree α) (hs : Stores t id d) (h0 : 0 ≤ id) (h1 : id < t.nodes.length) :
    Returns (t.sStep x) id (.ok (t.shrunk (d.eval toInt x))) := by
  induction hs with
  | outside id hn =>
    obtain ⟨n, hn'⟩ := hp.inside h0 h1
    rw [hn] at hn'; cases hn'
  | leaf id n hn hl =>
    rcases hp.leaf_or hn with ⟨-, h⟩ | ⟨g1, g2, g3, g4, g5, g6, g7, g8⟩
    · refine returns_stop ?_
      unfold Tree.sStep
      simp only [hn]
      rw [if_pos h]
      rfl
    · rw [hl] at g8; cases g8
  | split id n s l r hn hl ha _ _ ihl ihr =>
    rcases hp.leaf_or hn with ⟨h, -⟩ | ⟨g1, g2, g3, g4, g5, g6, g7, -⟩
    · rw [h] at hl; cases hl
    have hfx : n.feature < x.length := by omega
    have hv := getElem?_feature g2 hfx
    have hsl : s.left toInt x = if isNaN (x.getD n.feature.toNat 0) then n.defaultLeft
        else decide (x.getD n.feature.toNat 0 ≤ n.threshold) := by
      cases ha with
      | num f hk hfe => simp only [Split.left, hfe, isNaN, Int.toNat_natCast]
      | cat f hk hfe => rw [g1] at hk; cases hk
    refine returns_go (s' := if s.left toInt x then n.left else n.right) ?_ ?_
    · unfold Tree.sStep
      simp only [hn]
      rw [if_neg (by simp [g1]), if_neg (by omega), hv]
      simp only
      rw [hsl]
      by_cases hnan : isNaN (x.getD n.feature.toNat 0) = true
      · simp only [hnan, if_true, Node.default]
      · simp only [Bool.not_eq_true] at hnan
        simp only [hnan, Bool.false_eq_true, if_false, decide_eq_true_eq]
        rw [if_neg]
        split <;> omega
    · unfold DTree.eval
      split_ifs
      · exact ihl (by omega) g5
      · exact ihr (by omega) g7

theorem sStep_go_live {t : Tree α} {x : List α} {s s' : Int}
    (h : t.sStep x s = .ok (.go s')) : 0 ≤ s ∧ s.toNat < t.nodes.length := by
  unfold Tree.sStep at h
  split at h
  · simp at h
  · next n hn => exact ⟨(nodeAt_some hn).1, (nodeAt_some hn).2.2⟩

theorem sPredict_returns (t : Tree α) (x : List α) (r : Outcome α) (hne : t.nodes ≠ [])
    (h : Returns (t.sStep x) 0 r) : t.sPredict x = r := by
  unfold Tree.sPredict
  rw [if_neg (by simpa using hne), loop_bound t.nodes.length Int.toNat (fun _ _ h => (sStep_go_live h).2) _ 0 r h]
  · rfl
  · intro s s' u u' h h' he
    have := sStep_go_live h
    have := sStep_go_live h'
    omega

/-- on proper trees all three traversals give the value of the same leaf, up to the tree's shrinkage
(`SimplePredictor`) and the removal of values below `epsilon` (`Predictor`) -/
theorem traversals_agree (toInt : α → Int) (P : PNum α) (k : Nat) (t : Tree α) (hp : Proper k t) (x : List α)
    (hk : k ≤ x.length) :
    ∃ v, t.predict toInt x = .ok v ∧ t.sPredict x = .ok (t.shrunk v) ∧
      ((∀ v ∈ x, isNaN v = false) →
        (∀ n ∈ t.nodes, ∀ v, featureAt x n.feature = some v → P.leq v n.threshold = decide (v ≤ n.threshold)) →
        t.pPredict P x = .ok (P.ensure v)) := by
  obtain ⟨d, hd, hf⟩ := wellFormed_stores k t hp.wellFormed 0
  have hpos : (0 : Int) < t.nodes.length := by
    have := List.length_pos_iff.2 hp.1; omega
  refine ⟨d.eval toInt x, predict_returns _ _ _ _ (stores_returns toInt t x 0 d hd (hf.mono hk)),
    sPredict_returns _ _ _ hp.1 (proper_sReturns toInt k t hp x hk 0 d hd le_rfl hpos), fun hn hc => ?_⟩
  exact pPredict_returns _ _ _ _ (proper_pReturns toInt P k t hp x hk hn hc 0 d hd le_rfl hpos 0 (by omega))

theorem accumulate_congr (m : Model α) {out out' : Tree α → Outcome α} {upd upd' : Tree α → α → α → α}
    (ts : List (Tree α × Nat)) (p : List α)
    (h : ∀ t ∈ ts, ∃ v v', out t.1 = .ok v ∧ out' t.1 = .ok v' ∧ ∀ s, upd t.1 s v = upd' t.1 s v') :
    m.accumulate out upd ts p = m.accumulate out' upd' ts p := by
  induction ts generalizing p with
  | nil => rfl
  | cons t ts ih =>
    obtain ⟨t, i⟩ := t
    obtain ⟨v, v', h1, h2, h3⟩ := h (t, i) (by simp)
    simp only at h1 h2 h3
    simp only [Model.accumulate, h1, h2]
    rw [ih _ (fun t ht => h t (by simp [ht]))]
    simp only [h3]

theorem mem_zipIdx_fst {β : Type _} {l : List β} {a : β × Nat} (h : a ∈ l.zipIdx) : a.1 ∈ l :=
  List.fst_mem_of_mem_zipIdx h

/-- **C53** (law-free, all trees, any features): the predictions of `Model.Predict` are the objective's
transformation of `PredictRawScore`, row by row; both fail alike. -/
theorem predict_eq_link_rawScore (N : ENum α) (toInt : α → Int) (m : Model α) (X : Mat α) :
    (∀ M, m.predict N toInt X = .ok M → ∃ R, m.predictRawScore toInt X = .ok R ∧
      ∀ i < X.r, (List.range m.outCols).map (M.at' i) = m.link N ((List.range m.outCols).map (R.at' i))) ∧
    ((∃ R, m.predictRawScore toInt X = .ok R) → ∃ M, m.predict N toInt X = .ok M) := by
  have e : ∀ x, m.predictSingle N toInt x (-1) = (m.raw toInt m.trees.length x).map (m.link N) := by
    intro x; simp [Model.predictSingle]
  have full : ∀ (p : List α), p.length = m.outCols → (List.range m.outCols).map (fun j => p.getD j 0) = p := by
    intro p hp
    apply List.ext_getElem
    · simp [hp]
    · intro n h1 h2; simp [h2]
  constructor
  · intro M h
    obtain ⟨h1, h2, h3, h4, h5⟩ := batch_ok h
    have rows : ∀ i < X.r, ∃ q, m.raw toInt m.trees.length (rowOf X i) = .ok q ∧
        ∀ j, M.at' i j = (m.link N q).getD j 0 := by
      intro i hi
      obtain ⟨p, hp, hM⟩ := h5 i hi
      rw [e] at hp
      cases hq : m.raw toInt m.trees.length (rowOf X i) with
      | ok q => rw [hq] at hp; exact ⟨q, rfl, fun j => by rw [hM, ← Outcome.ok.inj hp]⟩
      | err e => rw [hq] at hp; cases hp
      | panic e => rw [hq] at hp; cases hp
    obtain ⟨R, hR⟩ := batch_all_ok (m := m) (X := X) (f := fun x => m.raw toInt m.trees.length x) h1 h2
      (fun i hi => let ⟨q, hq, _⟩ := rows i hi; ⟨q, hq⟩)
    refine ⟨R, hR, fun i hi => ?_⟩
    obtain ⟨q, hq, hM⟩ := rows i hi
    obtain ⟨-, -, -, -, g5⟩ := batch_ok hR
    obtain ⟨q', hq', hR'⟩ := g5 i hi
    simp only [hq, Outcome.ok.injEq] at hq'
    subst hq'
    have hlq : q.length = m.outCols := (predictions_width N toInt m (rowOf X i) (-1) q).2.1 hq
    have hll : (m.link N q).length = m.outCols := by
      refine (predictions_width N toInt m (rowOf X i) (-1) (m.link N q)).1 ?_
      rw [e, hq]; rfl
    rw [List.map_congr_left (fun j _ => hM j), List.map_congr_left (fun j _ => hR' j), full _ hll, full _ hlq]
  · rintro ⟨R, hR⟩
    obtain ⟨h1, h2, -, -, h5⟩ := batch_ok hR
    refine batch_all_ok h1 h2 (fun i hi => ?_)
    obtain ⟨q, hq, -⟩ := h5 i hi
    exact ⟨m.link N q, by rw [e, hq]; rfl⟩

/-- **C53** (law-free): for proper trees whose shrinkage is not positive (`SimplePredictor` then leaves the
leaf values alone), the raw scores of `SimplePredictor` are those of the model. -/
theorem simple_raw_eq (toInt : α → Int) (m : Model α) (x : List α) (k : Nat) (hk : k ≤ x.length)
    (hp : ∀ t ∈ m.trees, Proper k t) (hs : ∀ t ∈ m.trees, ¬ 0 < t.shrinkage) :
    m.sRaw x = m.raw toInt m.trees.length x := by
  unfold Model.sRaw Model.raw
  rw [List.take_length]
  refine accumulate_congr m _ _ (fun t ht => ?_)
  have htm := mem_zipIdx_fst ht
  obtain ⟨v, h1, h2, -⟩ := traversals_agree toInt ⟨fun _ => false, toInt, 0⟩ k t.1 (hp _ htm) x hk
  refine ⟨t.1.shrunk v, v, h2, h1, fun s => ?_⟩
  unfold Tree.shrunk
  rw [if_neg (hs _ htm)]

end

/-! ## exact arithmetic -/

section

variable {α : Type _} [Field α] [LinearOrder α] [IsStrictOrderedRing α]

theorem isNaN_false (v : α) : isNaN v = false := by simp [isNaN]

theorem ensure_near (P : PNum α) (hP : ∀ v, P.isInf v = false) (h0 : 0 ≤ P.epsilon) (v : α) :
    |P.ensure v - v| ≤ P.epsilon := by
  unfold PNum.ensure
  rw [isNaN_false, hP]
  simp only [Bool.or_self, Bool.false_eq_true, if_false]
  have habs : absV v = |v| := by
    unfold absV
    split_ifs with h
    · exact (abs_of_neg h).symm
    · exact (abs_of_nonneg (not_lt.1 h)).symm
  rw [habs]
  split_ifs with h
  · simpa using h.le
  · simpa using h0

theorem leq_clear (P : PNum α) (h0 : 0 < P.epsilon) (a b : α) (h : a ≤ b ∨ b + P.epsilon ≤ a) :
    P.leq a b = decide (a ≤ b) := by
  unfold PNum.leq absV
  rcases h with h | h
  · simp only [h, decide_true]
    by_cases h1 : a - b < 0
    · simp only [h1, if_true, ite_self]
    · have : a - b = 0 := by
        have := not_lt.1 h1
        linarith
      simp only [this, lt_irrefl, if_false, h0, if_true]
  · have : ¬ a ≤ b := by intro hh; linarith
    have h1 : ¬ a - b < 0 := by intro hh; linarith
    have h2 : ¬ a - b < P.epsilon := by intro hh; linarith
    simp only [this, decide_false, h1, h2, if_false]

/-- **C53** (exact arithmetic). `Predictor` and `Model` raw scores: if every tree has shrinkage 1 (or 0 with
learning rate 1), all trees are used and no feature lies within `epsilon` above a threshold, then for any
number of classes and trees the scores differ by at most `2 · epsilon` per tree. -/
theorem predictor_raw_near_partial (N : ENum α) (toInt : α → Int) (m : Model α) (x : List α) (k : Nat)
    (hk : k ≤ x.length) (hinf : ∀ v, N.isInf v = false) (he : 0 < N.epsilon)
    (hp : ∀ t ∈ m.trees, Proper k t) (hrate : ∀ t ∈ m.trees, m.rate t = 1)
    (hused : m.trees.length ≤ m.usedTrees)
    (hclear : ∀ t ∈ m.trees, ∀ n ∈ t.nodes, ∀ v, featureAt x n.feature = some v →
      v ≤ n.threshold ∨ n.threshold + N.epsilon ≤ v) :
    ∃ p q, m.pRaw N x = .ok p ∧ m.raw toInt m.trees.length x = .ok q ∧ p.length = q.length ∧
      ∀ j, |p.getD j 0 - q.getD j 0| ≤ 2 * m.trees.length * N.epsilon := by
  have hfill : fillMissing x = x := by
    unfold fillMissing
    conv_rhs => rw [← List.map_id x]
    refine List.map_congr_left (fun v _ => by rw [isNaN_false]; rfl)
  unfold Model.pRaw Model.raw
  rw [hfill, List.take_of_length_le hused, List.take_length]
  have tr : ∀ t ∈ m.trees, ∃ v, t.predict toInt x = .ok v ∧ t.pPredict N.toPNum x = .ok (N.toPNum.ensure v) := by
    intro t ht
    obtain ⟨v, h1, -, h3⟩ := traversals_agree toInt N.toPNum k t (hp t ht) x hk
    exact ⟨v, h1, h3 (fun v _ => isNaN_false v) (fun n hn v hv => leq_clear _ he _ _ (hclear t ht n hn v hv))⟩
  have gen : ∀ (ts : List (Tree α × Nat)) (hts : ∀ t ∈ ts, t.1 ∈ m.trees) (p q : List α) (b : α) (hb : 0 ≤ b)
      (hl : p.length = q.length) (hpq : ∀ j, |p.getD j 0 - q.getD j 0| ≤ b),
      ∃ p' q', m.accumulate (fun t => t.pPredict N.toPNum x) (fun t s v => N.toPNum.ensure (s + v * m.rate t)) ts p
          = .ok p' ∧ m.accumulate (fun t => t.predict toInt x) (fun _ s v => s + v) ts q = .ok q' ∧
        p'.length = q'.length ∧ ∀ j, |p'.getD j 0 - q'.getD j 0| ≤ b + 2 * ts.length * N.epsilon := by
    intro ts
    induction ts with
    | nil =>
      intro _ p q b hb hl hpq
      exact ⟨p, q, rfl, rfl, hl, fun j => by simpa using hpq j⟩
    | cons t ts ih =>
      intro hts p q b hb hl hpq
      obtain ⟨t, i⟩ := t
      have htm : t ∈ m.trees := hts (t, i) (by simp)
      obtain ⟨v, h1, h2⟩ := tr t htm
      simp only [Model.accumulate, h1, h2]
      have step : ∀ j, |(p.modify (m.slot i) (fun s => N.toPNum.ensure (s + N.toPNum.ensure v * m.rate t))).getD j 0
          - (q.modify (m.slot i) (fun s => s + v)).getD j 0| ≤ b + 2 * N.epsilon := by
        intro j
        simp only [List.getD_eq_getElem?_getD, List.getElem?_modify]
        by_cases hj : m.slot i = j
        · subst hj
          simp only [if_true]
          have hb' := hpq (m.slot i)
          simp only [List.getD_eq_getElem?_getD] at hb'
          by_cases hlt : m.slot i < p.length
          · rw [List.getElem?_eq_getElem hlt, List.getElem?_eq_getElem (hl ▸ hlt)] at hb' ⊢
            simp only [Option.map_eq_map, Option.map_some, Option.getD_some, hrate t htm, mul_one] at hb' ⊢
            have e1 := ensure_near N.toPNum hinf he.le v
            have e2 := ensure_near N.toPNum hinf he.le (p[m.slot i] + N.toPNum.ensure v)
            obtain ⟨a1, a2⟩ := abs_le.1 e1
            obtain ⟨a3, a4⟩ := abs_le.1 e2
            obtain ⟨a5, a6⟩ := abs_le.1 hb'
            rw [abs_le]
            constructor <;> linarith
          · rw [List.getElem?_eq_none (by omega), List.getElem?_eq_none (by omega)]
            simp; linarith
        · simp only [hj, if_false]
          have hb' := hpq j
          simp only [List.getD_eq_getElem?_getD] at hb'
          have h2 : ∀ o : Option α, (fun a => a) <$> o = o := by intro o; cases o <;> rfl
          rw [h2, h2]
          linarith
      obtain ⟨p', q', g1, g2, g3, g4⟩ := ih (fun t ht => hts t (by simp [ht])) _ _ (b + 2 * N.epsilon)
        (by linarith) (by simp [hl]) step
      refine ⟨p', q', g1, g2, g3, fun j => (g4 j).trans (le_of_eq ?_)⟩
      push_cast [List.length_cons]
      ring
  obtain ⟨p', q', g1, g2, g3, g4⟩ := gen m.trees.zipIdx (fun t ht => mem_zipIdx_fst ht) m.start m.start 0 le_rfl rfl
    (fun j => by simp)
  refine ⟨p', q', g1, g2, g3, fun j => ?_⟩
  simpa using g4 j

end

/-! ## the full property fails -/

/-- one leaf of value 1, shrinkage 1/10 (as the trainer leaves it: unshrunk values, the rate beside) -/
def leafModel : Model ℚ :=
  ⟨"regression", 1, 1, 1 / 10,
    [⟨[⟨-1, -1, .leaf, -1, 0, [], false, 0, 1, 5, 0, 0⟩], [], 1, 1 / 10, 0⟩], 1, 0, 0, false⟩

/-- exact rationals with an `epsilon`; the transcendental functions are not used -/
def ratNum : ENum ℚ := ⟨⟨fun _ => false, fun v => v.floor, 1 / 1000000⟩, fun v => v, fun n => n, 1, 700, 500, 1⟩

/-- **C53** is false: the prediction of `Model.Predict` ignores the shrinkage that `Predictor.Predict` and
`SimplePredictor` apply -/
theorem entry_points_disagree :
    leafModel.predictSingle ratNum (fun v => v.floor) [0] (-1) = .ok [1] ∧
    leafModel.pSample ratNum [0] = .ok [1 / 10] ∧ leafModel.sSample ratNum [0] = .ok [1 / 10] ∧
    (∀ t ∈ leafModel.trees, Proper 1 t) := by
  refine ⟨by decide +kernel, by decide +kernel, by decide +kernel, ?_⟩
  intro t ht
  simp only [leafModel, List.mem_singleton] at ht
  subst ht
  refine ⟨by simp, fun i n hn => ?_⟩
  match i with
  | 0 => simp at hn; subst hn; left; simp [Node.isLeaf]
  | i + 1 => simp at hn

/-- the hypotheses of `predictor_raw_near_partial` are met by a split tree -/
example : ∃ m : Model ℚ, m.trees.length = 2 ∧ (∀ t ∈ m.trees, Proper 1 t) ∧ (∀ t ∈ m.trees, m.rate t = 1) ∧
    m.trees.length ≤ m.usedTrees ∧ m.pRaw ratNum [3] = .ok [9] ∧ m.raw (fun v => v.floor) 2 [3] = .ok [9] := by
  let t : Tree ℚ := ⟨[⟨1, 2, .numerical, 0, 2, [], false, 1, 0, 0, 0, 0⟩,
    ⟨-1, -1, .leaf, -1, 0, [], false, 0, 1, 5, 0, 0⟩, ⟨-1, -1, .leaf, -1, 0, [], false, 0, 4, 5, 0, 0⟩], [], 2, 1, 0⟩
  refine ⟨⟨"regression", 1, 2, 1, [t, t], 1, 0, 1, false⟩, rfl, ?_, ?_, by decide, by decide +kernel, by decide +kernel⟩
  · intro t' ht
    have : t' = t := by simpa using ht
    subst this
    refine ⟨by simp [t], fun i n hn => ?_⟩
    match i with
    | 0 => simp [t] at hn; subst hn; right; decide
    | 1 => simp [t] at hn; subst hn; left; decide
    | 2 => simp [t] at hn; subst hn; left; decide
    | i + 3 => simp [t] at hn
  · intro t' ht
    have : t' = t := by simpa using ht
    subst this
    decide +kernel

end Scigo.LGB
