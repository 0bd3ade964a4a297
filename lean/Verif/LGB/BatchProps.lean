import Verif.LGB.Batch
import Verif.LGB.LeafIndexProps
import Verif.LGB.PredictParallelProps

/-!
# Leaf indices of a batch, and the two ways of numbering leaves (C247)
-/

set_option linter.unusedSectionVars false

namespace Scigo.LGB

section each
variable {β γ : Type _}

theorem eachO_ok (f : β → Outcome γ) (l : List β) (ys : List γ) :
    eachO f l = .ok ys ↔ ys.length = l.length ∧ ∀ (i : Nat) (b : β), l[i]? = some b → ∃ y, ys[i]? = some y ∧ f b = .ok y := by
  induction l generalizing ys with
  | nil =>
    simp only [eachO, Outcome.ok.injEq]
    constructor
    · rintro rfl; simp
    · rintro ⟨h, -⟩; exact (List.length_eq_zero_iff.1 h).symm
  | cons b bs ih =>
    simp only [eachO]
    constructor
    · intro h
      cases hf : f b with
      | err e => rw [hf] at h; cases h
      | panic s => rw [hf] at h; cases h
      | ok y =>
        rw [hf, Outcome.bind_ok] at h
        cases hr : eachO f bs with
        | err e => rw [hr] at h; cases h
        | panic s => rw [hr] at h; cases h
        | ok zs =>
          rw [hr, Outcome.bind_ok, Outcome.ok.injEq] at h
          subst h
          obtain ⟨h1, h2⟩ := (ih zs).1 hr
          refine ⟨by simp [h1], fun i c hc => ?_⟩
          cases i with
          | zero => simp only [List.getElem?_cons_zero, Option.some.injEq] at hc; subst hc; exact ⟨y, rfl, hf⟩
          | succ i => exact h2 i c (by simpa using hc)
    · rintro ⟨h1, h2⟩
      obtain ⟨y, hy, hf⟩ := h2 0 b rfl
      cases ys with
      | nil => cases hy
      | cons z zs =>
        simp only [List.getElem?_cons_zero, Option.some.injEq] at hy
        subst hy
        rw [hf, Outcome.bind_ok, (ih zs).2 ⟨by simpa using h1, fun i c hc => by simpa using h2 (i + 1) c (by simpa using hc)⟩, Outcome.bind_ok]

theorem eachO_all (f : β → Outcome γ) (l : List β) (h : ∀ b ∈ l, ∃ y, f b = .ok y) : ∃ ys, eachO f l = .ok ys := by
  induction l with
  | nil => exact ⟨[], rfl⟩
  | cons b bs ih =>
    obtain ⟨y, hy⟩ := h b (by simp)
    obtain ⟨ys, hys⟩ := ih (fun c hc => h c (by simp [hc]))
    exact ⟨y :: ys, by simp only [eachO]; rw [hy, Outcome.bind_ok, hys, Outcome.bind_ok]⟩

end each

section
variable {α : Type _} [BEq α] [LE α] [DecidableLE α] [LT α] [DecidableLT α] [Zero α] [One α] [Add α] [Sub α]
  [Neg α] [Mul α] [Div α]

/-- **C52** (law-free): `SimplePredictor.Predict` of a batch is its prediction row by row, and the row it gives is `PredictSingle`. -/
theorem simple_batch (N : ENum α) (m : Model α) (X : Mat α) (M : Mat α) (h : m.sPredict N X = .ok M) :
    (X.c : Int) = m.numFeatures ∧ M.r = X.r ∧ M.c = m.outCols ∧
    (∀ i < X.r, ∃ p, m.sSample N ((List.range X.c).map (X.at' i)) = .ok p ∧ p.length = m.outCols ∧ ∀ j, M.at' i j = p.getD j 0) ∧
    ∀ i < X.r, ∃ M', m.sPredict N (rowMat X i) = .ok M' ∧ ∀ j < m.outCols, M'.at' 0 j = M.at' i j := by
  obtain ⟨h1, -, h3, h4, h5⟩ := batch_ok h
  refine ⟨h1, h3, h4, fun i hi => ?_, fun i hi => ?_⟩
  · obtain ⟨p, hp, hj⟩ := h5 i hi
    refine ⟨p, hp, ?_, hj⟩
    unfold Model.sSample at hp
    cases hr : m.sRaw (rowOf X i) with
    | err e => rw [hr] at hp; cases hp
    | panic s => rw [hr] at hp; cases hp
    | ok q =>
      rw [hr] at hp
      have hq : q.length = m.outCols := by
        rw [← start_length m]
        exact accumulate_length m _ _ _ _ _ hr
      cases hp
      simp only
      split
      · unfold simpleSoftmax
        dsimp only
        split <;> simp [hq]
      · split <;> simp [hq]
  · obtain ⟨M', e, -, -, ej⟩ := ((batch_row_by_row m X (m.sSample N)).1 M h).2.2 i hi
    exact ⟨M', e, ej⟩

/-- **C247** (law-free), `PredictLeaf`: one row per sample and one column per tree; entry `(i, t)` is the index of sample `i` in tree `t`
and nothing else. It succeeds exactly for matrices of the right width with at least one row, models with at least one tree, and
samples whose walks through all trees end. A wrong width is an error. -/
theorem predict_leaf_entries (ofNat : Nat → α) (toInt : α → Int) (m : Model α) (X : Mat α) :
    (∀ M, m.predictLeaf ofNat toInt X = .ok M → M.r = X.r ∧ M.c = m.trees.length ∧
      ∀ i < X.r, ∀ (j : Nat) (t : Tree α), m.trees[j]? = some t →
        ∃ k, t.predictLeaf toInt ((List.range X.c).map (X.at' i)) = .ok k ∧ M.at' i j = ofNat k) ∧
    ((∃ M, m.predictLeaf ofNat toInt X = .ok M) ↔ (X.c : Int) = m.numFeatures ∧ 0 < X.r ∧ m.trees ≠ [] ∧
      ∀ i < X.r, ∀ t ∈ m.trees, ∃ k, t.predictLeaf toInt ((List.range X.c).map (X.at' i)) = .ok k) ∧
    ((X.c : Int) ≠ m.numFeatures → m.predictLeaf ofNat toInt X = .err (.other "feature dimension mismatch")) := by
  have key : ∀ M, m.predictLeaf ofNat toInt X = .ok M → (X.c : Int) = m.numFeatures ∧ 0 < X.r ∧ m.trees ≠ [] ∧
      M.r = X.r ∧ M.c = m.trees.length ∧ ∀ i < X.r, ∀ (j : Nat) (t : Tree α), m.trees[j]? = some t →
        ∃ k, t.predictLeaf toInt ((List.range X.c).map (X.at' i)) = .ok k ∧ M.at' i j = ofNat k := by
    intro M h
    unfold Model.predictLeaf at h
    split at h
    · cases h
    next hc =>
    split at h
    · cases h
    next hz =>
    cases hr : eachO (fun i => m.leavesOf toInt (rowOf X i)) (List.range X.r) with
    | err e => rw [hr] at h; cases h
    | panic s => rw [hr] at h; cases h
    | ok rows =>
      rw [hr, Outcome.bind_ok, Outcome.ok.injEq] at h
      subst h
      refine ⟨by omega, by omega, fun he => hz (Or.inr (by simp [he])), rfl, rfl, fun i hi j t ht => ?_⟩
      obtain ⟨row, h1, h2⟩ := ((eachO_ok _ _ _).1 hr).2 i i (by simp [hi])
      obtain ⟨k, h3, h4⟩ := ((eachO_ok _ _ _).1 h2).2 j t ht
      refine ⟨k, h4, ?_⟩
      simp only [List.getD_eq_getElem?_getD, h1, h3, Option.getD_some]
  refine ⟨fun M h => (key M h).2.2.2, ⟨fun ⟨M, h⟩ => ?_, fun ⟨h1, h2, h3, h4⟩ => ?_⟩, fun h => ?_⟩
  · obtain ⟨h1, h2, h3, -, -, h6⟩ := key M h
    refine ⟨h1, h2, h3, fun i hi t ht => ?_⟩
    obtain ⟨j, hj⟩ := List.getElem?_of_mem ht
    obtain ⟨k, hk, -⟩ := h6 i hi j t hj
    exact ⟨k, hk⟩
  · unfold Model.predictLeaf
    rw [if_neg (by omega), if_neg (by
      rintro (h | h)
      · omega
      · exact h3 (List.length_eq_zero_iff.1 h))]
    obtain ⟨rows, hr⟩ := eachO_all (fun i => m.leavesOf toInt (rowOf X i)) (List.range X.r) (fun i hi =>
      eachO_all (fun t => t.predictLeaf toInt (rowOf X i)) m.trees (fun t ht => h4 i (by simpa using hi) t ht))
    exact ⟨_, by rw [hr, Outcome.bind_ok]⟩
  · unfold Model.predictLeaf
    rw [if_pos h]

/-- **C247** (law-free), `PredictLeafIndex`: one list per sample, in order, with one index per tree; a wrong width is an error; no rows
give an empty list. -/
theorem predict_leaf_index_entries (P : PNum α) (m : Model α) (X : Mat α) :
    (∀ rows, m.predictLeafIndex P X = .ok rows → rows.length = X.r ∧ ∀ i < X.r, ∃ row, rows[i]? = some row ∧
      row.length = m.trees.length ∧ ∀ (j : Nat) (t : Tree α), m.trees[j]? = some t →
        ∃ k, t.leafIndex P ((List.range X.c).map (X.at' i)) = .ok k ∧ row[j]? = some k) ∧
    ((∃ rows, m.predictLeafIndex P X = .ok rows) ↔ (X.c : Int) = m.numFeatures ∧
      ∀ i < X.r, ∀ t ∈ m.trees, ∃ k, t.leafIndex P ((List.range X.c).map (X.at' i)) = .ok k) ∧
    ((X.c : Int) ≠ m.numFeatures → m.predictLeafIndex P X = .err (.other "feature dimension mismatch")) := by
  have key : ∀ rows, m.predictLeafIndex P X = .ok rows → (X.c : Int) = m.numFeatures ∧
      rows.length = X.r ∧ ∀ i < X.r, ∃ row, rows[i]? = some row ∧
      row.length = m.trees.length ∧ ∀ (j : Nat) (t : Tree α), m.trees[j]? = some t →
        ∃ k, t.leafIndex P ((List.range X.c).map (X.at' i)) = .ok k ∧ row[j]? = some k := by
    intro rows h
    unfold Model.predictLeafIndex at h
    split at h
    · cases h
    next hc =>
    obtain ⟨h1, h2⟩ := (eachO_ok _ _ _).1 h
    refine ⟨by omega, by simpa using h1, fun i hi => ?_⟩
    obtain ⟨row, h3, h4⟩ := h2 i i (by simp [hi])
    obtain ⟨h5, h6⟩ := (eachO_ok _ _ _).1 h4
    refine ⟨row, h3, h5, fun j t ht => ?_⟩
    obtain ⟨k, h7, h8⟩ := h6 j t ht
    exact ⟨k, h8, h7⟩
  refine ⟨fun M h => (key M h).2, ⟨fun ⟨M, h⟩ => ?_, fun ⟨h1, h4⟩ => ?_⟩, fun h => ?_⟩
  · obtain ⟨h1, -, h6⟩ := key M h
    refine ⟨h1, fun i hi t ht => ?_⟩
    obtain ⟨j, hj⟩ := List.getElem?_of_mem ht
    obtain ⟨row, -, -, h7⟩ := h6 i hi
    obtain ⟨k, hk, -⟩ := h7 j t hj
    exact ⟨k, hk⟩
  · unfold Model.predictLeafIndex
    rw [if_neg (by omega)]
    exact eachO_all (fun i => m.leafIndicesOf P (rowOf X i)) (List.range X.r) (fun i hi =>
      eachO_all (fun t => t.leafIndex P (rowOf X i)) m.trees (fun t ht => h4 i (by simpa using hi) t ht))
  · unfold Model.predictLeafIndex
    rw [if_pos h]

/-- **C247**: `PredictLeaf` of a model without trees panics, though `PredictLeafIndex` answers with empty lists. -/
theorem predict_leaf_no_trees (ofNat : Nat → α) (toInt : α → Int) (P : PNum α) (m : Model α) (X : Mat α) (hw : (X.c : Int) = m.numFeatures)
    (ht : m.trees = []) :
    m.predictLeaf ofNat toInt X = .panic "mat: zero length in matrix dimension" ∧
    m.predictLeafIndex P X = .ok (List.replicate X.r []) := by
  constructor
  · unfold Model.predictLeaf
    rw [if_neg (by omega), if_pos (Or.inr (by simp [ht]))]
  · unfold Model.predictLeafIndex
    rw [if_neg (by omega), (eachO_ok _ _ _)]
    refine ⟨by simp, fun i b hb => ⟨[], ?_, ?_⟩⟩
    · have hi : i < X.r := by
        by_contra h
        rw [List.getElem?_eq_none (by simpa using h)] at hb
        cases hb
      simp [hi]
    · unfold Model.leafIndicesOf
      rw [ht]
      rfl

/-! ### The two numberings -/

/-- the positions of the leaf nodes in a node array, in order -/
def leafPositions (ns : List (Node α)) (base : Nat) : List Int :=
  ((ns.zipIdx base).filter (fun e => e.1.isLeaf)).map (fun e => (e.2 : Int))

theorem leafPositions_append (a b : List (Node α)) (base : Nat) :
    leafPositions (a ++ b) base = leafPositions a base ++ leafPositions b (base + a.length) := by
  simp [leafPositions, List.zipIdx_append]

theorem leafPositions_length (a : List (Node α)) (base : Nat) : (leafPositions a base).length = a.countP (fun n => n.isLeaf) := by
  induction a generalizing base with
  | nil => rfl
  | cons n ns ih =>
    have := ih (base + 1)
    unfold leafPositions at this ⊢
    rw [List.zipIdx_cons, List.filter_cons, List.countP_cons]
    by_cases h : n.isLeaf = true <;> simp [h] at this ⊢ <;> omega

theorem leafPositions_bounds (a : List (Node α)) (base : Nat) (p : Int) (h : p ∈ leafPositions a base) :
    (base : Int) ≤ p ∧ p < base + a.length := by
  unfold leafPositions at h
  obtain ⟨e, he, rfl⟩ := List.mem_map.1 h
  have := List.mem_zipIdx (List.mem_filter.1 he).1
  omega

theorem leafPositions_count (ns : List (Node α)) (i : Nat) (a : Int) (h : (leafPositions ns 0)[i]? = some a) :
    0 ≤ a ∧ a.toNat < ns.length ∧ (ns.take a.toNat).countP (fun n => n.isLeaf) = i := by
  induction ns using List.reverseRecOn generalizing i with
  | nil => simp [leafPositions] at h
  | append_singleton ns n ih =>
    rw [leafPositions_append] at h
    by_cases hi : i < (leafPositions ns 0).length
    · rw [List.getElem?_append_left hi] at h
      obtain ⟨h1, h2, h3⟩ := ih i h
      refine ⟨h1, by simp; omega, ?_⟩
      rw [List.take_append_of_le_length (by omega)]
      exact h3
    · rw [List.getElem?_append_right (by omega)] at h
      unfold leafPositions at h
      simp only [List.zipIdx_cons, List.zipIdx_nil, List.filter_cons, List.filter_nil] at h
      split at h
      · simp only [List.map_cons, List.map_nil, List.getElem?_singleton] at h
        split_ifs at h with hz
        simp only [Option.some.injEq] at h
        change i - (leafPositions ns 0).length = 0 at hz
        rw [leafPositions_length] at hz hi
        refine ⟨by omega, by simp; omega, ?_⟩
        have e : a.toNat = ns.length := by omega
        rw [e, List.take_append_of_le_length (le_refl _), List.take_length]
        omega
      · simp at h

theorem leafPositions_nodup (ns : List (Node α)) (base : Nat) : (leafPositions ns base).Nodup := by
  induction ns generalizing base with
  | nil => simp [leafPositions]
  | cons n ns ih =>
    rw [show n :: ns = [n] ++ ns from rfl, leafPositions_append, List.nodup_append]
    refine ⟨?_, ih _, fun a ha b hb => ?_⟩
    · unfold leafPositions
      simp only [List.zipIdx_cons, List.zipIdx_nil, List.filter_cons, List.filter_nil]
      split <;> simp
    · have h1 := leafPositions_bounds [n] base a ha
      have h2 := leafPositions_bounds ns _ b hb
      simp only [List.length_singleton] at h1 h2
      omega

/-- in every node of the array the comparison with tolerance and the rounding of `Predictor` decide as the plain comparison and the
conversion of `PredictLeaf` do for this sample -/
def SameTests (P : PNum α) (toInt : α → Int) (t : Tree α) (x : List α) : Prop :=
  ∀ n ∈ t.nodes, P.leq (x.getD n.feature.toNat 0) n.threshold = decide (x.getD n.feature.toNat 0 ≤ n.threshold) ∧
    P.round (x.getD n.feature.toNat 0) = toInt (x.getD n.feature.toNat 0)

theorem iStep_split (P : PNum α) (toInt : α → Int) (t : Tree α) (x : List α) (hs : SameTests P toInt t x) (id : Int) (n : Node α)
    (s : Split α) (hn : t.nodeAt id = some n) (hl : n.isLeaf = false) (ha : Asks n s) (hf : s.feature < x.length) :
    t.iStep P x id = .ok (.go (if s.left toInt x then n.left else n.right)) := by
  obtain ⟨s1, s2⟩ := hs n (List.mem_of_getElem? (nodeAt_some hn).2.1)
  unfold Tree.iStep
  simp only [hn, hl]
  cases ha with
  | num f hk hfe =>
    have hv : x[n.feature.toNat]? = some (x.getD n.feature.toNat 0) := by
      rw [hfe, Int.toNat_natCast, List.getD_eq_getElem _ _ hf, List.getElem?_eq_getElem hf]
    rw [if_neg (by simp), if_neg (by omega), hv]
    simp only
    have e : f = n.feature.toNat := by omega
    unfold Split.left isNaN Node.default
    simp only [hk, e, s1]
    cases h : (x.getD n.feature.toNat 0 == x.getD n.feature.toNat 0) <;> simp [bne, h]
  | cat f hk hfe =>
    have hv : x[n.feature.toNat]? = some (x.getD n.feature.toNat 0) := by
      rw [hfe, Int.toNat_natCast, List.getD_eq_getElem _ _ hf, List.getElem?_eq_getElem hf]
    rw [if_neg (by simp), if_neg (by omega), hv]
    simp only
    have e : f = n.feature.toNat := by omega
    unfold Split.left isNaN Node.default
    simp only [hk, e, s2]
    cases h : (x.getD n.feature.toNat 0 == x.getD n.feature.toNat 0) <;> simp [bne, h]

theorem leaves_iwalk (P : PNum α) (toInt : α → Int) (t : Tree α) (x : List α) (hs : SameTests P toInt t x) {id : Int} {d : DTree α}
    {ids : List Int} (h : Leaves t id d ids) (hf : d.Features x.length) :
    ∃ a, ids[d.leafNo toInt x]? = some a ∧ Returns (t.iStep P x) id (.ok a) := by
  induction h with
  | ref id hn =>
    refine ⟨id, rfl, returns_stop ?_⟩
    have : t.nodeAt id = none := by unfold Tree.nodeAt; rw [if_pos hn]
    simp [Tree.iStep, this]
  | leaf id n hn hl =>
    exact ⟨id, rfl, returns_stop (by simp [Tree.iStep, hn, hl])⟩
  | split id n s l r L R hn hl ha h1 h2 hL hR ihl ihr =>
    obtain ⟨f1, f2, f3⟩ := hf
    have hst := iStep_split P toInt t x hs id n s hn hl ha f1
    unfold DTree.leafNo
    by_cases hleft : s.left toInt x = true
    · obtain ⟨a, e1, e3⟩ := ihl f2
      rw [if_pos hleft] at hst ⊢
      refine ⟨a, ?_, returns_go hst e3⟩
      rw [List.getElem?_append_left]
      · exact e1
      · by_contra hge
        rw [List.getElem?_eq_none (by omega)] at e1
        cases e1
    · obtain ⟨a, e1, e3⟩ := ihr f3
      rw [if_neg hleft] at hst ⊢
      refine ⟨a, ?_, returns_go hst e3⟩
      rw [← hL.length, List.getElem?_append_right (by omega)]
      simpa using e1

/-- **C247**, any tree whose leaves stand in the node array in the order from left to right: `PredictLeaf` and `PredictLeafIndex` give
the same number, that of the leaf of the sample counted from the left, for every sample on which the two kinds of comparison agree.
Missing: other arrays (`leaf_numbers_differ`) and values within the tolerance above a threshold (`leaf_numbers_tolerance`). -/
theorem leaf_numbers_agree_partial (P : PNum α) (toInt : α → Int) (t : Tree α) (x : List α) (d : DTree α)
    (h : Leaves t 0 d (leafPositions t.nodes 0)) (hf : d.Features x.length) (hs : SameTests P toInt t x) :
    t.predictLeaf toInt x = .ok (d.leafNo toInt x) ∧ t.leafIndex P x = .ok (d.leafNo toInt x) := by
  refine ⟨predictLeaf_leafNo toInt t x d _ h (leafPositions_nodup _ _) hf, ?_⟩
  obtain ⟨a, e1, e2⟩ := leaves_iwalk P toInt t x hs h hf
  obtain ⟨h1, h2, h3⟩ := leafPositions_count _ _ _ e1
  unfold Tree.leafIndex
  rw [walk_returns P t x _ e2, Outcome.bind_ok, if_pos (by omega), h3]

end

/-! ### Examples -/

theorem exTree_positions : leafPositions exTree.nodes 0 = [1, 3, 4] := by decide +kernel

example : exTree.predictLeaf Rat.floor [1, 3] = .ok 2 ∧ exTree.leafIndex ratNum.toPNum [1, 3] = .ok 2 := by
  obtain ⟨d, hd, hf⟩ := exTree_leaves
  have hs : SameTests ratNum.toPNum Rat.floor exTree [1, 3] := by
    unfold SameTests
    decide +kernel
  have h := leaf_numbers_agree_partial ratNum.toPNum Rat.floor exTree [1, 3] d (by rw [exTree_positions]; exact hd) hf hs
  have e : exTree.predictLeaf Rat.floor [1, 3] = .ok 2 := by decide +kernel
  have e' := h.1.symm.trans e
  exact ⟨e, h.2.trans e'⟩

/-- a model with two trees and two features -/
def twoTrees : Model Rat := ⟨"regression", 1, 2, 1 / 10, [exTree, exTree], 2, 0, 0, false⟩

example : ∃ M, twoTrees.predictLeaf (fun n => (n : Rat)) Rat.floor (Mat.ofRows [[0, 0], [1, 3]] 2 0) = .ok M ∧ M.at' 1 0 = 2 ∧ M.at' 0 1 = 0 := by
  obtain ⟨M, hM⟩ := (predict_leaf_entries (fun n => (n : Rat)) Rat.floor twoTrees (Mat.ofRows [[0, 0], [1, 3]] 2 0)).2.1.2
    ⟨by decide, by decide, by simp [twoTrees], by
      intro i hi t ht
      have : t = exTree := by simpa [twoTrees] using ht
      subst this
      have : i = 0 ∨ i = 1 := by simp [Mat.ofRows] at hi; omega
      rcases this with rfl | rfl
      · exact ⟨0, by decide +kernel⟩
      · exact ⟨2, by decide +kernel⟩⟩
  have h := (predict_leaf_entries (fun n => (n : Rat)) Rat.floor twoTrees (Mat.ofRows [[0, 0], [1, 3]] 2 0)).1 M hM
  refine ⟨M, hM, ?_, ?_⟩
  · obtain ⟨k, h1, h2⟩ := h.2.2 1 (by decide) 0 exTree rfl
    have : (Outcome.ok 2 : Outcome Nat) = .ok k := by rw [← h1]; decide +kernel
    cases this
    exact h2
  · obtain ⟨k, h1, h2⟩ := h.2.2 0 (by decide) 1 exTree rfl
    have : (Outcome.ok 0 : Outcome Nat) = .ok k := by rw [← h1]; decide +kernel
    cases this
    exact h2

example : twoTrees.predictLeafIndex ratNum.toPNum (Mat.ofRows [[0, 0], [1, 3]] 2 0) = .ok [[0, 0], [2, 2]] := by decide +kernel

example : ∃ M, twoTrees.sPredict ratNum (Mat.ofRows [[0, 0], [1, 3]] 2 0) = .ok M :=
  batch_all_ok (by decide) (by decide) (by
    intro i hi
    have : i = 0 ∨ i = 1 := by simp [Mat.ofRows] at hi; omega
    rcases this with rfl | rfl
    · exact ⟨[6], by decide +kernel⟩
    · exact ⟨[14], by decide +kernel⟩)

/-- **C247** is false in general: in a proper tree whose array lists a leaf before leaves further left, the two functions number the leaves
differently. -/
theorem leaf_numbers_differ : ∃ t : Tree Rat, Proper 1 t ∧ t.predictLeaf Rat.floor [9] = .ok 2 ∧ t.leafIndex ratNum.toPNum [9] = .ok 0 ∧
    t.predictLeaf Rat.floor [0] = .ok 0 ∧ t.leafIndex ratNum.toPNum [0] = .ok 1 := by
  refine ⟨⟨[sp 1 2 0 5, sp 3 4 0 2, lf 3, lf 5, lf 7], [], 3, 1, 0⟩, ⟨by simp, fun i n hn => ?_⟩, by decide +kernel, by decide +kernel,
    by decide +kernel, by decide +kernel⟩
  have : i = 0 ∨ i = 1 ∨ i = 2 ∨ i = 3 ∨ i = 4 ∨ 5 ≤ i := by omega
  rcases this with rfl | rfl | rfl | rfl | rfl | h
  · cases hn; right; decide
  · cases hn; right; decide
  · cases hn; left; decide
  · cases hn; left; decide
  · cases hn; left; decide
  · rw [List.getElem?_eq_none (by simpa using h)] at hn
    cases hn

/-- **C247** is false for values closer to a threshold than the tolerance: `PredictLeaf` and `PredictLeafIndex` then report different leaves of
the same tree, though its leaves stand in order. -/
theorem leaf_numbers_tolerance : ∃ (t : Tree Rat) (v : Rat), leafPositions t.nodes 0 = [1, 2] ∧
    t.predictLeaf Rat.floor [v] = .ok 1 ∧ t.leafIndex ratNum.toPNum [v] = .ok 0 :=
  ⟨⟨[sp 1 2 0 5, lf 3, lf 5], [], 2, 1, 0⟩, 5 + 1 / 10000000, by decide +kernel, by decide +kernel, by decide +kernel⟩

end Scigo.LGB
