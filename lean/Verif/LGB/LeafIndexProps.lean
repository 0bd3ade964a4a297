import Verif.LGB.LeafIndex
import Verif.LGB.TextProps

/-!
# Leaf numbers
-/

set_option linter.unusedSectionVars false

namespace Scigo.LGB

section
variable {α : Type _} [BEq α] [LE α] [DecidableLE α] [LT α] [DecidableLT α] [Zero α] [One α] [Add α] [Sub α]
  [Neg α] [Mul α] [Div α]

/-! ### `Predictor.PredictLeafIndex` -/

theorem iStep_go_live {P : PNum α} {t : Tree α} {x : List α} {s s' : Int}
    (h : t.iStep P x s = .ok (.go s')) : 0 ≤ s ∧ s.toNat < t.nodes.length := by
  unfold Tree.iStep at h
  split at h
  · simp at h
  · next n hn => exact ⟨(nodeAt_some hn).1, (nodeAt_some hn).2.2⟩

theorem walk_returns (P : PNum α) (t : Tree α) (x : List α) (r : Outcome Int)
    (h : Returns (t.iStep P x) 0 r) : t.walk P x = r := by
  unfold Tree.walk
  rw [loop_bound t.nodes.length Int.toNat (fun _ _ h => (iStep_go_live h).2) _ 0 r h]
  · rfl
  · intro s s' u u' h h' he
    have := iStep_go_live h
    have := iStep_go_live h'
    omega

/-- in a proper tree the two loops of `Predictor` run in step -/
theorem proper_walk (P : PNum α) (k : Nat) (t : Tree α) (hp : Proper k t) (x : List α) (hk : k ≤ x.length) :
    ∀ (m : Nat) (id : Int) (it : Nat), t.nodes.length ≤ id.toNat + m → 0 ≤ id → id < t.nodes.length → it ≤ id.toNat →
      ∃ (j : Nat) (n : Node α), t.nodes[j]? = some n ∧ n.isLeaf = true ∧ Returns (t.iStep P x) id (.ok j) ∧
        Returns (t.pStep P x) (id, it) (.ok (P.ensure n.leafValue)) := by
  intro m
  induction m with
  | zero => intro id it h1 h2 h3; omega
  | succ m ih =>
    intro id it h1 h2 h3 h4
    obtain ⟨n, hn⟩ := hp.inside h2 h3
    have hmem := (nodeAt_some hn).2.1
    rcases hp.leaf_or hn with ⟨hl, -⟩ | ⟨g1, g2, g3, g4, g5, g6, g7, hl⟩
    · refine ⟨id.toNat, n, hmem, hl, returns_stop ?_, returns_stop ?_⟩
      · unfold Tree.iStep
        simp only [hn, hl, if_true]
        rw [Int.toNat_of_nonneg h2]
      · unfold Tree.pStep
        simp only [hn]
        rw [if_neg (by omega), if_pos hl]
    · have hfx : n.feature < x.length := by omega
      have hv := getElem?_feature g2 hfx
      by_cases hnan : isNaN (x.getD n.feature.toNat 0) = true
      · have hd : id < n.default ∧ n.default < t.nodes.length := by
          unfold Node.default; split_ifs <;> omega
        obtain ⟨j, n', hj, hl', r1, r2⟩ := ih n.default it (by omega) (by omega) hd.2 (by omega)
        refine ⟨j, n', hj, hl', returns_go ?_ r1, returns_go ?_ r2⟩
        · unfold Tree.iStep
          simp only [hn, hl]
          rw [if_neg (by simp), if_neg (by omega), hv]
          simp only [hnan, if_true]
        · unfold Tree.pStep
          simp only [hn]
          rw [if_neg (by omega), if_neg (by simp [hl]), if_neg (by omega), hv]
          simp only [hnan, if_true]
      · have hnan : isNaN (x.getD n.feature.toNat 0) = false := by simpa using hnan
        have hd : id < (if P.leq (x.getD n.feature.toNat 0) n.threshold then n.left else n.right) ∧
            (if P.leq (x.getD n.feature.toNat 0) n.threshold then n.left else n.right) < t.nodes.length := by
          split_ifs <;> omega
        obtain ⟨j, n', hj, hl', r1, r2⟩ := ih (if P.leq (x.getD n.feature.toNat 0) n.threshold then n.left else n.right) (it + 1)
          (by omega) (by omega) hd.2 (by omega)
        refine ⟨j, n', hj, hl', returns_go ?_ r1, returns_go ?_ r2⟩
        · unfold Tree.iStep
          simp only [hn, hl]
          rw [if_neg (by simp), if_neg (by omega), hv]
          simp only [hnan, g1]
          rw [if_neg (by simp)]
        · unfold Tree.pStep
          simp only [hn]
          rw [if_neg (by omega), if_neg (by simp [hl]), if_neg (by omega), hv]
          simp only [hnan, g1]
          rw [if_neg (by simp), if_neg (by omega)]

/-- In a tree as the trainer and the JSON loader produce it, `PredictLeafIndex` gives every sample (NaN included) the number of the leaf
whose value `Predictor` predicts, counting the leaf nodes of the array from 0. -/
theorem leaf_index_partial (P : PNum α) (k : Nat) (t : Tree α) (hp : Proper k t) (x : List α) (hk : k ≤ x.length) :
    ∃ (i : Nat) (n : Node α), t.leafIndex P x = .ok i ∧ (t.nodes.filter (fun n => n.isLeaf))[i]? = some n ∧
      t.pPredict P x = .ok (P.ensure n.leafValue) := by
  have hpos : 0 < t.nodes.length := List.length_pos_iff.2 hp.1
  obtain ⟨j, n, hj, hl, r1, r2⟩ := proper_walk P k t hp x hk t.nodes.length 0 0 (by omega) (by omega) (by omega) (by omega)
  have hjl : j < t.nodes.length := by
    by_contra h
    rw [List.getElem?_eq_none (by omega)] at hj
    cases hj
  refine ⟨(t.nodes.take j).countP (fun n => n.isLeaf), n, ?_, ?_, pPredict_returns P t x _ r2⟩
  · unfold Tree.leafIndex
    rw [walk_returns P t x _ r1, Outcome.bind_ok]
    simp only [Int.toNat_natCast]
    rw [if_pos (by omega)]
  · have hsplit : t.nodes = t.nodes.take j ++ n :: t.nodes.drop (j + 1) := by
      rw [List.getElem?_eq_getElem hjl, Option.some.injEq] at hj
      rw [← hj, List.cons_getElem_drop_succ, List.take_append_drop]
    have hfil : t.nodes.filter (fun n => n.isLeaf) =
        (t.nodes.take j).filter (fun n => n.isLeaf) ++ n :: (t.nodes.drop (j + 1)).filter (fun n => n.isLeaf) := by
      conv_lhs => rw [hsplit, List.filter_append, List.filter_cons_of_pos hl]
    rw [hfil, List.countP_eq_length_filter, List.getElem?_append_right (le_refl _)]
    simp

/-- Samples with the same leaf index get the same prediction from the tree, and the index is below the number of leaves. -/
theorem same_leaf_index (P : PNum α) (k : Nat) (t : Tree α) (hp : Proper k t) (x x' : List α) (hk : k ≤ x.length) (hk' : k ≤ x'.length) :
    (t.leafIndex P x = t.leafIndex P x' → t.pPredict P x = t.pPredict P x') ∧
    ∃ i, t.leafIndex P x = .ok i ∧ i < (t.nodes.filter (fun n => n.isLeaf)).length := by
  obtain ⟨i, n, h1, h2, h3⟩ := leaf_index_partial P k t hp x hk
  obtain ⟨i', n', h1', h2', h3'⟩ := leaf_index_partial P k t hp x' hk'
  refine ⟨fun h => ?_, i, h1, ?_⟩
  · rw [h1, h1', Outcome.ok.injEq] at h
    subst h
    rw [h2, Option.some.injEq] at h2'
    subst h2'
    rw [h3, h3']
  · by_contra hge
    rw [List.getElem?_eq_none (by omega)] at h2
    cases h2

/-- A walk that ends at a leaf reference (a negative child, as in trees loaded from text files) always gives index 0. -/
theorem leaf_index_reference (P : PNum α) (t : Tree α) (x : List α) (j : Int) (hj : j < 0) (h : t.walk P x = .ok j) :
    t.leafIndex P x = .ok 0 := by
  unfold Tree.leafIndex
  rw [h, Outcome.bind_ok]
  have : j.toNat = 0 := by omega
  simp [this]

/-! ### `PredictLeaf` of the extended predictor -/

/-- the array stores the tree `d` at `id`, its leaves from left to right being the given nodes or negative references -/
inductive Leaves (t : Tree α) : Int → DTree α → List Int → Prop
  | ref (id : Int) : id < 0 → Leaves t id (.leaf 0) [id]
  | leaf (id : Int) (n : Node α) : t.nodeAt id = some n → n.isLeaf = true → Leaves t id (.leaf n.leafValue) [id]
  | split (id : Int) (n : Node α) (s : Split α) (l r : DTree α) (L R : List Int) : t.nodeAt id = some n → n.isLeaf = false →
      Asks n s → id < n.left ∨ n.left < 0 → id < n.right ∨ n.right < 0 → Leaves t n.left l L → Leaves t n.right r R →
      Leaves t id (.node s l r) (L ++ R)

theorem Leaves.length {t : Tree α} {id : Int} {d : DTree α} {ids : List Int} (h : Leaves t id d ids) : ids.length = d.paths.length := by
  induction h with
  | ref => rfl
  | leaf => rfl
  | split _ _ _ _ _ _ _ _ _ _ _ _ _ _ ih1 ih2 => simp [DTree.paths, ih1, ih2]

/-- numbering of the leaves from `c` on, latest first -/
def numbered (ids : List Int) (c : Nat) : LeafMap := (ids.zipIdx c).reverse

theorem build_leaves {t : Tree α} {id : Int} {d : DTree α} {ids : List Int} (h : Leaves t id d ids) :
    0 ≤ id → ∀ (k : Nat), t.nodes.length < id.toNat + k → ∀ m c, t.buildLeafMap k id (m, c) = some (numbered ids c ++ m, c + ids.length) := by
  induction h with
  | ref id hn => intro h; omega
  | leaf id n hn hl =>
    intro h0 k hk m c
    obtain ⟨k, rfl⟩ : ∃ k', k = k' + 1 := ⟨k - 1, by have := (nodeAt_some hn).2.2; omega⟩
    simp [Tree.buildLeafMap, hn, hl, numbered]
  | split id n s l r L R hn hl ha h1 h2 hL hR ihl ihr =>
    intro h0 k hk m c
    obtain ⟨k, rfl⟩ : ∃ k', k = k' + 1 := ⟨k - 1, by have := (nodeAt_some hn).2.2; omega⟩
    have side : ∀ (ch : Int) (dd : DTree α) (ids : List Int), Leaves t ch dd ids → (id < ch ∨ ch < 0) →
        (0 ≤ ch → ∀ (k : Nat), t.nodes.length < ch.toNat + k → ∀ m c, t.buildLeafMap k ch (m, c) = some (numbered ids c ++ m, c + ids.length)) →
        ∀ m c, (if ch ≥ 0 then t.buildLeafMap k ch (m, c) else some ((ch, c) :: m, c + 1)) = some (numbered ids c ++ m, c + ids.length) := by
      intro ch dd ids hlv hlt ih m c
      by_cases hc : ch ≥ 0
      · rw [if_pos hc]
        exact ih hc k (by omega) m c
      · rw [if_neg hc]
        cases hlv with
        | ref _ _ => simp [numbered]
        | leaf _ n' hn' _ => exact absurd (nodeAt_some hn').1 hc
        | split _ n' _ _ _ _ _ hn' => exact absurd (nodeAt_some hn').1 hc
    unfold Tree.buildLeafMap
    simp only [hn, hl, Bool.false_eq_true, if_false]
    rw [side n.left l L hL h1 ihl m c]
    simp only
    rw [side n.right r R hR h2 ihr]
    simp only [numbered, List.zipIdx_append, List.reverse_append, List.length_append, List.append_assoc, Option.some.injEq, Prod.mk.injEq]
    exact ⟨trivial, by omega⟩

theorem lookup_numbered (ids : List Int) (hn : ids.Nodup) (c i : Nat) (a : Int) (h : ids[i]? = some a) :
    (numbered ids c).lookup a = some (c + i) := by
  unfold numbered
  induction ids using List.reverseRecOn generalizing i with
  | nil => simp at h
  | append_singleton ids b ih =>
    rw [List.zipIdx_append, List.reverse_append]
    have hnd := List.nodup_append.1 hn
    simp only [List.zipIdx_cons, List.zipIdx_nil, List.reverse_cons, List.reverse_nil, List.nil_append, List.cons_append, List.lookup_cons]
    by_cases hi : i < ids.length
    · rw [List.getElem?_append_left hi] at h
      have hne : a ≠ b := fun hab => hnd.2.2 a (List.mem_of_getElem? h) b (by simp) hab
      have : (a == b) = false := by simpa using hne
      rw [this]
      exact ih hnd.1 i h
    · rw [List.getElem?_append_right (by omega), List.getElem?_singleton] at h
      split_ifs at h with hz
      have : i = ids.length := by omega
      cases h
      simp [this]

theorem leafStep_go_live {toInt : α → Int} {t : Tree α} {x : List α} {s s' : Int}
    (h : t.leafStep toInt x s = .ok (.go s')) : 0 ≤ s ∧ s.toNat < t.nodes.length := by
  unfold Tree.leafStep at h
  split at h
  · simp at h
  · next n hn => exact ⟨(nodeAt_some hn).1, (nodeAt_some hn).2.2⟩

theorem leafStep_eq_step {toInt : α → Int} {t : Tree α} {x : List α} {s s' : Int}
    (h : t.step toInt x s = .ok (.go s')) : t.leafStep toInt x s = .ok (.go s') := by
  unfold Tree.step at h
  unfold Tree.leafStep
  cases hn : t.nodeAt s with
  | none => rw [hn] at h; cases h
  | some n =>
    rw [hn] at h
    simp only at h ⊢
    by_cases hl : n.isLeaf = true
    · rw [if_pos hl] at h; cases h
    rw [if_neg hl] at h ⊢
    cases hf : featureAt x n.feature with
    | none => rw [hf] at h; cases h
    | some v =>
      rw [hf] at h
      simp only at h ⊢
      by_cases hv : isNaN v = true
      · rw [if_pos hv] at h ⊢; cases h; rfl
      · rw [if_neg hv] at h ⊢
        cases hk : n.kind <;> rw [hk] at h <;> cases h <;> rfl

theorem leaves_walk (toInt : α → Int) (t : Tree α) (x : List α) {id : Int} {d : DTree α} {ids : List Int} (h : Leaves t id d ids)
    (hf : d.Features x.length) :
    ∃ a b, ids[d.leafNo toInt x]? = some a ∧ (b = true ∨ a < 0) ∧ Returns (t.leafStep toInt x) id (.ok (a, b)) := by
  induction h with
  | ref id hn =>
    refine ⟨id, false, rfl, Or.inr hn, returns_stop ?_⟩
    have : t.nodeAt id = none := by unfold Tree.nodeAt; rw [if_pos hn]
    simp [Tree.leafStep, this]
  | leaf id n hn hl =>
    exact ⟨id, true, rfl, Or.inl rfl, returns_stop (by simp [Tree.leafStep, hn, hl])⟩
  | split id n s l r L R hn hl ha h1 h2 hL hR ihl ihr =>
    obtain ⟨f1, f2, f3⟩ := hf
    have hs := leafStep_eq_step (step_split toInt t x id n s hn hl ha f1)
    unfold DTree.leafNo
    by_cases hleft : s.left toInt x = true
    · obtain ⟨a, b, e1, e2, e3⟩ := ihl f2
      rw [if_pos hleft] at hs ⊢
      refine ⟨a, b, ?_, e2, returns_go hs e3⟩
      rw [List.getElem?_append_left]
      · exact e1
      · by_contra hge
        rw [List.getElem?_eq_none (by omega)] at e1
        cases e1
    · obtain ⟨a, b, e1, e2, e3⟩ := ihr f3
      rw [if_neg hleft] at hs ⊢
      refine ⟨a, b, ?_, e2, returns_go hs e3⟩
      rw [← hL.length, List.getElem?_append_right (by omega)]
      simpa using e1

/-- `PredictLeaf` numbers the leaves from left to right: for every node array that stores a tree with distinct leaves, the index of a
sample is the position of its leaf.  This covers trees loaded from text files, whose leaves are negative references. -/
theorem predictLeaf_leafNo (toInt : α → Int) (t : Tree α) (x : List α) (d : DTree α) (ids : List Int) (h : Leaves t 0 d ids)
    (hn : ids.Nodup) (hf : d.Features x.length) : t.predictLeaf toInt x = .ok (d.leafNo toInt x) := by
  obtain ⟨a, b, e1, e2, e3⟩ := leaves_walk toInt t x h hf
  unfold Tree.predictLeaf
  rw [build_leaves h (le_refl 0) (t.nodes.length + 1) (by omega)]
  simp only
  rw [loop_bound t.nodes.length Int.toNat (fun _ _ h => (leafStep_go_live h).2) (by
    intro s s' u u' h h' he
    have := leafStep_go_live h
    have := leafStep_go_live h'
    omega) 0 _ e3]
  simp only [Option.getD_some]
  have hc : b = true ∨ a < 0 := e2
  rw [if_pos hc, List.append_nil, lookup_numbered ids hn 0 _ a e1]
  simp

end

/-! ### examples -/

theorem exTree_leaves : ∃ d, Leaves exTree 0 d [1, 3, 4] ∧ d.Features 2 := by
  refine ⟨_, .split 0 (sp 1 2 0 (1/2)) ⟨0, .le (1/2), true⟩ _ _ [1] [3, 4] rfl (by decide) (.num _ 0 rfl rfl) (by decide) (by decide)
    (.leaf 1 (lf 3) rfl (by decide))
    (.split 2 (sp 3 4 1 2) ⟨1, .le 2, true⟩ _ _ [3] [4] rfl (by decide) (.num _ 1 rfl rfl) (by decide) (by decide)
      (.leaf 3 (lf 5) rfl (by decide)) (.leaf 4 (lf 7) rfl (by decide))), ?_⟩
  simp [DTree.Features]

example : exTree.predictLeaf Rat.floor [1, 3] = .ok 2 ∧ exTree.leafIndex ratNum.toPNum [1, 3] = .ok 2 := by
  constructor <;> decide +kernel

/-- For a tree loaded from a text file `PredictLeafIndex` gives index 0 to samples in different leaves.  (C152 is false for loaded models.) -/
theorem leaf_index_text : ∃ (T : Tree Rat) (x x' : List Rat), exArrays.load (1 / 10) 0 = .ok T ∧
    T.leafIndex ratNum.toPNum x = .ok 0 ∧ T.leafIndex ratNum.toPNum x' = .ok 0 ∧
    T.pPredict ratNum.toPNum x ≠ T.pPredict ratNum.toPNum x' := by
  cases h : exArrays.load (1 / 10) 0 with
  | ok T =>
    have hT : (exArrays.load (1 / 10) 0).bind (fun T => .ok (T.leafIndex ratNum.toPNum [1, 8], T.leafIndex ratNum.toPNum [1, 6],
        decide (T.pPredict ratNum.toPNum [1, 8] = T.pPredict ratNum.toPNum [1, 6]))) = .ok (.ok 0, .ok 0, false) := by decide +kernel
    rw [h, Outcome.bind_ok] at hT
    simp only [Outcome.ok.injEq, Prod.mk.injEq, decide_eq_false_iff_not] at hT
    exact ⟨T, [1, 8], [1, 6], rfl, hT.1, hT.2.1, hT.2.2⟩
  | err e => exact absurd h (by intro h; have : (exArrays.load (1 / 10) 0).bind (fun _ => Outcome.ok ()) = .ok () := by decide +kernel
                                rw [h] at this; cases this)
  | panic s => exact absurd h (by intro h; have : (exArrays.load (1 / 10) 0).bind (fun _ => Outcome.ok ()) = .ok () := by decide +kernel
                                  rw [h] at this; cases this)

end Scigo.LGB
