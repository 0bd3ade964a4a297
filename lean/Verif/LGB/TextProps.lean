import Verif.LGB.Text
import Verif.LGB.LeavesProps
import Verif.LGB.EnsembleProps

/-!
# Text files of models (C49, C97)
-/

set_option linter.unusedSectionVars false

namespace Scigo.LGB

section

variable {α : Type _} [Zero α]

/-- what becomes of a node -/
def Node.reloaded (n : Node α) : Node α :=
  if n.isLeaf then textNode n.left n.right 0 0 false
  else textNode n.left n.right n.feature.toNat n.threshold (decide (n.kind ≠ .categorical))

theorem reloaded_isLeaf (n : Node α) : n.reloaded.isLeaf = n.isLeaf := by
  unfold Node.reloaded Node.isLeaf
  split_ifs <;> rfl

theorem loadNodes_toText (t : Tree α) (k : Nat) (hk : k ≤ t.nodes.length) :
    t.toText.loadNodes k = .ok ((t.nodes.take k).map Node.reloaded) := by
  induction k with
  | zero => rfl
  | succ k ih =>
    have hlt : k < t.nodes.length := by omega
    unfold TextArrays.loadNodes
    rw [ih (by omega), List.take_succ_eq_append_getElem hlt]
    simp only [Outcome.bind_ok, Tree.toText, List.getElem?_map, List.getElem?_eq_getElem hlt, Option.map_some,
      List.map_append, List.map_cons, List.map_nil, Option.getD_some]
    congr 3
    unfold Node.reloaded
    split_ifs <;> simp_all

theorem load_toText (t : Tree α) (s : α) (i : Nat) (h : t.nodes.length ≠ 1) :
    t.toText.load s i = .ok ⟨t.nodes.map Node.reloaded, t.textLeaves, t.nodes.length, s, 0⟩ := by
  unfold TextArrays.load
  have h1 : t.toText.numLeaves = t.nodes.length := rfl
  have h2 : t.toText.splitFeature.length = t.nodes.length := by simp [Tree.toText]
  have h3 : t.toText.firstInternal i = 0 := by simp [TextArrays.firstInternal, Tree.toText]
  rw [if_neg (by rw [h1]; omega), h2, loadNodes_toText t _ le_rfl, h3]
  simp only [Outcome.map_ok, List.take_length]
  rfl

theorem load_toText_single (t : Tree α) (s : α) (i : Nat) (h : t.nodes.length = 1) :
    t.toText.load s i = .ok ⟨[], t.textLeaves, 1, s, 0⟩ := by
  unfold TextArrays.load
  have h1 : t.toText.numLeaves = t.nodes.length := rfl
  rw [if_pos (by rw [h1]; omega), h1, h]
  rfl

/-- the tree a saved tree becomes -/
def Tree.reloaded (t : Tree α) : Tree α :=
  if t.nodes.length = 1 then ⟨[], t.textLeaves, 1, t.shrinkage, 0⟩
  else ⟨t.nodes.map Node.reloaded, t.textLeaves, t.nodes.length, t.shrinkage, 0⟩

theorem loadTrees_toText (ts : List (Tree α)) (i : Nat) :
    loadTrees (ts.map fun t => (t.toText, t.shrinkage)) i = .ok (ts.map Tree.reloaded) := by
  induction ts generalizing i with
  | nil => rfl
  | cons t ts ih =>
    simp only [List.map_cons, loadTrees]
    by_cases h : t.nodes.length = 1
    · rw [load_toText_single t _ _ h, Outcome.bind_ok, ih]
      simp [Tree.reloaded, h]
    · rw [load_toText t _ _ h, Outcome.bind_ok, ih]
      simp [Tree.reloaded, h]

theorem load_model (tenth : α) (m : Model α) : m.toText.load tenth = .ok
    ⟨m.objective, if m.numClass = 0 then 1 else m.numClass, m.trees.length, tenth, m.trees.map Tree.reloaded,
      m.numFeatures, 0, 0, false⟩ := by
  unfold TextFile.load Model.toText
  simp only [loadTrees_toText, Outcome.map_ok, List.length_map]
  have : loadedInit (m.trees.map Tree.reloaded) = 0 := by
    cases m.trees with
    | nil => rfl
    | cons t ts =>
      simp only [List.map_cons, loadedInit, Tree.reloaded]
      split_ifs <;> rfl
  rw [this]
  simp

theorem reloaded_nodeAt (t : Tree α) (h : t.nodes.length ≠ 1) (id : Int) :
    t.reloaded.nodeAt id = (t.nodeAt id).map Node.reloaded := by
  unfold Tree.nodeAt Tree.reloaded
  rw [if_neg h]
  split_ifs <;> simp

end

section

variable {α : Type _} [BEq α] [LE α] [DecidableLE α] [LT α] [DecidableLT α] [Zero α] [One α] [Add α] [Sub α]
  [Neg α] [Mul α] [Div α]

/-- a node whose leaf value is 0 everywhere: the walk returns 0 -/
theorem stores_zero (t : Tree α) (hz : ∀ n ∈ t.nodes, n.leafValue = 0) (toInt : α → Int) (x : List α) (id : Int)
    (d : DTree α) (h : Stores t id d) : d.eval toInt x = 0 := by
  induction h with
  | outside id hn => rfl
  | leaf id n hn hl => exact hz n (List.mem_of_getElem? (nodeAt_some hn).2.1)
  | split id n s l r hn hl ha _ _ ihl ihr =>
    unfold DTree.eval
    split_ifs
    · exact ihl
    · exact ihr

theorem reloaded_wellFormed (k : Nat) (t : Tree α) (h : Proper k t) : WellFormed k t.reloaded := by
  unfold Tree.reloaded
  split_ifs with h1
  · intro i n hn; simp at hn
  · intro i n hn hl
    simp only [List.getElem?_map, Option.map_eq_some_iff] at hn
    obtain ⟨n0, hn0, rfl⟩ := hn
    rw [reloaded_isLeaf] at hl
    rcases h.2 i n0 hn0 with ⟨hh, -⟩ | ⟨g1, g2, g3, g4, g5, g6, g7⟩
    · rw [hh] at hl; cases hl
    · unfold Node.reloaded
      rw [hl]
      simp only [Bool.false_eq_true, if_false, textNode]
      exact ⟨Or.inl trivial, by omega, by omega, Or.inr g4, Or.inr g6⟩

/-- C49 is false in the strongest way: whatever the tree, after `SaveToText` and loading, `Tree.Predict`
returns 0 for every sample. -/
theorem text_roundtrip_tree_zero (toInt : α → Int) (k : Nat) (t : Tree α) (h : Proper k t) (x : List α)
    (hx : k ≤ x.length) : t.reloaded.predict toInt x = .ok 0 := by
  have hw := reloaded_wellFormed k t h
  obtain ⟨d, hd, hf⟩ := wellFormed_stores k t.reloaded hw 0
  have hz : ∀ n ∈ t.reloaded.nodes, n.leafValue = 0 := by
    intro n hn
    unfold Tree.reloaded at hn
    split_ifs at hn with h1
    · simp at hn
    · simp only [List.mem_map] at hn
      obtain ⟨n0, -, rfl⟩ := hn
      unfold Node.reloaded
      split_ifs <;> rfl
  have h1 := stores_returns toInt t.reloaded x 0 d hd (hf.mono hx)
  rw [stores_zero t.reloaded hz toInt x 0 d hd] at h1
  exact predict_returns _ _ _ _ h1

theorem accumulate_zero (m : Model α) (out : Tree α → Outcome α) (hadd : ∀ s : α, s + 0 = s)
    (ts : List (Tree α × Nat)) (h : ∀ t ∈ ts, out t.1 = .ok 0) (p : List α) :
    m.accumulate out (fun _ s v => s + v) ts p = .ok p := by
  induction ts generalizing p with
  | nil => rfl
  | cons t ts ih =>
    obtain ⟨t, i⟩ := t
    unfold Model.accumulate
    rw [h (t, i) List.mem_cons_self]
    simp only [hadd]
    rw [ih (fun t ht => h t (List.mem_cons_of_mem _ ht))]
    congr 1
    exact List.modify_id _ p

/-- C49 is false for every trained model: after `SaveToText` and loading, `PredictSingle` returns the
transformation of all zero scores for every sample. (`hadd` is the only fact about addition used.) -/
theorem text_roundtrip_constant (N : ENum α) (toInt : α → Int) (hadd : ∀ s : α, s + 0 = s) (tenth : α) (k : Nat)
    (m : Model α) (hc : m.numClass ≠ 0) (hp : ∀ t ∈ m.trees, Proper k t) :
    ∃ m', m.toText.load tenth = .ok m' ∧ ∀ x : List α, k ≤ x.length →
      m'.predictSingle N toInt x (-1) = .ok (m'.link N (List.replicate m.outCols 0)) := by
  refine ⟨_, load_model tenth m, fun x hx => ?_⟩
  unfold Model.predictSingle Model.raw
  simp only
  rw [accumulate_zero _ _ hadd]
  · simp only [Outcome.map_ok, Model.start, Model.outCols, if_neg hc]
    split_ifs <;> rfl
  · intro t ht
    have := mem_zipIdx_fst ht
    have := List.mem_of_mem_take this
    rw [List.mem_map] at this
    obtain ⟨t0, ht0, he⟩ := this
    rw [← he]
    exact text_roundtrip_tree_zero toInt k t0 (hp t0 ht0) x hx

/-- C49: the file itself is complete: it has one entry per node, and at the position of every leaf of a trained tree its value -/
theorem text_leaf_values (t : Tree α) (h : t.leafValues = []) (i : Nat) (n : Node α) (hn : t.nodes[i]? = some n) :
    t.toText.leafValue.length = t.nodes.length ∧
    (n.isLeaf = true → t.toText.leafValue[i]? = some n.leafValue) ∧ (n.isLeaf = false → t.toText.leafValue[i]? = some 0) := by
  have e : t.toText.leafValue = t.nodes.map fun n => if n.isLeaf then n.leafValue else 0 := by
    show t.textLeaves = _
    unfold Tree.textLeaves
    rw [h]
    rfl
  rw [e]
  refine ⟨by simp, fun hl => ?_, fun hl => ?_⟩ <;> rw [List.getElem?_map, hn] <;> simp [hl]

/-! What survives: the path through the tree. -/

theorem buildLeafMap_congr (t t' : Tree α)
    (h : ∀ id, (t'.nodeAt id).map (fun n => (n.left, n.right)) = (t.nodeAt id).map (fun n => (n.left, n.right)))
    (d : Nat) (id : Int) (s : LeafMap × Nat) : t'.buildLeafMap d id s = t.buildLeafMap d id s := by
  induction d generalizing id s with
  | zero => rfl
  | succ d ih =>
    obtain ⟨m, c⟩ := s
    unfold Tree.buildLeafMap
    have := h id
    cases h1 : t.nodeAt id with
    | none =>
      rw [h1] at this
      simp only [Option.map_none, Option.map_eq_none_iff] at this
      rw [this]
    | some n =>
      rw [h1] at this
      simp only [Option.map_some, Option.map_eq_some_iff, Prod.mk.injEq] at this
      obtain ⟨n', hn', hl, hr⟩ := this
      rw [hn']
      simp only [Node.isLeaf, hl, hr, ih]
      rfl

theorem loop_congr {σ β : Type _} {f g : σ → Outcome (Move σ β)} (h : ∀ s, f s = g s) (n : Nat) (s : σ) :
    loop f n s = loop g n s := by
  rw [show f = g from funext h]

/-- C49, the part that holds: a saved and reloaded tree sends every sample without missing values to the
same leaf (`PredictLeaf` is unchanged). Missing: the values of the leaves and the initial score, which are
all replaced by 0 (`text_roundtrip_constant`), and the default directions, which all become left. -/
theorem text_roundtrip_leaf_partial (toInt : α → Int) (k : Nat) (t : Tree α) (h : Proper k t) (x : List α)
    (hx : k ≤ x.length) (hnan : ∀ v ∈ x, isNaN v = false) :
    t.reloaded.predictLeaf toInt x = t.predictLeaf toInt x := by
  by_cases h1 : t.nodes.length = 1
  · obtain ⟨n, hn⟩ := List.length_eq_one_iff.1 h1
    have hleaf : n.isLeaf = true := by
      rcases h.2 0 n (by simp [hn]) with ⟨hh, -⟩ | ⟨_, _, _, g4, g5, _, _⟩
      · exact hh
      · rw [h1] at g5; simp at g4 g5; omega
    unfold Tree.reloaded
    rw [if_pos h1]
    unfold Tree.predictLeaf
    simp [hn, Tree.buildLeafMap, Tree.nodeAt, hleaf, loop, Tree.leafStep]
  · have hnode := reloaded_nodeAt t h1
    have hlen : t.reloaded.nodes.length = t.nodes.length := by
      unfold Tree.reloaded; rw [if_neg h1]; simp
    have hb : t.reloaded.buildLeafMap (t.nodes.length + 1) 0 ([], 0) =
        t.buildLeafMap (t.nodes.length + 1) 0 ([], 0) := by
      apply buildLeafMap_congr
      intro id
      rw [hnode]
      cases t.nodeAt id with
      | none => rfl
      | some n => simp only [Option.map_some, Node.reloaded]; split_ifs <;> rfl
    have hstep : ∀ id, t.reloaded.leafStep toInt x id = t.leafStep toInt x id := by
      intro id
      unfold Tree.leafStep
      rw [hnode]
      cases hn : t.nodeAt id with
      | none => rfl
      | some n =>
        simp only [Option.map_some, reloaded_isLeaf]
        cases hl : n.isLeaf
        · rcases h.leaf_or hn with ⟨hh, -⟩ | ⟨g1, g2, g3, g4, g5, g6, g7, g8⟩
          · rw [hh] at hl; cases hl
          · have e : n.reloaded = textNode n.left n.right n.feature.toNat n.threshold true := by
              unfold Node.reloaded; rw [hl]; simp [g1]
            rw [e]
            simp only [textNode, Bool.false_eq_true, if_false, g1]
            rw [Int.toNat_of_nonneg g2, featureAt_some g2 (by omega)]
            have hv := getElem?_feature g2 (by omega : n.feature < x.length)
            have := hnan _ (List.mem_of_getElem? hv)
            simp only [this, Bool.false_eq_true, if_false]
            rfl
        · simp
    unfold Tree.predictLeaf
    rw [hlen, hb, loop_congr hstep]

end

/-! A tree of depth 2 with leaf values 1, 2, 3. -/

/-- a tree for the examples -/
def savedTree : Tree ℚ where
  nodes := [⟨1, 2, .numerical, 0, 0, [], false, 0, 0, 0, 0, 0⟩, ⟨3, 4, .numerical, 1, 5, [], false, 0, 0, 0, 0, 0⟩,
    ⟨-1, -1, .leaf, -1, 0, [], false, 0, 3, 0, 0, 0⟩, ⟨-1, -1, .leaf, -1, 0, [], false, 0, 1, 0, 0, 0⟩,
    ⟨-1, -1, .leaf, -1, 0, [], false, 0, 2, 0, 0, 0⟩]
  leafValues := []
  numLeaves := 3
  shrinkage := 1 / 10
  internalValue := 0

theorem savedTree_proper : Proper 2 savedTree := by
  refine ⟨by simp [savedTree], ?_⟩
  intro i n hn
  match i, hn with
  | 0, hn => cases hn; right; simp [savedTree]
  | 1, hn => cases hn; right; simp [savedTree]
  | 2, hn => cases hn; left; exact ⟨rfl, rfl⟩
  | 3, hn => cases hn; left; exact ⟨rfl, rfl⟩
  | 4, hn => cases hn; left; exact ⟨rfl, rfl⟩
  | i + 5, hn => simp [savedTree] at hn

/-- C49 is false: a concrete model -/
theorem text_roundtrip_false : ∃ (m : Model ℚ) (x : List ℚ), (∀ t ∈ m.trees, Proper 2 t) ∧
    m.predictSingle ratNum Rat.floor x (-1) = .ok [2] ∧
    ∃ m', m.toText.load (1 / 10) = .ok m' ∧ m'.predictSingle ratNum Rat.floor x (-1) = .ok [0] := by
  refine ⟨⟨"regression", 1, 1, 1 / 10, [savedTree], 2, 0, 0, false⟩, [-1, 7], ?_, ?_, _, load_model _ _, ?_⟩
  · intro t ht
    simp only [List.mem_cons, List.not_mem_nil, or_false] at ht
    subst ht
    exact savedTree_proper
  · decide +kernel
  · decide +kernel

example : savedTree.reloaded.predictLeaf Rat.floor [-1, 7] = .ok 1 := by
  rw [text_roundtrip_leaf_partial Rat.floor 2 savedTree savedTree_proper [-1, 7] (by simp)
    (by intro v _; simp [isNaN])]
  decide +kernel

/-! ## LightGBM's own text files (C97) -/

section

variable {α : Type _} [BEq α] [LE α] [DecidableLE α] [LT α] [DecidableLT α] [Zero α] [One α] [Add α] [Sub α]
  [Neg α] [Mul α] [Div α]

/-- the arrays of the block have the lengths LightGBM writes -/
def TextArrays.Sized (a : TextArrays α) : Prop :=
  a.left.length = (a.numLeaves - 1).toNat ∧ a.right.length = (a.numLeaves - 1).toNat ∧
  a.decisionType.length = (a.numLeaves - 1).toNat ∧ a.splitFeature.length = (a.numLeaves - 1).toNat ∧
  a.threshold.length = (a.numLeaves - 1).toNat

theorem loadNodes_sized (a : TextArrays α) (k : Nat) (h1 : k ≤ a.left.length) (h2 : k ≤ a.right.length)
    (h3 : k ≤ a.splitFeature.length) (h4 : k ≤ a.threshold.length) :
    ∃ ns, a.loadNodes k = .ok ns ∧ ns.length = k ∧ ∀ i < k, ∀ l r f t, a.left[i]? = some l → a.right[i]? = some r →
      a.splitFeature[i]? = some f → a.threshold[i]? = some t →
      ns[i]? = some (textNode l r f t ((a.decisionType[i]?.getD 0) / 2 % 2 == 1)) := by
  induction k with
  | zero => exact ⟨[], rfl, rfl, by simp⟩
  | succ k ih =>
    obtain ⟨ns, hns, hlen, hget⟩ := ih (by omega) (by omega) (by omega) (by omega)
    obtain ⟨l, hl⟩ : ∃ l, a.left[k]? = some l := ⟨_, List.getElem?_eq_getElem (by omega)⟩
    obtain ⟨r, hr⟩ : ∃ l, a.right[k]? = some l := ⟨_, List.getElem?_eq_getElem (by omega)⟩
    obtain ⟨f, hf⟩ : ∃ l, a.splitFeature[k]? = some l := ⟨_, List.getElem?_eq_getElem (by omega)⟩
    obtain ⟨t, ht⟩ : ∃ l, a.threshold[k]? = some l := ⟨_, List.getElem?_eq_getElem (by omega)⟩
    refine ⟨ns ++ [textNode l r f t ((a.decisionType[k]?.getD 0) / 2 % 2 == 1)], ?_, by simp [hlen], ?_⟩
    · unfold TextArrays.loadNodes
      rw [hns]
      simp [hl, hr, hf, ht]
    · intro i hi l' r' f' t' h1' h2' h3' h4'
      by_cases hik : i = k
      · subst hik
        rw [hl] at h1'; rw [hr] at h2'; rw [hf] at h3'; rw [ht] at h4'
        cases h1'; cases h2'; cases h3'; cases h4'
        rw [← hlen]
        simp
      · rw [List.getElem?_append_left (by omega)]
        exact hget i (by omega) l' r' f' t' h1' h2' h3' h4'

theorem load_sized (a : TextArrays α) (ha : a.Sized) (hn : a.numLeaves ≠ 1) (s : α) (ti : Nat) :
    ∃ T, a.load s ti = .ok T ∧ T.leafValues = a.leafValue ∧ T.nodes.length = (a.numLeaves - 1).toNat ∧
      ∀ (i : Nat) l r f t, a.left[i]? = some l → a.right[i]? = some r →
        a.splitFeature[i]? = some f → a.threshold[i]? = some t →
        T.nodeAt i = some (textNode l r f t ((a.decisionType[i]?.getD 0) / 2 % 2 == 1)) := by
  obtain ⟨h1, h2, h3, h4, h5⟩ := ha
  obtain ⟨ns, hns, hlen, hget⟩ := loadNodes_sized a a.splitFeature.length (by omega) (by omega) (by omega) (by omega)
  refine ⟨⟨ns, a.leafValue, a.numLeaves, s, a.firstInternal ti⟩, ?_, rfl, by simp [hlen, h4], ?_⟩
  · unfold TextArrays.load
    rw [if_neg hn, hns]
    rfl
  · intro i l r f t hl hr hf ht
    rw [nodeAt_nat]
    refine hget i ?_ l r f t hl hr hf ht
    by_contra hc
    rw [List.getElem?_eq_none (by omega)] at hf
    cases hf

theorem nodeAt_neg (T : Tree α) (c : Int) (h : c < 0) : T.nodeAt c = none := by
  unfold Tree.nodeAt; rw [if_pos h]

/-- C97: `Model.Predict` on a tree loaded from a LightGBM text file gives 0 for every sample: references to
leaves are negative, and the walk takes a negative reference for the end of the tree. -/
theorem text_model_predicts_zero (toInt : α → Int) (a : TextArrays α) (ha : a.Sized) (t : FTree α) (used : List Nat)
    (ht : TextHolds a (0 : Nat) t used) (s : α) (ti : Nat) :
    ∃ T, a.load s ti = .ok T ∧ ∀ x : List α, t.Features x.length → T.predict toInt x = .ok 0 := by
  have hn1 : a.numLeaves ≠ 1 := by
    rcases holds_ref ht with ⟨h, -⟩ | ⟨i, hi, -, h, -⟩ <;> omega
  obtain ⟨T, hT, -, hlen, hnode⟩ := load_sized a ha hn1 s ti
  refine ⟨T, hT, fun x hx => ?_⟩
  have key : ∀ (c : Int) (t : FTree α) (u : List Nat), TextHolds a c t u → t.Features x.length →
      Returns (T.step toInt x) c (.ok 0) := by
    intro c t u h
    induction h with
    | leaf k v hv =>
      intro _
      refine returns_stop ?_
      unfold Tree.step
      rw [nodeAt_neg T _ (by omega)]
    | node i cl cr d f thr l r ul ur hi h1 h2 h3 h4 h5 h6 hl hr ihl ihr =>
      intro hf
      obtain ⟨hf1, hf2, hf3⟩ := hf
      have hn := hnode i cl cr f thr h1 h2 h4 h5
      set n : Node α := textNode cl cr f thr ((a.decisionType[i]?.getD 0) / 2 % 2 == 1) with hndef
      cases hlf : n.isLeaf
      · have hstep : ∃ b : Bool, T.step toInt x i = .ok (.go (if b then cl else cr)) := by
          unfold Tree.step
          rw [hn]
          simp only [hlf, Bool.false_eq_true, if_false]
          have hfe : n.feature = (f : Int) := rfl
          rw [hfe, featureAt_some (by omega) (by exact_mod_cast hf1)]
          simp only
          by_cases hnan : isNaN (x.getD (f : Int).toNat 0) = true
          · exact ⟨n.defaultLeft, by rw [if_pos hnan]; rfl⟩
          · refine ⟨decide (x.getD (f : Int).toNat 0 ≤ thr), ?_⟩
            rw [if_neg hnan]
            have hk : n.kind = .numerical := rfl
            have ht : n.threshold = thr := rfl
            rw [hk, ht]
            simp only [decide_eq_true_eq]
            rfl
        obtain ⟨b, hb⟩ := hstep
        refine returns_go hb ?_
        cases b
        · exact ihr hf3
        · exact ihl hf2
      · refine returns_stop ?_
        unfold Tree.step
        rw [hn]
        simp only [hlf, if_true]
        rfl
  exact predict_returns _ _ _ _ (key _ t used ht hx)

/-- the sample is clear of the corner cases of `Predictor`: no missing value is met, and comparisons with a
tolerance come out as exact ones -/
def FTree.Clear (P : PNum α) (z : α) (x : List α) : FTree α → Prop
  | .leaf _ => True
  | .node f thr m _ l r => isNaN (x.getD f 0) = false ∧ (m = .zero → ¬ (-z < x.getD f 0 ∧ x.getD f 0 ≤ z)) ∧
      P.leq (x.getD f 0) thr = decide (x.getD f 0 ≤ thr) ∧ l.Clear P z x ∧ r.Clear P z x

theorem goesLeft_clear (z : α) (m : Missing) (dl : Bool) (thr v : α) (h1 : isNaN v = false)
    (h2 : m = .zero → ¬ (-z < v ∧ v ≤ z)) : goesLeft z m dl thr v = decide (v ≤ thr) := by
  unfold isNaN at h1
  unfold goesLeft
  cases m <;> simp only [h1, Bool.false_eq_true, if_false]
  rw [if_neg (h2 rfl)]

/-- C97, the part that holds: `Predictor` on a LightGBM text file gives the value LightGBM gives (values below
`epsilon` become 0) for samples clear of missing values and of the comparison tolerance. Missing: samples
with missing values, and every sample for `Model.Predict` (`text_model_predicts_zero`). -/
theorem text_predictor_partial (P : PNum α) (z : α) (a : TextArrays α) (ha : a.Sized) (t : FTree α) (used : List Nat)
    (ht : TextHolds a (0 : Nat) t used) (hnd : used.Nodup)
    (hdist : ∀ i : Nat, ¬ (a.left[i]? = some (-1) ∧ a.right[i]? = some (-1))) (s : α) (ti : Nat) :
    ∃ T, a.load s ti = .ok T ∧ ∀ x : List α, t.Features x.length → t.Clear P z x →
      T.pPredict P x = .ok (P.ensure (t.eval z x)) := by
  have hn1 : a.numLeaves ≠ 1 := by
    rcases holds_ref ht with ⟨h, -⟩ | ⟨i, hi, -, h, -⟩ <;> omega
  obtain ⟨T, hT, hlv, hlen, hnode⟩ := load_sized a ha hn1 s ti
  refine ⟨T, hT, fun x hx hcl => ?_⟩
  have hused : ∀ (c : Int) (t : FTree α) (u : List Nat), TextHolds a c t u → ∀ k ∈ u, k < T.nodes.length := by
    intro c t u h
    induction h with
    | leaf k v hv => simp
    | node i cl cr d f thr l r ul ur hi h1 h2 h3 h4 h5 h6 hl hr ihl ihr =>
      intro k hk
      rcases List.mem_cons.1 hk with rfl | hk
      · omega
      · rcases List.mem_append.1 hk with hk | hk
        · exact ihl k hk
        · exact ihr k hk
  have hcard : used.length ≤ T.nodes.length := by
    have h1 : used ⊆ List.range T.nodes.length := fun k hk => List.mem_range.2 (hused _ _ _ ht k hk)
    have := (List.subperm_of_subset hnd h1).length_le
    simpa using this
  have key : ∀ (c : Int) (t : FTree α) (u : List Nat), TextHolds a c t u → t.Features x.length → t.Clear P z x →
      ∀ it, it + u.length ≤ T.nodes.length → 0 ≤ c →
      Returns (T.pStep P x) (c, it) (.ok (P.ensure (t.eval z x))) := by
    intro c t u h
    induction h with
    | leaf k v hv => intro _ _ _ _ h; omega
    | node i cl cr d f thr l r ul ur hi h1 h2 h3 h4 h5 h6 hl hr ihl ihr =>
      intro hf hc it hit _
      obtain ⟨hf1, hf2, hf3⟩ := hf
      obtain ⟨hc1, hc2, hc3, hc4, hc5⟩ := hc
      simp only [List.length_cons, List.length_append] at hit
      have hn := hnode i cl cr f thr h1 h2 h4 h5
      set n : Node α := textNode cl cr f thr ((a.decisionType[i]?.getD 0) / 2 % 2 == 1) with hndef
      have hlf : n.isLeaf = false := by
        by_contra hb
        simp only [Bool.not_eq_false, Node.isLeaf, hndef, textNode, Bool.and_eq_true, beq_iff_eq] at hb
        exact hdist i ⟨by rw [h1, hb.1], by rw [h2, hb.2]⟩
      have hfx : x[f]? = some (x.getD f 0) := by
        simp [List.getElem?_eq_getElem hf1, hf1]
      have hstep : T.pStep P x ((i : Int), it) =
          (if (if decide (x.getD f 0 ≤ thr) then cl else cr) < 0 then
            .ok (.stop (match T.leafValues[(-(if decide (x.getD f 0 ≤ thr) then cl else cr) - 1).toNat]? with
              | some w => P.ensure w
              | none => 0))
           else .ok (.go ((if decide (x.getD f 0 ≤ thr) then cl else cr), it + 1))) := by
        unfold Tree.pStep
        simp only [hn]
        rw [if_neg (by omega), if_neg (by simp [hlf])]
        have hfe : n.feature = (f : Int) := rfl
        rw [hfe, if_neg (by omega), Int.toNat_natCast, hfx]
        simp only [hc1, Bool.false_eq_true, if_false]
        have hk : n.kind = .numerical := rfl
        have hth : n.threshold = thr := rfl
        rw [hk, hth, hc3]
        rfl
      have hev : (FTree.node f thr (Missing.ofBits (d / 4 % 4)) (d / 2 % 2 == 1) l r).eval z x =
          if decide (x.getD f 0 ≤ thr) then l.eval z x else r.eval z x := by
        simp only [FTree.eval]
        rw [goesLeft_clear z _ _ thr _ hc1 hc2]
      rw [hev]
      by_cases hle : decide (x.getD f 0 ≤ thr) = true
      · rw [if_pos hle]
        simp only [if_pos hle] at hstep
        rcases holds_ref hl with ⟨hneg, -, w, hw, hwv⟩ | ⟨q, hq, -⟩
        · rw [if_pos hneg, hlv] at hstep
          have : (-cl - 1).toNat = leafRef cl := rfl
          rw [this, hwv] at hstep
          rw [hw]
          exact returns_stop hstep
        · rw [if_neg (by omega)] at hstep
          exact returns_go hstep (ihl hf2 hc4 (it + 1) (by omega) (by omega))
      · rw [if_neg hle]
        simp only [if_neg hle] at hstep
        rcases holds_ref hr with ⟨hneg, -, w, hw, hwv⟩ | ⟨q, hq, -⟩
        · rw [if_pos hneg, hlv] at hstep
          have : (-cr - 1).toNat = leafRef cr := rfl
          rw [this, hwv] at hstep
          rw [hw]
          exact returns_stop hstep
        · rw [if_neg (by omega)] at hstep
          exact returns_go hstep (ihr hf3 hc5 (it + 1) (by omega) (by omega))
  exact pPredict_returns _ _ _ _ (key _ t used ht hx hcl 0 (by omega) (by omega))

end

theorem exArrays_sized : exArrays.Sized := ⟨rfl, rfl, rfl, rfl, rfl⟩

theorem exArrays_holds : TextHolds exArrays (0 : Nat) exFTree [0, 1, 2] :=
  .node 0 1 2 2 0 0 _ _ [1] [2] (by decide) rfl rfl rfl rfl rfl rfl
    (.node 1 (-1) (-3) 10 1 5 _ _ [] [] (by decide) rfl rfl rfl rfl rfl rfl (.leaf 0 10 rfl) (.leaf 2 30 rfl))
    (.node 2 (-2) (-4) 4 1 7 _ _ [] [] (by decide) rfl rfl rfl rfl rfl rfl (.leaf 1 20 rfl) (.leaf 3 40 rfl))

/-- on the same file `Predictor` gives the right value and `Model.Predict` gives 0 -/
example : exFTree.eval (1 / 1000) [1, 8] = 40 ∧
    (∃ T, exArrays.load (1 / 10) 0 = .ok T ∧ T.predict Rat.floor [1, 8] = .ok 0) := by
  refine ⟨by decide +kernel, ?_⟩
  obtain ⟨T, h, hp⟩ := text_model_predicts_zero Rat.floor exArrays exArrays_sized exFTree _ exArrays_holds (1 / 10) 0
  exact ⟨T, h, hp _ (by simp [exFTree, FTree.Features])⟩

example : ∃ T, exArrays.load (1 / 10) 0 = .ok T ∧ T.pPredict ratNum.toPNum [1, 8] = .ok 40 := by
  obtain ⟨T, h, hp⟩ := text_predictor_partial ratNum.toPNum (1 / 1000) exArrays exArrays_sized exFTree _ exArrays_holds
    (by decide) (by
      intro i
      match i with
      | 0 => decide
      | 1 => decide
      | 2 => decide
      | i + 3 => simp [exArrays]) (1 / 10) 0
  refine ⟨T, h, ?_⟩
  rw [hp [1, 8] (by simp [exFTree, FTree.Features]) ?_]
  · decide +kernel
  · simp only [exFTree, FTree.Clear]
    decide +kernel

end Scigo.LGB
