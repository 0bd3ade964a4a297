import Verif.Trainer.Grow
import Verif.LGB.TreeProps
import Mathlib.Data.List.Perm.Basic
import Mathlib.Data.List.GetD

/-!
# Lemmas about growing a tree: the node array stores the tree of index sets
-/

set_option linter.unusedSectionVars false

namespace Scigo.Trainer

open Scigo.LGB (Node Tree NodeKind DTree Stores Asks Test)

variable {α : Type}

/-- a tree of index sets -/
inductive GTree (α : Type)
  | leaf (I : List Nat)
  | node (I : List Nat) (s : Hist.Split α) (l r : GTree α)

/-- number of nodes -/
def GTree.size : GTree α → Nat
  | .leaf _ => 1
  | .node _ _ l r => l.size + r.size + 1

/-- the rows of the leaves from left to right -/
def GTree.leaves : GTree α → List (List Nat)
  | .leaf I => [I]
  | .node _ _ l r => l.leaves ++ r.leaves

/-- longest path to a leaf -/
def GTree.depth : GTree α → Nat
  | .leaf _ => 0
  | .node _ _ l r => max l.depth r.depth + 1

section
variable [BEq α] [LT α] [DecidableLT α] [LE α] [DecidableLE α] [Zero α]

/-- `buildNode` without the array -/
def Grower.growT (G : Grower α) : Nat → Nat → List Nat → Nat → Option (GTree α)
  | 0, _, _, _ => none
  | fuel + 1, c, I, depth =>
    if G.stops c I depth then some (.leaf I)
    else if G.refuses (G.find I) then some (.leaf I)
    else
      match G.growT fuel c (G.leftOf I (G.find I)) (depth + 1) with
      | none => none
      | some l =>
        match G.growT fuel (c + l.leaves.length) (G.rightOf I (G.find I)) (depth + 1) with
        | none => none
        | some r => some (.node I (G.find I) l r)

/-- the node array of the tree, from a first index on -/
def GTree.layout (G : Grower α) : Nat → GTree α → List (Node α)
  | _, .leaf I => [leafNode (G.leaf I)]
  | base, .node I s l r =>
    { G.splitNode I s with left := base + 1, right := base + 1 + l.size } :: (l.layout G (base + 1) ++ r.layout G (base + 1 + l.size))

theorem layout_length (G : Grower α) (T : GTree α) (base : Nat) : (T.layout G base).length = T.size := by
  induction T generalizing base with
  | leaf => rfl
  | node I s l r ihl ihr => simp [GTree.layout, GTree.size, ihl, ihr]

theorem count_layout (G : Grower α) (T : GTree α) (base : Nat) : countLeavesInTree (T.layout G base) = T.leaves.length := by
  induction T generalizing base with
  | leaf => rfl
  | node I s l r ihl ihr =>
    have e : countLeavesInTree (GTree.layout G base (.node I s l r)) =
        countLeavesInTree (l.layout G (base + 1)) + countLeavesInTree (r.layout G (base + 1 + l.size)) := by
      unfold countLeavesInTree
      rw [GTree.layout, List.countP_cons, List.countP_append, if_neg]
      · rfl
      · have : ((base : Int) + 1 == -1) = false := by simp; omega
        simp only [this, Bool.false_and, Bool.or_false, decide_eq_true_eq, Grower.splitNode]
        split <;> simp
    rw [e, ihl, ihr, GTree.leaves, List.length_append]

theorem count_leaf_layout (G : Grower α) (T : GTree α) (base : Nat) : countLeaves (T.layout G base) = T.leaves.length := by
  induction T generalizing base with
  | leaf => rfl
  | node I s l r ihl ihr =>
    have e : countLeaves (GTree.layout G base (.node I s l r)) =
        countLeaves (l.layout G (base + 1)) + countLeaves (r.layout G (base + 1 + l.size)) := by
      unfold countLeaves
      rw [GTree.layout, List.countP_cons, List.countP_append, if_neg]
      · rfl
      · simp only [decide_eq_true_eq, Grower.splitNode]
        split <;> simp
    rw [e, ihl, ihr, GTree.leaves, List.length_append]

theorem countLeavesInTree_append (a b : List (Node α)) : countLeavesInTree (a ++ b) = countLeavesInTree a + countLeavesInTree b :=
  List.countP_append

theorem count_splitNode (G : Grower α) (I : List Nat) (s : Hist.Split α) : countLeavesInTree [G.splitNode I s] = 0 := by
  unfold countLeavesInTree
  rw [List.countP_cons, if_neg]
  · rfl
  · simp only [Grower.splitNode, Bool.or_eq_true, decide_eq_true_eq, not_or]
    refine ⟨by split <;> simp, by simp⟩

theorem modify_at {β : Type _} (ns : List β) (a : β) (l : List β) (f : β → β) :
    (ns ++ a :: l).modify ns.length f = ns ++ f a :: l := by
  induction ns with
  | nil => rfl
  | cons b ns ih => simp [ih]

theorem buildNode_eq (G : Grower α) (fuel : Nat) (nodes : List (Node α)) (I : List Nat) (depth : Nat) :
    G.buildNode fuel nodes I depth =
      (G.growT fuel (countLeavesInTree nodes) I depth).map fun T => (nodes ++ T.layout G nodes.length, nodes.length) := by
  induction fuel generalizing nodes I depth with
  | zero => rfl
  | succ fuel ih =>
    rw [Grower.buildNode, Grower.growT]
    split_ifs
    · rfl
    · rfl
    · rw [ih, countLeavesInTree_append, count_splitNode, Nat.add_zero]
      cases hl : G.growT fuel (countLeavesInTree nodes) (G.leftOf I (G.find I)) (depth + 1) with
      | none => rfl
      | some l =>
        simp only [Option.map_some]
        rw [ih]
        have hc : countLeavesInTree ((nodes ++ [G.splitNode I (G.find I)]) ++ l.layout G (nodes ++ [G.splitNode I (G.find I)]).length) =
            countLeavesInTree nodes + l.leaves.length := by
          rw [countLeavesInTree_append, countLeavesInTree_append, count_splitNode, count_layout, Nat.add_zero]
        rw [hc]
        cases hr : G.growT fuel (countLeavesInTree nodes + l.leaves.length) (G.rightOf I (G.find I)) (depth + 1) with
        | none => rfl
        | some r =>
          simp only [Option.map_some, List.length_append, List.length_singleton, layout_length, List.append_assoc]
          refine congrArg some (Prod.ext ?_ rfl)
          simp only
          rw [List.singleton_append, modify_at]
          simp only [GTree.layout]
          push_cast
          rw [← Nat.add_assoc, ← Int.add_assoc]

theorem growT_mono (G : Grower α) {fuel fuel' c : Nat} {I : List Nat} {depth : Nat} {T : GTree α} (hf : fuel ≤ fuel')
    (h : G.growT fuel c I depth = some T) : G.growT fuel' c I depth = some T := by
  induction fuel generalizing fuel' c I depth T with
  | zero => cases h
  | succ fuel ih =>
    obtain ⟨fuel', rfl⟩ : ∃ n, fuel' = n + 1 := ⟨fuel' - 1, by omega⟩
    rw [Grower.growT] at h ⊢
    split_ifs at h ⊢ with h1 h2
    · exact h
    · exact h
    · split at h
      · cases h
      · next l hl =>
        rw [ih (by omega) hl]
        split at h
        · cases h
        · next r hr =>
          rw [ih (by omega) hr]
          exact h

theorem buildTree_eq (G : Grower α) (lr : α) (fuel : Nat) (I : List Nat) :
    G.buildTree lr fuel I = (G.growT fuel 0 I 0).map fun T => ⟨T.layout G 0, [], (T.leaves.length : Nat), lr, 0⟩ := by
  unfold Grower.buildTree
  rw [buildNode_eq]
  have h0 : countLeavesInTree ([] : List (Node α)) = 0 := rfl
  rw [h0]
  cases G.growT fuel 0 I 0 with
  | none => rfl
  | some T => simp [count_leaf_layout]

/-- the decision tree the index tree stands for -/
def GTree.toD (G : Grower α) : GTree α → DTree α
  | .leaf I => .leaf (G.leaf I)
  | .node I s l r => .node ⟨s.feature.toNat, if G.isCat s.feature then .mem (G.categories I s) else .le s.threshold, false⟩ (l.toD G) (r.toD G)

/-- every split of the tree asks about one of the first `k` features -/
def GTree.FeaturesBelow (k : Nat) : GTree α → Prop
  | .leaf _ => True
  | .node _ s l r => 0 ≤ s.feature ∧ s.feature < k ∧ l.FeaturesBelow k ∧ r.FeaturesBelow k

theorem layout_stores (G : Grower α) {k : Nat} (T : GTree α) (hT : T.FeaturesBelow k) (pre post : List (Node α)) (t : Tree α)
    (ht : t.nodes = pre ++ T.layout G pre.length ++ post) : Stores t pre.length (T.toD G) := by
  induction T generalizing pre post with
  | leaf I =>
    have hn : t.nodeAt pre.length = some (leafNode (G.leaf I)) := by
      rw [LGB.nodeAt_nat, ht]
      simp [GTree.layout]
    exact Stores.leaf _ _ hn rfl
  | node I s l r ihl ihr =>
    obtain ⟨f0, f1, fl, fr⟩ := hT
    have hn : t.nodeAt pre.length = some { G.splitNode I s with left := (pre.length : Int) + 1, right := (pre.length : Int) + 1 + l.size } := by
      rw [LGB.nodeAt_nat, ht]
      simp [GTree.layout]
    refine Stores.split _ _ _ _ _ hn ?_ ?_ ?_ ?_
    · have : ((pre.length : Int) + 1 == -1) = false := by simp; omega
      simp [Node.isLeaf, this]
    · have hf : s.feature = (s.feature.toNat : Int) := by omega
      by_cases hc : G.isCat s.feature = true
      · have h := Asks.cat { G.splitNode I s with left := (pre.length : Int) + 1, right := (pre.length : Int) + 1 + l.size } s.feature.toNat
          (by simp [Grower.splitNode, hc]) hf
        simpa [hc, Grower.splitNode] using h
      · have h := Asks.num { G.splitNode I s with left := (pre.length : Int) + 1, right := (pre.length : Int) + 1 + l.size } s.feature.toNat
          (by simp [Grower.splitNode, hc]) hf
        simpa [hc, Grower.splitNode] using h
    · have := ihl fl (pre ++ [{ G.splitNode I s with left := (pre.length : Int) + 1, right := (pre.length : Int) + 1 + l.size }])
        (r.layout G (pre.length + 1 + l.size) ++ post) (by
          rw [ht]
          simp [GTree.layout])
      simpa using this
    · have := ihr fr (pre ++ [{ G.splitNode I s with left := (pre.length : Int) + 1, right := (pre.length : Int) + 1 + l.size }] ++
          l.layout G (pre.length + 1)) post (by
          rw [ht]
          simp [GTree.layout, layout_length]
          rw [Nat.add_assoc, Nat.add_comm 1])
      have e : (((pre ++ [{ G.splitNode I s with left := (pre.length : Int) + 1, right := (pre.length : Int) + 1 + l.size }] ++
          l.layout G (pre.length + 1)).length : Nat) : Int) = (pre.length : Int) + 1 + l.size := by
        simp [layout_length]; omega
      rw [e] at this
      exact this

theorem toD_features (G : Grower α) {k : Nat} (T : GTree α) (hT : T.FeaturesBelow k) : (T.toD G).Features k := by
  induction T with
  | leaf => trivial
  | node I s l r ihl ihr => exact ⟨by have := hT.1; have := hT.2.1; simp only; omega, ihl hT.2.2.1, ihr hT.2.2.2⟩

theorem toD_values (G : Grower α) (T : GTree α) : (T.toD G).paths.map (·.2) = T.leaves.map G.leaf := by
  induction T with
  | leaf => rfl
  | node I s l r ihl ihr =>
    simp only [GTree.toD, DTree.paths, GTree.leaves, List.map_append, List.map_map, Function.comp_def] at *
    rw [ihl, ihr]

/-- what a grown tree looks like, node by node -/
inductive Grown (G : Grower α) : Nat → List Nat → Nat → GTree α → Prop
  | leaf (c : Nat) (I : List Nat) (depth : Nat) : G.stops c I depth = true ∨ G.refuses (G.find I) = true → Grown G c I depth (.leaf I)
  | node (c : Nat) (I : List Nat) (depth : Nat) (l r : GTree α) : G.stops c I depth = false → G.refuses (G.find I) = false →
      Grown G c (G.leftOf I (G.find I)) (depth + 1) l → Grown G (c + l.leaves.length) (G.rightOf I (G.find I)) (depth + 1) r →
      Grown G c I depth (.node I (G.find I) l r)

theorem growT_grown (G : Grower α) {fuel c : Nat} {I : List Nat} {depth : Nat} {T : GTree α} (h : G.growT fuel c I depth = some T) :
    Grown G c I depth T := by
  induction fuel generalizing c I depth T with
  | zero => cases h
  | succ fuel ih =>
    rw [Grower.growT] at h
    split_ifs at h with h1 h2
    · cases h; exact .leaf _ _ _ (Or.inl h1)
    · cases h; exact .leaf _ _ _ (Or.inr h2)
    · split at h
      · cases h
      · next l hl =>
        split at h
        · cases h
        · next r hr =>
          cases h
          exact .node _ _ _ _ _ (by simpa using h1) (by simpa using h2) (ih hl) (ih hr)

theorem leftOf_rightOf_perm (G : Grower α) (I : List Nat) (s : Hist.Split α) : (G.leftOf I s ++ G.rightOf I s).Perm I := by
  unfold Grower.leftOf Grower.rightOf
  exact List.filter_append_perm _ _

theorem grown_perm (G : Grower α) {c : Nat} {I : List Nat} {depth : Nat} {T : GTree α} (h : Grown G c I depth T) :
    T.leaves.flatten.Perm I := by
  induction h with
  | leaf => simp [GTree.leaves]
  | node c I depth l r _ _ _ _ ihl ihr =>
    rw [GTree.leaves, List.flatten_append]
    exact (ihl.append ihr).trans (leftOf_rightOf_perm G I _)

theorem grown_sublist (G : Grower α) {c : Nat} {I : List Nat} {depth : Nat} {T : GTree α} (h : Grown G c I depth T) :
    ∀ P ∈ T.leaves, P.Sublist I := by
  induction h with
  | leaf => simp [GTree.leaves]
  | node c I depth l r _ _ _ _ ihl ihr =>
    intro P hP
    rw [GTree.leaves, List.mem_append] at hP
    rcases hP with hP | hP
    · exact (ihl P hP).trans List.filter_sublist
    · exact (ihr P hP).trans List.filter_sublist

theorem grown_features (G : Grower α) {k : Nat} (hfeat : ∀ I, (G.find I).feature = -1 ∨ 0 ≤ (G.find I).feature ∧ (G.find I).feature < k)
    {c : Nat} {I : List Nat} {depth : Nat} {T : GTree α} (h : Grown G c I depth T) : T.FeaturesBelow k := by
  induction h with
  | leaf => trivial
  | node c I depth l r _ hr _ _ ihl ihr =>
    have : (G.find I).feature ≠ -1 := by
      intro he
      simp [Grower.refuses, he] at hr
    rcases hfeat I with h | h
    · exact absurd h this
    · exact ⟨h.1, h.2, ihl, ihr⟩

/-- row `i` of the training matrix -/
def Grower.row (G : Grower α) (k i : Nat) : List α := (List.range k).map (G.x i)

theorem row_getD (G : Grower α) {k i j : Nat} (hj : j < k) : (G.row k i).getD j 0 = G.x i j := by
  unfold Grower.row
  rw [List.getD_eq_getElem _ _ (by simpa using hj)]
  simp

/-- the tree sends a training row where `buildNode` put it -/
theorem left_eq (G : Grower α) (hnan : ∀ v thr : α, (v == v) = false → ¬ v ≤ thr) {k : Nat} (I : List Nat) (s : Hist.Split α)
    (h0 : 0 ≤ s.feature) (h1 : s.feature < k) (i : Nat) (hi : ∀ f ∈ G.categorical, (G.x i f.toNat == G.x i f.toNat) = true) :
    LGB.Split.left G.toInt ⟨s.feature.toNat, if G.isCat s.feature then .mem (G.categories I s) else .le s.threshold, false⟩ (G.row k i) =
      G.goesLeft I s i := by
  unfold LGB.Split.left Grower.goesLeft
  simp only
  rw [row_getD G (by omega)]
  by_cases hc : G.isCat s.feature = true
  · have := hi s.feature (by simpa [Grower.isCat] using hc)
    simp [hc, this]
  · simp only [hc, if_false, Bool.false_eq_true]
    by_cases hn : (G.x i s.feature.toNat == G.x i s.feature.toNat) = true
    · simp [hn]
    · simp only [Bool.not_eq_true] at hn
      simp [hn, hnan _ s.threshold hn]

theorem leafNo_lt (toInt : α → Int) (d : DTree α) (x : List α) : d.leafNo toInt x < d.paths.length := by
  induction d with
  | leaf => simp [DTree.leafNo, DTree.paths]
  | node s l r ihl ihr =>
    simp only [DTree.leafNo, DTree.paths, List.length_append, List.length_map]
    split_ifs <;> omega

theorem grown_leafNo (G : Grower α) (hnan : ∀ v thr : α, (v == v) = false → ¬ v ≤ thr) {k : Nat} {c : Nat} {I : List Nat} {depth : Nat}
    {T : GTree α} (h : Grown G c I depth T) (hk : T.FeaturesBelow k) (i : Nat) (hi : i ∈ I)
    (hc : ∀ f ∈ G.categorical, (G.x i f.toNat == G.x i f.toNat) = true) :
    ∃ P, T.leaves[(T.toD G).leafNo G.toInt (G.row k i)]? = some P ∧ i ∈ P := by
  induction h with
  | leaf c I depth => exact ⟨I, rfl, hi⟩
  | node c I depth l r _ _ _ _ ihl ihr =>
    obtain ⟨h0, h1, hl, hr⟩ := hk
    have hlen : ∀ T : GTree α, (T.toD G).paths.length = T.leaves.length := by
      intro T
      have := congrArg List.length (toD_values G T)
      simpa using this
    simp only [GTree.toD, DTree.leafNo, GTree.leaves]
    rw [left_eq G hnan I (G.find I) h0 h1 i hc]
    by_cases hg : G.goesLeft I (G.find I) i = true
    · rw [if_pos hg]
      obtain ⟨P, hP, hiP⟩ := ihl hl (by unfold Grower.leftOf; simp [hi, hg])
      exact ⟨P, by rw [List.getElem?_append_left (by rw [← hlen]; exact leafNo_lt _ _ _)]; exact hP, hiP⟩
    · rw [if_neg hg]
      obtain ⟨P, hP, hiP⟩ := ihr hr (by unfold Grower.rightOf; simp [hi, hg])
      refine ⟨P, ?_, hiP⟩
      rw [List.getElem?_append_right (by rw [hlen]; omega), hlen, Nat.add_sub_cancel_left]
      exact hP

theorem eval_leafNo (toInt : α → Int) (d : DTree α) (x : List α) :
    (d.paths.map (·.2))[d.leafNo toInt x]? = some (d.eval toInt x) := by
  obtain ⟨p, -, -, hv, hp, -⟩ := LGB.paths_unique toInt x d
  rw [List.getElem?_map, hp, Option.map_some, hv]

theorem grown_depth (G : Grower α) (hd : 0 < G.lim.maxDepth) {c : Nat} {I : List Nat} {depth : Nat} {T : GTree α}
    (h : Grown G c I depth T) (hle : (depth : Int) ≤ G.lim.maxDepth) : (depth + T.depth : Int) ≤ G.lim.maxDepth := by
  induction h with
  | leaf => simpa [GTree.depth] using hle
  | node c I depth l r hs _ _ _ ihl ihr =>
    have hlt : (depth : Int) < G.lim.maxDepth := by
      by_contra hcon
      simp only [Grower.stops, Bool.or_eq_false_iff, Bool.and_eq_false_iff, decide_eq_false_iff_not] at hs
      rcases hs.1.1 with h | h <;> omega
    have h1 := ihl (by push_cast; omega)
    have h2 := ihr (by push_cast; omega)
    simp only [GTree.depth]
    push_cast at *
    omega

theorem grown_leaves (G : Grower α) (hn : 0 < G.lim.numLeaves) {c : Nat} {I : List Nat} {depth : Nat} {T : GTree α}
    (h : Grown G c I depth T) : ((c + T.leaves.length : Nat) : Int) ≤ max (c + 1 : Int) (G.lim.numLeaves - 1 + T.depth) := by
  induction h with
  | leaf => simp [GTree.leaves]
  | node c I depth l r hs _ _ _ ihl ihr =>
    have hlt : (c : Int) < G.lim.numLeaves - 1 := by
      by_contra hcon
      simp only [Grower.stops, Bool.or_eq_false_iff, Bool.and_eq_false_iff, decide_eq_false_iff_not] at hs
      rcases hs.2 with h | h <;> omega
    simp only [GTree.leaves, List.length_append, GTree.depth] at *
    push_cast at *
    omega

theorem growT_of_progress (G : Grower α) (m : List Nat → Nat → Nat)
    (hprog : ∀ I depth c, G.stops c I depth = false → G.refuses (G.find I) = false →
      m (G.leftOf I (G.find I)) (depth + 1) < m I depth ∧ m (G.rightOf I (G.find I)) (depth + 1) < m I depth)
    (fuel c : Nat) (I : List Nat) (depth : Nat) (hf : m I depth < fuel) : ∃ T, G.growT fuel c I depth = some T := by
  induction fuel generalizing c I depth with
  | zero => omega
  | succ fuel ih =>
    rw [Grower.growT]
    by_cases h1 : G.stops c I depth = true
    · exact ⟨_, by rw [if_pos h1]⟩
    · by_cases h2 : G.refuses (G.find I) = true
      · exact ⟨_, by rw [if_neg h1, if_pos h2]⟩
      · obtain ⟨p1, p2⟩ := hprog I depth c (by simpa using h1) (by simpa using h2)
        obtain ⟨l, hl⟩ := ih c (G.leftOf I (G.find I)) (depth + 1) (by omega)
        obtain ⟨r, hr⟩ := ih (c + l.leaves.length) (G.rightOf I (G.find I)) (depth + 1) (by omega)
        exact ⟨.node I (G.find I) l r, by rw [if_neg h1, if_neg h2, hl]; simp only; rw [hr]⟩

end

end Scigo.Trainer
