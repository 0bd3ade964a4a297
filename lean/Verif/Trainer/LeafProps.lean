import Verif.Trainer.GrowProps
import Verif.LGB.BatchProps

/-!
# Leaf numbers of trained trees (C247)
-/

set_option linter.unusedSectionVars false

namespace Scigo.Trainer

open Scigo.LGB (Node DTree Stores Asks Test Leaves leafPositions SameTests PNum)

variable {α : Type}
variable [BEq α] [LT α] [DecidableLT α] [LE α] [DecidableLE α] [Zero α] [One α] [Add α] [Sub α] [Neg α] [Mul α] [Div α]

theorem layout_leaves (G : Grower α) {k : Nat} (T : GTree α) (hT : T.FeaturesBelow k) (pre post : List (Node α)) (t : LGB.Tree α)
    (ht : t.nodes = pre ++ T.layout G pre.length ++ post) :
    Leaves t pre.length (T.toD G) (leafPositions (T.layout G pre.length) pre.length) := by
  induction T generalizing pre post with
  | leaf I =>
    have hn : t.nodeAt pre.length = some (leafNode (G.leaf I)) := by
      rw [LGB.nodeAt_nat, ht]
      simp [GTree.layout]
    exact Leaves.leaf _ _ hn rfl
  | node I s l r ihl ihr =>
    obtain ⟨f0, f1, fl, fr⟩ := hT
    have hn : t.nodeAt pre.length = some { G.splitNode I s with left := (pre.length : Int) + 1, right := (pre.length : Int) + 1 + l.size } := by
      rw [LGB.nodeAt_nat, ht]
      simp [GTree.layout]
    have hleaf : Node.isLeaf { G.splitNode I s with left := (pre.length : Int) + 1, right := (pre.length : Int) + 1 + l.size } = false := by
      have : ((pre.length : Int) + 1 == -1) = false := by simp; omega
      simp [Node.isLeaf, this]
    have hpos : leafPositions (GTree.layout G pre.length (.node I s l r)) pre.length =
        leafPositions (l.layout G (pre.length + 1)) (pre.length + 1) ++
          leafPositions (r.layout G (pre.length + 1 + l.size)) (pre.length + 1 + l.size) := by
      rw [GTree.layout, show ∀ (a : Node α) b, a :: b = [a] ++ b from fun _ _ => rfl, LGB.leafPositions_append, LGB.leafPositions_append]
      have e : leafPositions [{ G.splitNode I s with left := (pre.length : Int) + 1, right := (pre.length : Int) + 1 + l.size }] pre.length = [] := by
        unfold leafPositions
        simp only [List.zipIdx_cons, List.zipIdx_nil, List.filter_cons, List.filter_nil, hleaf]
        rfl
      rw [e, layout_length]
      rfl
    rw [hpos]
    refine Leaves.split _ _ _ _ _ _ _ hn hleaf ?_ ?_ ?_ ?_ ?_
    · have hf : s.feature = (s.feature.toNat : Int) := by omega
      by_cases hc : G.isCat s.feature = true
      · have h := Asks.cat { G.splitNode I s with left := (pre.length : Int) + 1, right := (pre.length : Int) + 1 + l.size } s.feature.toNat
          (by simp [Grower.splitNode, hc]) hf
        simpa [hc, Grower.splitNode] using h
      · have h := Asks.num { G.splitNode I s with left := (pre.length : Int) + 1, right := (pre.length : Int) + 1 + l.size } s.feature.toNat
          (by simp [Grower.splitNode, hc]) hf
        simpa [hc, Grower.splitNode] using h
    · left; simp only; omega
    · left; simp only; omega
    · have := ihl fl (pre ++ [{ G.splitNode I s with left := (pre.length : Int) + 1, right := (pre.length : Int) + 1 + l.size }])
        (r.layout G (pre.length + 1 + l.size) ++ post) (by
          rw [ht]
          simp [GTree.layout])
      simpa using this
    · have := ihr fr (pre ++ [{ G.splitNode I s with left := (pre.length : Int) + 1, right := (pre.length : Int) + 1 + l.size }] ++
          l.layout G (pre.length + 1)) post (by
          rw [ht]
          simp [GTree.layout, layout_length]
          rw [Nat.add_assoc, Nat.add_comm 1])
      have e' : (pre ++ [{ G.splitNode I s with left := (pre.length : Int) + 1, right := (pre.length : Int) + 1 + l.size }] ++
          l.layout G (pre.length + 1)).length = pre.length + 1 + l.size := by
        simp [layout_length]; omega
      rw [e'] at this
      have e : ((pre.length + 1 + l.size : Nat) : Int) = (pre.length : Int) + 1 + l.size := by omega
      rw [e] at this
      exact this

/-- **C247** for every trained tree, whatever the split finder and the arithmetic: the leaves stand in the node array from left to right. Hence
`PredictLeaf` and `PredictLeafIndex` give every sample wide enough the same number, below the number of leaves, unless a value is within the
tolerance above a threshold; and a row the tree was grown from gets the position of the group of rows it was put into. -/
theorem trained_leaf_numbers_partial (G : Grower α) (hnan : ∀ v thr : α, (v == v) = false → ¬ v ≤ thr) (k : Nat)
    (hfeat : ∀ I, (G.find I).feature = -1 ∨ 0 ≤ (G.find I).feature ∧ (G.find I).feature < k) (lr : α) (fuel : Nat) (I : List Nat) (t : LGB.Tree α)
    (ht : G.buildTree lr fuel I = some t) (P : PNum α) :
    ∃ parts : List (List Nat), t.numLeaves = parts.length ∧ parts.flatten.Perm I ∧
      (∀ x : List α, k ≤ x.length → ∃ j < parts.length, t.predictLeaf G.toInt x = .ok j ∧ (SameTests P G.toInt t x → t.leafIndex P x = .ok j)) ∧
      ∀ j Q, parts[j]? = some Q → ∀ i ∈ Q, (∀ f ∈ G.categorical, (G.x i f.toNat == G.x i f.toNat) = true) →
        t.predictLeaf G.toInt ((List.range k).map (G.x i)) = .ok j := by
  rw [buildTree_eq] at ht
  cases hT : G.growT fuel 0 I 0 with
  | none => rw [hT] at ht; cases ht
  | some T =>
    rw [hT] at ht
    simp only [Option.map_some, Option.some.injEq] at ht
    have hg := growT_grown G hT
    have hk := grown_features G hfeat hg
    have hnodes : t.nodes = T.layout G 0 := by rw [← ht]
    have hs : Leaves t 0 (T.toD G) (leafPositions t.nodes 0) := by
      rw [hnodes]
      exact layout_leaves G T hk [] [] t (by rw [hnodes]; simp)
    have hlen : (T.toD G).paths.length = T.leaves.length := by
      have := congrArg List.length (toD_values G T)
      simpa using this
    have hfk : ∀ x : List α, k ≤ x.length → (T.toD G).Features x.length := by
      intro x hx
      have h := toD_features G T hk
      have mono : ∀ d : DTree α, d.Features k → d.Features x.length := by
        intro d
        induction d with
        | leaf => intro _; trivial
        | node s l r ihl ihr => exact fun hd => ⟨by have := hd.1; omega, ihl hd.2.1, ihr hd.2.2⟩
      exact mono _ h
    refine ⟨T.leaves, by rw [← ht], grown_perm G hg, fun x hx => ?_, fun j Q hQ i hi hc => ?_⟩
    · refine ⟨(T.toD G).leafNo G.toInt x, ?_, ?_, fun hsame => ?_⟩
      · rw [← hlen]; exact leafNo_lt _ _ _
      · exact LGB.predictLeaf_leafNo G.toInt t x _ _ hs (LGB.leafPositions_nodup _ _) (hfk x hx)
      · exact (LGB.leaf_numbers_agree_partial P G.toInt t x _ hs (hfk x hx) hsame).2
    · have hj := grown_leafNo_of G hnan hg hk j Q hQ i hi hc
      rw [← hj]
      exact LGB.predictLeaf_leafNo G.toInt t _ _ _ hs (LGB.leafPositions_nodup _ _) (hfk _ (by simp))

/-- a trained tree with four leaves, one row in each -/
example : ∃ t parts, (grower exLib ⟨255, 0, 0⟩ ⟨-1, 31, 1, 1 / 100, none⟩ [] (exD [1, 2, 3, 4] [0, 1, 5, 30])).buildTree 1 5 [0, 1, 2, 3] = some t ∧
    t.numLeaves = (parts : List (List Nat)).length ∧ t.numLeaves = 4 ∧ t.predictLeaf exLib.toInt [3] = .ok 2 ∧
    (∃ j < parts.length, t.predictLeaf exLib.toInt [7] = .ok j) := by
  cases h : (grower exLib ⟨255, 0, 0⟩ ⟨-1, 31, 1, 1 / 100, none⟩ [] (exD [1, 2, 3, 4] [0, 1, 5, 30])).buildTree 1 5 [0, 1, 2, 3] with
  | none => exact absurd h (by decide +kernel)
  | some t =>
    obtain ⟨parts, h1, -, h3, -⟩ := trained_leaf_numbers_partial _ (fun v _ hv => absurd hv (by simp)) 1
      (fun I => findBestSplit_feature exLib exLib_ok.byRatio _ _ _ _ _ I) 1 5 [0, 1, 2, 3] t h LGB.ratNum.toPNum
    have e : ((grower exLib ⟨255, 0, 0⟩ ⟨-1, 31, 1, 1 / 100, none⟩ [] (exD [1, 2, 3, 4] [0, 1, 5, 30])).buildTree 1 5 [0, 1, 2, 3]).map
        (fun t => (t.numLeaves, t.predictLeaf exLib.toInt [3])) = some (4, .ok 2) := by decide +kernel
    rw [h] at e
    simp only [Option.map_some, Option.some.injEq, Prod.mk.injEq] at e
    obtain ⟨j, hj, hp, -⟩ := h3 [7] (by simp)
    exact ⟨t, parts, rfl, h1, e.1, e.2, j, hj, hp⟩

end Scigo.Trainer
