import Verif.Trainer.GrowProps

/-!
# C336: when a node becomes a leaf, and the minimum of rows with GOSS
-/

set_option linter.unusedSectionVars false

namespace Scigo.Trainer

open Scigo.LGB (Node NodeKind)

variable {α : Type}

/-! ## Specification -/

/-- the number of rows a node must have to be split: `MinDataInLeaf`; with GOSS its part for the share of rows sampled, but at least one (cf. sklearn/lightgbm/trainer.go:1029-1039) -/
def requiredRows [LT α] [DecidableLT α] [Zero α] [Add α] (scale : Int → α → Int) (lim : Limits α) : Int :=
  match lim.goss with
  | none => lim.minData
  | some (top, other) => if 0 < top ∧ 0 < other then max 1 (scale lim.minData (top + other)) else lim.minData

/-- no limit allows the node to be split, or no split is good enough (cf. sklearn/lightgbm/trainer.go:1047-1077) -/
def MustStop [LT α] [DecidableLT α] [Zero α] [Add α] (scale : Int → α → Int) (lim : Limits α) (leaves rows depth : Nat) (best : Hist.Split α) : Prop :=
  (0 < lim.maxDepth ∧ lim.maxDepth ≤ depth) ∨ (rows : Int) < requiredRows scale lim ∨ (0 < lim.numLeaves ∧ lim.numLeaves - 1 ≤ leaves) ∨
    best.feature = -1 ∨ best.gain < lim.minGain

section
variable [DecidableEq α] [LT α] [DecidableLT α] [LE α] [DecidableLE α] [Zero α] [One α] [Add α] [Sub α] [Neg α] [Mul α] [Div α]

theorem adjusted_eq (scale : Int → α → Int) (lim : Limits α) : lim.adjusted scale = requiredRows scale lim := by
  unfold Limits.adjusted requiredRows
  split
  · simp_all
  · rename_i e
    simp only [e]
    split
    · split <;> omega
    · rfl

/-! ## Theorems -/

/-- **C336.** A node becomes a leaf exactly if a limit is reached or the best split is not good enough. -/
theorem leaf_exactly (lib : Lib α) (hb : Hist.Builder α) (lim : Limits α) (categorical : List Int) (D : Data α) (fuel : Nat) (nodes nodes' : List (Node α)) (rows : List Nat) (depth k : Nat)
    (h : (grower lib hb lim categorical D).buildNode fuel nodes rows depth = some (nodes', k)) :
    k = nodes.length ∧ ∃ n, nodes'[k]? = some n ∧
      (n.kind = .leaf ↔ MustStop lib.scale lim (countLeavesInTree nodes) rows.length depth (findBestSplit lib hb categorical lim.minData lim.minGain D rows)) := by
  have hstop : ∀ c, (grower lib hb lim categorical D).stops c rows depth = true ↔
      (0 < lim.maxDepth ∧ lim.maxDepth ≤ depth) ∨ (rows.length : Int) < requiredRows lib.scale lim ∨ (0 < lim.numLeaves ∧ lim.numLeaves - 1 ≤ c) := by
    intro c
    unfold Grower.stops
    simp only [grower, adjusted_eq, Bool.or_eq_true, Bool.and_eq_true, decide_eq_true_eq]
    tauto
  have href : (grower lib hb lim categorical D).refuses ((grower lib hb lim categorical D).find rows) = true ↔
      (findBestSplit lib hb categorical lim.minData lim.minGain D rows).feature = -1 ∨ (findBestSplit lib hb categorical lim.minData lim.minGain D rows).gain < lim.minGain := by
    unfold Grower.refuses
    rw [Bool.or_eq_true]
    exact or_congr decide_eq_true_iff decide_eq_true_iff
  rw [buildNode_eq] at h
  cases hT : (grower lib hb lim categorical D).growT fuel (countLeavesInTree nodes) rows depth with
  | none => rw [hT] at h; cases h
  | some T =>
    rw [hT] at h
    simp only [Option.map_some, Option.some.injEq, Prod.mk.injEq] at h
    obtain ⟨rfl, rfl⟩ := h
    refine ⟨rfl, ?_⟩
    have hg := growT_grown _ hT
    unfold MustStop
    cases hg with
    | leaf _ _ _ hs =>
      refine ⟨_, by rw [GTree.layout, List.getElem?_append_right (le_refl _), Nat.sub_self]; rfl, ?_⟩
      refine iff_of_true rfl ?_
      rcases hs with hs | hs
      · rcases (hstop _).1 hs with h | h | h <;> tauto
      · rcases href.1 hs with h | h <;> tauto
    | node _ _ _ l r h1 h2 _ _ =>
      refine ⟨_, by rw [GTree.layout, List.getElem?_append_right (le_refl _), Nat.sub_self]; rfl, ?_⟩
      refine iff_of_false ?_ ?_
      · simp only [Grower.splitNode]
        split <;> simp
      · have n1 := mt (hstop (countLeavesInTree nodes)).2 (by simp [h1])
        have n2 := mt href.2 (by simp [h2])
        tauto

/-- **C336.** With GOSS a node without rows becomes a leaf, whatever `MinDataInLeaf` is. -/
theorem empty_node_leaf_goss (lib : Lib α) (hb : Hist.Builder α) (lim : Limits α) (top other : α) (hg : lim.goss = some (top, other)) (ht : 0 < top) (ho : 0 < other) (categorical : List Int)
    (D : Data α) (fuel : Nat) (nodes : List (Node α)) (depth : Nat) :
    (grower lib hb lim categorical D).buildNode (fuel + 1) nodes [] depth = some (nodes ++ [leafNode (calculateLeafValue lib.eps hb.alpha hb.lambda D.g D.h [])], nodes.length) := by
  have hs : (grower lib hb lim categorical D).stops (countLeavesInTree nodes) [] depth = true := by
    unfold Grower.stops
    have hr : (([] : List Nat).length : Int) < (grower lib hb lim categorical D).adjusted := by
      show (0 : Int) < lim.adjusted lib.scale
      rw [adjusted_eq]
      unfold requiredRows
      rw [hg]
      simp only [ht, ho, and_self, if_true]
      omega
    simp only [hr, decide_true, Bool.or_true, Bool.true_or]
  rw [Grower.buildNode, if_pos hs]
  rfl

end

section field
variable [Field α] [LinearOrder α] [IsStrictOrderedRing α]

/-- **C336, what does not hold.** The smaller minimum for GOSS has no effect: with a positive `MinGainToSplit` the same tree is grown as without it, since the split finder still asks for the whole
`MinDataInLeaf` on the left side. -/
theorem goss_minimum_without_effect (lib : Lib α) (ok : LibOk lib) (hb : Hist.Builder α) (lim : Limits α) (hmg : 0 < lim.minGain) (hmin : 1 ≤ lim.minData) (top other : α)
    (hg : lim.goss = some (top, other)) (hsc : lib.scale lim.minData (top + other) ≤ lim.minData) (categorical : List Int) (D : Data α) (lr : α) (fuel : Nat) (rows : List Nat) :
    (grower lib hb lim categorical D).buildTree lr fuel rows = (grower lib hb { lim with goss := none } categorical D).buildTree lr fuel rows := by
  have hle : lim.adjusted lib.scale ≤ lim.minData := by
    rw [adjusted_eq]
    unfold requiredRows
    rw [hg]
    simp only
    split
    · omega
    · exact le_refl _
  have key : ∀ fuel nodes I depth, (grower lib hb lim categorical D).buildNode fuel nodes I depth = (grower lib hb { lim with goss := none } categorical D).buildNode fuel nodes I depth := by
    intro fuel
    induction fuel with
    | zero => intros; rfl
    | succ fuel ih =>
      intro nodes I depth
      rw [Grower.buildNode, Grower.buildNode]
      have hfind : (grower lib hb { lim with goss := none } categorical D).find = (grower lib hb lim categorical D).find := rfl
      have hrefuses : (grower lib hb { lim with goss := none } categorical D).refuses = (grower lib hb lim categorical D).refuses := rfl
      have hleaf : (grower lib hb { lim with goss := none } categorical D).leaf = (grower lib hb lim categorical D).leaf := rfl
      have hleft : (grower lib hb { lim with goss := none } categorical D).leftOf = (grower lib hb lim categorical D).leftOf := rfl
      have hright : (grower lib hb { lim with goss := none } categorical D).rightOf = (grower lib hb lim categorical D).rightOf := rfl
      have hsplit : (grower lib hb { lim with goss := none } categorical D).splitNode = (grower lib hb lim categorical D).splitNode := rfl
      rw [hfind, hrefuses, hleaf, hleft, hright, hsplit]
      by_cases href : (grower lib hb lim categorical D).refuses ((grower lib hb lim categorical D).find I) = true
      · simp only [href, if_true, ite_self]
      · have hr : (grower lib hb lim categorical D).refuses ((grower lib hb lim categorical D).find I) = false := by simpa using href
        obtain ⟨j, _, hl, -⟩ := split_sides lib ok hb lim categorical D hmg I hr
        have hI : lim.minData ≤ I.length := hl.trans (by exact_mod_cast List.length_filter_le _ _)
        have hst : (grower lib hb { lim with goss := none } categorical D).stops (countLeavesInTree nodes) I depth = (grower lib hb lim categorical D).stops (countLeavesInTree nodes) I depth := by
          unfold Grower.stops
          have a1 : (grower lib hb { lim with goss := none } categorical D).adjusted = lim.minData := rfl
          have a2 : (grower lib hb lim categorical D).adjusted = lim.adjusted lib.scale := rfl
          have l1 : (grower lib hb { lim with goss := none } categorical D).lim.maxDepth = lim.maxDepth := rfl
          have l2 : (grower lib hb { lim with goss := none } categorical D).lim.numLeaves = lim.numLeaves := rfl
          have l3 : (grower lib hb lim categorical D).lim = lim := rfl
          rw [a1, a2, l1, l2, l3]
          have b1 : decide ((I.length : Int) < lim.minData) = false := by simpa using hI
          have b2 : decide ((I.length : Int) < lim.adjusted lib.scale) = false := by simpa using hle.trans hI
          rw [b1, b2]
        rw [hst]
        simp only [ih]
  unfold Grower.buildTree
  rw [key]

end field

/-! ## Examples -/

/-- with GOSS (shares 0.2 and 0.1) and `MinDataInLeaf = 10` three rows would be enough, and `MinDataInLeaf = 2` needs one -/
example : requiredRows exLib.scale (⟨-1, 31, 10, 1 / 100, some (1 / 5, 1 / 10)⟩ : Limits Rat) = 3 ∧
    requiredRows exLib.scale (⟨-1, 31, 2, 1 / 100, some (1 / 5, 1 / 10)⟩ : Limits Rat) = 1 ∧ requiredRows exLib.scale (⟨-1, 31, 2, 1 / 100, none⟩ : Limits Rat) = 2 := by
  decide +kernel

/-- four rows with targets that differ, `MinDataInLeaf = 3` and GOSS with shares 0.4 and 0.2: one row would be required and the tree has a single leaf, as without GOSS -/
example : (∀ fuel, (grower exLib ⟨255, 0, 0⟩ ⟨-1, 31, 3, 1 / 100, some (2 / 5, 1 / 5)⟩ [] (exD [1, 2, 3, 4] [0, 1, 5, 30])).buildTree 1 fuel [0, 1, 2, 3] =
      (grower exLib ⟨255, 0, 0⟩ ⟨-1, 31, 3, 1 / 100, none⟩ [] (exD [1, 2, 3, 4] [0, 1, 5, 30])).buildTree 1 fuel [0, 1, 2, 3]) ∧
    requiredRows exLib.scale (⟨-1, 31, 3, 1 / 100, some (2 / 5, 1 / 5)⟩ : Limits Rat) = 1 ∧
    ((grower exLib ⟨255, 0, 0⟩ ⟨-1, 31, 3, 1 / 100, some (2 / 5, 1 / 5)⟩ [] (exD [1, 2, 3, 4] [0, 1, 5, 30])).buildTree 1 5 [0, 1, 2, 3]).map (·.numLeaves) = some 1 ∧
    ((grower exLib ⟨255, 0, 0⟩ ⟨-1, 31, 1, 1 / 100, none⟩ [] (exD [1, 2, 3, 4] [0, 1, 5, 30])).buildTree 1 5 [0, 1, 2, 3]).map (·.numLeaves) = some 4 :=
  ⟨fun fuel => goss_minimum_without_effect exLib exLib_ok _ _ (by decide +kernel) (by decide) _ _ rfl (by decide +kernel) _ _ _ _ _, by decide +kernel, by decide +kernel, by decide +kernel⟩

end Scigo.Trainer
