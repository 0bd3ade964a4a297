import Verif.Trainer.FinderLemmas
import Mathlib.Tactic.Linarith

/-!
# Trees respect their limits, and training rows reach the leaf computed from them (C54, C121)

The specification is the decision tree stored in the array (`Stores`, `DTree.leafNo`, `DTree.paths` of `LGB/Spec.lean`).
-/

set_option linter.unusedSectionVars false

namespace Scigo.LGB

/-- number of questions on the longest path -/
def DTree.depth {α : Type _} : DTree α → Nat
  | .leaf _ => 0
  | .node _ l r => max l.depth r.depth + 1

end Scigo.LGB

namespace Scigo.Trainer

open Scigo.LGB (Node NodeKind DTree Stores)

variable {α : Type}

section
variable [BEq α] [LT α] [DecidableLT α] [LE α] [DecidableLE α] [Zero α]

theorem toD_depth (G : Grower α) (T : GTree α) : (T.toD G).depth = T.depth := by
  induction T with
  | leaf => rfl
  | node I s l r ihl ihr => simp [GTree.toD, DTree.depth, GTree.depth, ihl, ihr]

/-- rows put into leaf `j` are sent to leaf `j` -/
theorem grown_leafNo_of (G : Grower α) (hnan : ∀ v thr : α, (v == v) = false → ¬ v ≤ thr) {k : Nat} {c : Nat} {I : List Nat} {depth : Nat}
    {T : GTree α} (h : Grown G c I depth T) (hk : T.FeaturesBelow k) (j : Nat) (P : List Nat) (hP : T.leaves[j]? = some P) (i : Nat) (hi : i ∈ P)
    (hc : ∀ f ∈ G.categorical, (G.x i f.toNat == G.x i f.toNat) = true) :
    (T.toD G).leafNo G.toInt (G.row k i) = j := by
  induction h generalizing j with
  | leaf c I depth =>
    simp only [GTree.leaves] at hP
    match j with
    | 0 => rfl
    | j + 1 => simp at hP
  | node c I depth l r _ _ gl gr ihl ihr =>
    obtain ⟨h0, h1, hl, hr⟩ := hk
    have hlen : (l.toD G).paths.length = l.leaves.length := by simpa using congrArg List.length (toD_values G l)
    simp only [GTree.toD, DTree.leafNo]
    rw [left_eq G hnan I (G.find I) h0 h1 i hc]
    rw [GTree.leaves] at hP
    by_cases hj : j < l.leaves.length
    · rw [List.getElem?_append_left hj] at hP
      have hm := (grown_sublist G gl P (List.mem_of_getElem? hP)).subset hi
      have hg : G.goesLeft I (G.find I) i = true := by simpa using (List.mem_filter.1 hm).2
      rw [if_pos hg]
      exact ihl hl j hP
    · rw [List.getElem?_append_right (by omega)] at hP
      have hm := (grown_sublist G gr P (List.mem_of_getElem? hP)).subset hi
      have hg : G.goesLeft I (G.find I) i = false := by simpa using (List.mem_filter.1 hm).2
      rw [if_neg (by simp [hg]), ihr hr _ hP, hlen]
      omega

/-- the limit on the recursion does not matter once the tree is finished -/
theorem build_stable (G : Grower α) (lr : α) {fuel fuel' : Nat} (I : List Nat) {t : LGB.Tree α} (hf : fuel ≤ fuel')
    (h : G.buildTree lr fuel I = some t) : G.buildTree lr fuel' I = some t := by
  rw [buildTree_eq] at h ⊢
  cases hT : G.growT fuel 0 I 0 with
  | none => rw [hT] at h; cases h
  | some T =>
    rw [growT_mono G hf hT, ← h, hT]

/-- **C121** for every split finder and every arithmetic. A finished tree divides the rows it was grown from into its leaves; on a row
of leaf `j` it ends in leaf `j` and predicts the value computed from the rows of this leaf. The only rows excepted are those with a
missing value in a categorical feature (`missing_category_misrouted`). -/
theorem rows_reach_their_leaf_partial (G : Grower α) (hnan : ∀ v thr : α, (v == v) = false → ¬ v ≤ thr) (k : Nat)
    (hfeat : ∀ I, (G.find I).feature = -1 ∨ 0 ≤ (G.find I).feature ∧ (G.find I).feature < k) (lr : α) (fuel : Nat) (I : List Nat) (t : LGB.Tree α)
    (ht : G.buildTree lr fuel I = some t) :
    ∃ (d : DTree α) (parts : List (List Nat)), Stores t 0 d ∧ d.Features k ∧ t.numLeaves = parts.length ∧ t.shrinkage = lr ∧
      d.paths.map (·.2) = parts.map G.leaf ∧ parts.flatten.Perm I ∧ (∀ P ∈ parts, P.Sublist I) ∧
      ∀ j P, parts[j]? = some P → ∀ i ∈ P, (∀ f ∈ G.categorical, (G.x i f.toNat == G.x i f.toNat) = true) →
        d.leafNo G.toInt (G.row k i) = j ∧ t.predict G.toInt (G.row k i) = .ok (G.leaf P) := by
  rw [buildTree_eq] at ht
  cases hT : G.growT fuel 0 I 0 with
  | none => rw [hT] at ht; cases ht
  | some T =>
    rw [hT] at ht
    simp only [Option.map_some, Option.some.injEq] at ht
    have hg := growT_grown G hT
    have hk := grown_features G hfeat hg
    have hs : Stores t 0 (T.toD G) := layout_stores G T hk [] [] t (by rw [← ht]; simp)
    refine ⟨T.toD G, T.leaves, hs, toD_features G T hk, by rw [← ht], by rw [← ht], toD_values G T, grown_perm G hg, grown_sublist G hg, ?_⟩
    intro j P hP i hi hc
    have hj := grown_leafNo_of G hnan hg hk j P hP i hi hc
    refine ⟨hj, ?_⟩
    have hret := LGB.stores_returns G.toInt t (G.row k i) 0 (T.toD G) hs (by
      have : (G.row k i).length = k := by simp [Grower.row]
      rw [this]; exact toD_features G T hk)
    rw [LGB.predict_returns G.toInt t _ _ hret]
    have he := eval_leafNo G.toInt (T.toD G) (G.row k i)
    rw [hj, toD_values, List.getElem?_map, hP] at he
    simp only [Option.map_some, Option.some.injEq] at he
    rw [he]

/-- **C54** for every split finder: with a positive `MaxDepth` growing a tree ends, and no path is longer than `MaxDepth` -/
theorem max_depth_partial (G : Grower α) (k : Nat)
    (hfeat : ∀ I, (G.find I).feature = -1 ∨ 0 ≤ (G.find I).feature ∧ (G.find I).feature < k) (hd : 0 < G.lim.maxDepth) (lr : α) (I : List Nat) :
    ∃ t d, (∀ fuel : Nat, G.lim.maxDepth < fuel → G.buildTree lr fuel I = some t) ∧ Stores t 0 d ∧ (d.depth : Int) ≤ G.lim.maxDepth := by
  obtain ⟨T, hT⟩ := growT_of_progress G (fun _ depth => G.lim.maxDepth.toNat - depth) (by
    intro J depth c hs _
    have hlt : (depth : Int) < G.lim.maxDepth := by
      by_contra hcon
      simp only [Grower.stops, Bool.or_eq_false_iff, Bool.and_eq_false_iff, decide_eq_false_iff_not] at hs
      rcases hs.1.1 with h | h <;> omega
    omega) (G.lim.maxDepth.toNat + 1) 0 I 0 (by simp)
  have hg := growT_grown G hT
  have hk := grown_features G hfeat hg
  refine ⟨⟨T.layout G 0, [], (T.leaves.length : Nat), lr, 0⟩, T.toD G, ?_, ?_, ?_⟩
  · intro fuel hf
    rw [buildTree_eq, growT_mono G (by omega) hT]
    rfl
  · exact layout_stores G T hk [] [] _ (by simp)
  · rw [toD_depth]
    have := grown_depth G hd hg (by simpa using hd.le)
    simpa using this

/-- **C54** for every split finder: with a positive `NumLeaves` a finished tree has at most `NumLeaves - 1` leaves more than it is deep
(or a single leaf). What is missing: at most `NumLeaves` leaves (`num_leaves_exceeded`). -/
theorem num_leaves_partial (G : Grower α) (k : Nat)
    (hfeat : ∀ I, (G.find I).feature = -1 ∨ 0 ≤ (G.find I).feature ∧ (G.find I).feature < k) (hn : 0 < G.lim.numLeaves) (lr : α) (fuel : Nat) (I : List Nat)
    (t : LGB.Tree α) (ht : G.buildTree lr fuel I = some t) :
    ∃ d, Stores t 0 d ∧ t.numLeaves = d.paths.length ∧ (d.paths.length : Int) ≤ max 1 (G.lim.numLeaves - 1 + d.depth) := by
  rw [buildTree_eq] at ht
  cases hT : G.growT fuel 0 I 0 with
  | none => rw [hT] at ht; cases ht
  | some T =>
    rw [hT] at ht
    simp only [Option.map_some, Option.some.injEq] at ht
    have hg := growT_grown G hT
    have hlen : (T.toD G).paths.length = T.leaves.length := by simpa using congrArg List.length (toD_values G T)
    refine ⟨T.toD G, layout_stores G T (grown_features G hfeat hg) [] [] t (by rw [← ht]; simp), by rw [← ht, hlen], ?_⟩
    have := grown_leaves G hn hg
    rw [hlen, toD_depth]
    simpa using this

theorem left_loop (G : Grower α) (I : List Nat) (hr : G.refuses (G.find I) = false) (hl : G.leftOf I (G.find I) = I) (hd : G.lim.maxDepth ≤ 0)
    (hm : G.adjusted ≤ I.length) (c : Nat) (hc : G.lim.numLeaves ≤ 0 ∨ (c : Int) < G.lim.numLeaves - 1) (fuel depth : Nat) :
    G.growT fuel c I depth = none := by
  induction fuel generalizing depth with
  | zero => rfl
  | succ fuel ih =>
    have hs : G.stops c I depth = false := by
      simp only [Grower.stops, Bool.or_eq_false_iff, Bool.and_eq_false_iff, decide_eq_false_iff_not]
      refine ⟨⟨Or.inl (by omega), by omega⟩, ?_⟩
      rcases hc with h | h
      · exact Or.inl (by omega)
      · exact Or.inr (by omega)
    rw [Grower.growT, if_neg (by simp [hs]), if_neg (by simp [hr]), hl, ih]

end

section field
variable [Field α] [LinearOrder α] [IsStrictOrderedRing α]

/-- what is assumed of the library functions: sorting sorts, map iteration visits every entry once, and a category survives the
conversion to a float and back -/
structure LibOk (lib : Lib α) : Prop where
  eps : 0 < lib.lits.eps
  srt : SortsAsc id lib.srt
  iter : ∀ l, (lib.iter l).Perm l
  byCategory : SortsAsc (fun c : Hist.Cat α => c.category) lib.byCategory
  byRatio : ∀ l, (lib.byRatio l).Perm l
  round : ∀ v, lib.toInt (lib.ofInt (lib.toInt v)) = lib.toInt v

/-- the values of column `j` over the rows `I` fit into the bins: few enough, and far enough apart -/
def Fits (lib : Lib α) (hb : Hist.Builder α) (D : Data α) (I : List Nat) (j : Nat) : Prop :=
  (I.map fun i => D.x i j).toFinset.card ≤ hb.maxBin ∧ ∀ a ∈ I, ∀ b ∈ I, D.x a j < D.x b j → D.x a j + lib.lits.eps < D.x b j

theorem Fits.sub {lib : Lib α} {hb : Hist.Builder α} {D : Data α} {I J : List Nat} {j : Nat} (h : Fits lib hb D I j) (hs : J.Sublist I) :
    Fits lib hb D J j := by
  refine ⟨le_trans (Finset.card_le_card ?_) h.1, fun a ha b hb' => h.2 a (hs.subset ha) b (hs.subset hb')⟩
  intro v hv
  simp only [List.mem_toFinset, List.mem_map] at hv ⊢
  obtain ⟨i, hi, e⟩ := hv
  exact ⟨i, hs.subset hi, e⟩

/-- no value of column `j` occurs `m` times among the rows `I` -/
def Rare (m : Int) (D : Data α) (I : List Nat) (j : Nat) : Prop := ∀ v, ((I.filter fun i => D.x i j = v).length : Int) < m

theorem Rare.sub {m : Int} {D : Data α} {I J : List Nat} {j : Nat} (h : Rare m D I j) (hs : J.Sublist I) : Rare m D J j := by
  intro v
  have := (hs.filter fun i => decide (D.x i j = v)).length_le
  have := h v
  omega

/-- the two sides of a split that passes: at least the minimum goes left; at least the minimum goes right if the column fits or is
categorical, and some row goes right if its values are rare -/
theorem split_sides (lib : Lib α) (ok : LibOk lib) (hb : Hist.Builder α) (lim : Limits α) (categorical : List Int) (D : Data α) (hmg : 0 < lim.minGain)
    (I : List Nat) (hr : (grower lib hb lim categorical D).refuses ((grower lib hb lim categorical D).find I) = false) :
    ∃ j < D.cols, lim.minData ≤ ((grower lib hb lim categorical D).leftOf I ((grower lib hb lim categorical D).find I)).length ∧
      (categorical.contains (j : Int) = true ∨ Fits lib hb D I j →
        lim.minData ≤ ((grower lib hb lim categorical D).rightOf I ((grower lib hb lim categorical D).find I)).length) ∧
      (Rare lim.minData D I j → (grower lib hb lim categorical D).rightOf I ((grower lib hb lim categorical D).find I) ≠ [] ∨
        categorical.contains (j : Int) = true) := by
  obtain ⟨j, hj, e, hpos⟩ := findBestSplit_good lib hb lim categorical D hmg I hr
  rw [e] at hpos ⊢
  refine ⟨j, hj, ?_⟩
  have hfeat := featureSplit_feature lib ok.byRatio hb categorical lim.minData D I j
  set s := featureSplit lib hb categorical lim.minData D I j with hsd
  have hxj : ∀ i, (grower lib hb lim categorical D).x i s.feature.toNat = D.x i j := by
    intro i
    rw [hfeat]
    rfl
  have hcatj : (grower lib hb lim categorical D).isCat s.feature = categorical.contains (j : Int) := by
    rw [hfeat]
    rfl
  by_cases hc : categorical.contains (j : Int) = true
  · obtain ⟨h1, h2, h3⟩ := categorical_divides lib ok.byRatio ok.iter ok.byCategory ok.round hb categorical lim.minData D I j hc hpos
    rw [← hsd] at h1 h2 h3
    have hcs : (grower lib hb lim categorical D).categories I s = s.leftCategories := by
      unfold Grower.categories
      rw [hcatj, if_pos hc, if_pos (List.length_pos_iff.2 h1)]
    have hgo : ∀ i, (grower lib hb lim categorical D).goesLeft I s i = s.leftCategories.contains (lib.toInt (D.x i j)) := by
      intro i
      unfold Grower.goesLeft
      rw [hcatj, if_pos hc, hcs, hxj]
      rfl
    unfold Grower.leftOf Grower.rightOf
    simp only [hgo]
    exact ⟨h2, fun _ => h3, fun _ => Or.inr hc⟩
  · have hgo : ∀ i, (grower lib hb lim categorical D).goesLeft I s i = decide (D.x i j ≤ s.threshold) := by
      intro i
      unfold Grower.goesLeft
      rw [hcatj, if_neg hc, hxj]
    obtain ⟨n1, n2⟩ := numerical_counts lib ok.eps ok.srt hb categorical lim.minData D I j (by simpa using hc) hpos
    rw [← hsd] at n1 n2
    unfold Grower.leftOf Grower.rightOf
    simp only [hgo]
    refine ⟨?_, ?_, ?_⟩
    · refine n1.trans (Int.ofNat_le.2 ?_)
      rw [← List.countP_eq_length_filter, ← List.countP_eq_length_filter]
      apply List.countP_mono_left
      intro i _ h
      simp only [decide_eq_true_eq] at h ⊢
      exact h.le
    · rintro (h | ⟨f1, f2⟩)
      · exact absurd h hc
      · have es : s = hb.findSplit lib.lits lib.special (Hist.buildContinuous lib.lits lib.srt hb.maxBin j (fun i => D.x i j) D.g D.h I)
            (I.map D.g).sum (I.map D.h).sum lim.minData := by
          rw [hsd]
          unfold featureSplit
          rw [if_neg hc, sumOver_eq_sum, sumOver_eq_sum]
        obtain ⟨-, -, -, h4⟩ := Hist.exact_threshold_partial hb lib.lits ok.eps lib.special lib.srt ok.srt hb.maxBin j (fun i => D.x i j) D.g D.h I f1 f2
          lim.minData s es hpos
        have eo : (I.filter fun i => !decide (D.x i j ≤ s.threshold)) = Hist.over (fun i => D.x i j) I s.threshold := by
          unfold Hist.over
          apply List.filter_congr
          intro i _
          by_cases h : D.x i j ≤ s.threshold
          · simp [h, not_lt.2 h]
          · simp [h, not_le.1 h]
        rw [eo]
        exact h4
    · intro hrare
      left
      intro hnil
      have hv := hrare s.threshold
      have : (I.filter fun i => decide (s.threshold ≤ D.x i j)) = I.filter fun i => decide (D.x i j = s.threshold) := by
        apply List.filter_congr
        intro i hi
        rw [decide_eq_decide]
        have hle : D.x i j ≤ s.threshold := by
          by_contra hgt
          have : i ∈ (I.filter fun i => !decide (D.x i j ≤ s.threshold)) := by simp [hi, not_le.1 hgt]
          rw [hnil] at this
          simp at this
        exact ⟨fun h => le_antisymm hle h, fun h => h.ge⟩
      rw [this] at n2
      omega

/-- **C54** (exact arithmetic). Growing a tree ends, whatever the depth limit, if `MinGainToSplit` is positive and in every numerical
column either the values fit into the bins or no value occurs `MinDataInLeaf` times. What is missing: other data
(`never_ends_zero_gain`, `never_ends_repeated_maximum`). -/
theorem terminates_partial (lib : Lib α) (ok : LibOk lib) (hb : Hist.Builder α) (lim : Limits α) (categorical : List Int) (D : Data α)
    (hmg : 0 < lim.minGain) (hmd : 1 ≤ lim.minData) (I : List Nat)
    (hcols : ∀ j < D.cols, categorical.contains (j : Int) = true ∨ Fits lib hb D I j ∨ Rare lim.minData D I j) (lr : α) :
    ∃ t, ∀ fuel, I.length < fuel → (grower lib hb lim categorical D).buildTree lr fuel I = some t := by
  set G := grower lib hb lim categorical D with hG
  have hside : ∀ J : List Nat, J.Sublist I → G.refuses (G.find J) = false →
      (G.leftOf J (G.find J)).length < J.length ∧ (G.rightOf J (G.find J)).length < J.length := by
    intro J hJ hr
    obtain ⟨j, hj, h1, h2, h3⟩ := split_sides lib ok hb lim categorical D hmg J hr
    rw [← hG] at h1 h2 h3
    have hlen := (leftOf_rightOf_perm G J (G.find J)).length_eq
    rw [List.length_append] at hlen
    have hpos : 0 < (G.rightOf J (G.find J)).length := by
      rcases hcols j hj with h | h | h
      · have := h2 (Or.inl h); omega
      · have := h2 (Or.inr (h.sub hJ)); omega
      · rcases h3 (h.sub hJ) with h | h
        · exact List.length_pos_iff.2 h
        · have := h2 (Or.inl h); omega
    omega
  have key : ∀ fuel c (J : List Nat) depth, J.Sublist I → J.length < fuel → ∃ T, G.growT fuel c J depth = some T := by
    intro fuel
    induction fuel with
    | zero => intro c J depth _ h; omega
    | succ fuel ih =>
      intro c J depth hJ hf
      rw [Grower.growT]
      by_cases h1 : G.stops c J depth = true
      · exact ⟨_, by rw [if_pos h1]⟩
      · by_cases h2 : G.refuses (G.find J) = true
        · exact ⟨_, by rw [if_neg h1, if_pos h2]⟩
        · obtain ⟨p1, p2⟩ := hside J hJ (by simpa using h2)
          obtain ⟨l, hl⟩ := ih c (G.leftOf J (G.find J)) (depth + 1) (List.filter_sublist.trans hJ) (by omega)
          obtain ⟨r, hr⟩ := ih (c + l.leaves.length) (G.rightOf J (G.find J)) (depth + 1) (List.filter_sublist.trans hJ) (by omega)
          exact ⟨.node J (G.find J) l r, by rw [if_neg h1, if_neg h2, hl]; simp only; rw [hr]⟩
  obtain ⟨T, hT⟩ := key (I.length + 1) 0 I 0 (List.Sublist.refl _) (by omega)
  refine ⟨⟨T.layout G 0, [], (T.leaves.length : Nat), lr, 0⟩, fun fuel hf => ?_⟩
  rw [buildTree_eq, growT_mono G hf hT]
  rfl

theorem grown_min (lib : Lib α) (ok : LibOk lib) (hb : Hist.Builder α) (lim : Limits α) (categorical : List Int) (D : Data α)
    (hmg : 0 < lim.minGain) {c : Nat} {I : List Nat} {depth : Nat} {T : GTree α}
    (hcols : ∀ j < D.cols, categorical.contains (j : Int) = true ∨ Fits lib hb D I j) (hI : lim.minData ≤ I.length)
    (h : Grown (grower lib hb lim categorical D) c I depth T) : ∀ P ∈ T.leaves, lim.minData ≤ P.length := by
  induction h with
  | leaf c I depth =>
    intro P hP
    rw [GTree.leaves, List.mem_singleton] at hP
    rw [hP]
    exact hI
  | node c I depth l r _ hr _ _ ihl ihr =>
    obtain ⟨j, hj, h1, h2, -⟩ := split_sides lib ok hb lim categorical D hmg I hr
    intro P hP
    rw [GTree.leaves, List.mem_append] at hP
    rcases hP with hP | hP
    · exact ihl (fun j hj => (hcols j hj).imp id fun h => h.sub List.filter_sublist) h1 P hP
    · exact ihr (fun j hj => (hcols j hj).imp id fun h => h.sub List.filter_sublist) (h2 (hcols j hj)) P hP

/-- **C54** (exact arithmetic). If `MinGainToSplit` is positive and in every numerical column the values fit into the bins, every leaf of
a finished tree receives at least `MinDataInLeaf` of the rows it was grown from. What is missing: other data (`min_data_violated`). -/
theorem min_data_partial (lib : Lib α) (ok : LibOk lib) (hb : Hist.Builder α) (lim : Limits α) (categorical : List Int) (D : Data α)
    (hmg : 0 < lim.minGain) (I : List Nat) (hcols : ∀ j < D.cols, categorical.contains (j : Int) = true ∨ Fits lib hb D I j)
    (hI : lim.minData ≤ I.length) (lr : α) (fuel : Nat) (t : LGB.Tree α) (ht : (grower lib hb lim categorical D).buildTree lr fuel I = some t) :
    ∃ d, Stores t 0 d ∧ ∀ j < d.paths.length,
      lim.minData ≤ (I.filter fun i => d.leafNo lib.toInt ((List.range D.cols).map (D.x i)) = j).length := by
  set G := grower lib hb lim categorical D with hG
  have hfeat : ∀ I, (G.find I).feature = -1 ∨ 0 ≤ (G.find I).feature ∧ (G.find I).feature < D.cols :=
    fun I => findBestSplit_feature lib ok.byRatio hb categorical lim.minData lim.minGain D I
  rw [buildTree_eq] at ht
  cases hT : G.growT fuel 0 I 0 with
  | none => rw [hT] at ht; cases ht
  | some T =>
    rw [hT] at ht
    simp only [Option.map_some, Option.some.injEq] at ht
    have hg := growT_grown G hT
    have hk := grown_features G hfeat hg
    refine ⟨T.toD G, layout_stores G T hk [] [] t (by rw [← ht]; simp), ?_⟩
    intro j hj
    have hlen : (T.toD G).paths.length = T.leaves.length := by simpa using congrArg List.length (toD_values G T)
    rw [hlen] at hj
    obtain ⟨P, hP⟩ : ∃ P, T.leaves[j]? = some P := ⟨_, List.getElem?_eq_getElem hj⟩
    have hmin := grown_min lib ok hb lim categorical D hmg hcols hI hg P (List.mem_of_getElem? hP)
    refine hmin.trans (Int.ofNat_le.2 ?_)
    have hall : P.filter (fun i => decide ((T.toD G).leafNo lib.toInt ((List.range D.cols).map (D.x i)) = j)) = P := by
      rw [List.filter_eq_self]
      intro i hi
      rw [decide_eq_true_eq]
      exact grown_leafNo_of G (fun v thr h => by simp at h) hg hk j P hP i hi (fun f _ => by simp)
    rw [← hall]
    exact ((grown_sublist G hg P (List.mem_of_getElem? hP)).filter _).length_le

/-- **C121** for the trainer: the leaves of a finished tree divide the rows it was grown from, and on every row it predicts the
regularised leaf value of the rows that share its leaf -/
theorem trained_tree_fits_rows_partial (lib : Lib α) (hratio : ∀ l, (lib.byRatio l).Perm l) (hb : Hist.Builder α) (lim : Limits α) (categorical : List Int) (D : Data α)
    (I : List Nat) (lr : α) (fuel : Nat) (t : LGB.Tree α) (ht : (grower lib hb lim categorical D).buildTree lr fuel I = some t) :
    ∃ parts : List (List Nat), t.numLeaves = parts.length ∧ t.shrinkage = lr ∧ parts.flatten.Perm I ∧ ∀ P ∈ parts, ∀ i ∈ P,
      t.predict lib.toInt ((List.range D.cols).map (D.x i)) = .ok (leafValue lib.eps hb.alpha hb.lambda (P.map D.g).sum (P.map D.h).sum) := by
  obtain ⟨d, parts, -, -, h3, h4, -, h6, -, h8⟩ := rows_reach_their_leaf_partial (grower lib hb lim categorical D) (fun v thr h => by simp at h) D.cols
    (fun I => findBestSplit_feature lib hratio hb categorical lim.minData lim.minGain D I) lr fuel I t ht
  refine ⟨parts, h3, h4, h6, fun P hP i hi => ?_⟩
  obtain ⟨j, hj⟩ := List.getElem?_of_mem hP
  rw [← sumOver_eq_sum, ← sumOver_eq_sum]
  exact (h8 j P hj i hi (fun f _ => by simp)).2

end field

/-! ### Concrete cases and the failures of the full statement -/

/-- exact rationals; `Hist.exL` has `eps = 1/100` -/
def exLib : Lib Rat where
  lits := Hist.exL
  eps := 0
  special := fun _ => false
  srt := stableAsc id
  iter := id
  byCategory := stableAsc fun c => c.category
  byRatio := stableAsc fun b => b.grad / (b.hess + 1)
  catByRatio := stableAsc fun c => c.grad / (c.hess + 1)
  toInt := fun v => v.floor
  ofInt := fun n => n
  scale := fun n r => (n * r).floor

theorem exLib_ok : LibOk exLib := by
  refine ⟨by decide +kernel, stableAsc_sorts id, fun l => List.Perm.refl l, stableAsc_sorts _, fun l => (stableAsc_sorts _ l).1, fun v => ?_⟩
  show ((v.floor : Int) : Rat).floor = v.floor
  exact Rat.floor_intCast _

/-- five rows, one column -/
def exD (xs gs : List Rat) : Data Rat := ⟨1, fun i _ => xs.getD i 0, fun i => gs.getD i 0, fun _ => 1⟩

/-- **C54** is false: with `MinGainToSplit = 0` and no depth limit a node without a useful split is split at 0 on feature 0; if all values
are at most 0 all rows go left and the recursion never ends. Four rows, `NumLeaves = 31`. -/
theorem never_ends_zero_gain (fuel : Nat) :
    (grower exLib ⟨255, 0, 0⟩ ⟨-1, 31, 2, 0, none⟩ [] (exD [-1, -1, -1, -1] [1, 2, 3, 4])).buildTree 1 fuel [0, 1, 2, 3] = none := by
  rw [buildTree_eq, left_loop]
  · rfl
  · decide +kernel
  · decide +kernel
  · decide
  · decide
  · right; decide

/-- **C54** is false with a positive `MinGainToSplit` too: with more values than bins the threshold may be the largest value, and all rows
go left for ever -/
theorem never_ends_repeated_maximum (fuel : Nat) :
    (grower exLib ⟨2, 0, 0⟩ ⟨-1, 31, 1, 1 / 100, none⟩ [] (exD [1, 2, 3, 3, 3, 3] [-1, -1, 1, 1, 1, 1])).buildTree 1 fuel [0, 1, 2, 3, 4, 5] =
      none := by
  rw [buildTree_eq, left_loop]
  · rfl
  · decide +kernel
  · decide +kernel
  · decide
  · decide
  · right; decide

/-- **C54** is false: with `NumLeaves = 2` a tree may have four leaves -/
theorem num_leaves_exceeded :
    ((grower exLib ⟨255, 0, 0⟩ ⟨3, 2, 1, 1 / 100, none⟩ [] (exD [1, 2, 3, 4] [0, 1, 5, 30])).buildTree 1 5 [0, 1, 2, 3]).map (·.numLeaves) = some 4 := by
  decide +kernel

/-- **C54** is false: with `MinDataInLeaf = 1` a tree grown from six rows has a leaf that receives none of them -/
theorem min_data_violated :
    ∃ t, (grower exLib ⟨2, 0, 0⟩ ⟨1, 31, 1, 1 / 100, none⟩ [] (exD [1, 2, 3, 3, 3, 3] [-1, -1, 1, 1, 1, 1])).buildTree 1 3 [0, 1, 2, 3, 4, 5] = some t ∧
      t.numLeaves = 2 ∧ ∀ i ∈ [0, 1, 2, 3, 4, 5], t.predict exLib.toInt [[1, 2, 3, 3, 3, 3].getD i 0] = .ok (-1 / 3) := by
  decide +kernel


/-- the data of `num_leaves_exceeded` meets the conditions of `terminates_partial` and `min_data_partial` -/
example : ∃ t, ∀ fuel, [0, 1, 2, 3].length < fuel → (grower exLib ⟨255, 0, 0⟩ ⟨-1, 31, 1, 1 / 100, none⟩ [] (exD [1, 2, 3, 4] [0, 1, 5, 30])).buildTree 1 fuel [0, 1, 2, 3] = some t :=
  terminates_partial exLib exLib_ok ⟨255, 0, 0⟩ ⟨-1, 31, 1, 1 / 100, none⟩ [] (exD [1, 2, 3, 4] [0, 1, 5, 30]) (by decide +kernel) (by decide)
    [0, 1, 2, 3]
    (fun j hj => by
      have : j = 0 := by simp only [exD] at hj; omega
      subst this
      right; left
      refine ⟨by decide +kernel, by decide +kernel⟩) 1

example : ((grower exLib ⟨255, 0, 0⟩ ⟨-1, 31, 1, 1 / 100, none⟩ [] (exD [1, 2, 3, 4] [0, 1, 5, 30])).buildTree 1 5 [0, 1, 2, 3]).map
    (fun t => [1, 2, 3, 4].map fun v => t.predict exLib.toInt [v]) = some [.ok 0, .ok (-1), .ok (-5), .ok (-30)] := by
  decide +kernel

/-- a positive depth limit and a split finder as `max_depth_partial` and `rows_reach_their_leaf_partial` require -/
example : ∃ t d, (∀ fuel : Nat, (3 : Int) < fuel →
      (grower exLib ⟨2, 0, 0⟩ ⟨3, 2, 1, 1 / 100, none⟩ [] (exD [1, 2, 3, 3, 3, 3] [-1, -1, 1, 1, 1, 1])).buildTree 1 fuel [0, 1, 2, 3, 4, 5] = some t) ∧
    Stores t 0 d ∧ (d.depth : Int) ≤ 3 :=
  max_depth_partial (grower exLib ⟨2, 0, 0⟩ ⟨3, 2, 1, 1 / 100, none⟩ [] (exD [1, 2, 3, 3, 3, 3] [-1, -1, 1, 1, 1, 1])) 1
    (fun I => findBestSplit_feature exLib exLib_ok.byRatio _ _ _ _ _ I) (by decide) 1 _

/-- integers with a `NaN` that is not equal to itself -/
inductive NInt
  | num (n : Int)
  | nan
  deriving DecidableEq

/-- Go's `<=` -/
def NInt.le : NInt → NInt → Bool
  | .num a, .num b => decide (a ≤ b)
  | _, _ => false
/-- Go's `<` -/
def NInt.lt : NInt → NInt → Bool
  | .num a, .num b => decide (a < b)
  | _, _ => false
instance : Zero NInt := ⟨.num 0⟩
instance : LE NInt := ⟨fun a b => NInt.le a b = true⟩
instance : LT NInt := ⟨fun a b => NInt.lt a b = true⟩
instance : DecidableLE NInt := fun a b => inferInstanceAs (Decidable (NInt.le a b = true))
instance : DecidableLT NInt := fun a b => inferInstanceAs (Decidable (NInt.lt a b = true))
/-- Go's `==` -/
instance (priority := high) : BEq NInt := ⟨fun a b => match a, b with
  | .num a, .num b => decide (a = b)
  | _, _ => false⟩

/-- one categorical column, missing in the first of three rows; `int(NaN)` is the least integer on amd64, which the trainer counts as a
category of its own and here separates from category 1; the leaf value is the number of rows -/
def nanGrower : Grower NInt where
  lim := ⟨1, 31, 1, .num 0, none⟩
  adjusted := 1
  find := fun _ => ⟨0, .num 1, .num 1, 1, 2, .num 0, .num 0, .num 0, .num 0, [-9223372036854775808]⟩
  leaf := fun I => .num I.length
  x := fun i _ => if i = 0 then .nan else .num 1
  categorical := [0]
  toInt := fun v => match v with
    | .num n => n
    | .nan => -9223372036854775808
  fallback := fun _ _ => []

/-- **C121** fails for rows with a missing value in a categorical feature: training computes the value of the left leaf from the row whose
category is missing, but the tree sends this row to the right -/
theorem missing_category_misrouted : ∃ t, nanGrower.buildTree (.num 1) 3 [0, 1, 2] = some t ∧
    nanGrower.leftOf [0, 1, 2] (nanGrower.find [0, 1, 2]) = [0] ∧ nanGrower.rightOf [0, 1, 2] (nanGrower.find [0, 1, 2]) = [1, 2] ∧
    t.predict nanGrower.toInt (nanGrower.row 1 0) = .ok (.num 2) ∧ nanGrower.leaf [0] = .num 1 := by
  refine ⟨_, rfl, ?_⟩
  decide +kernel

/-- the hypotheses of `rows_reach_their_leaf_partial` are met, a missing number included -/
example : (∀ v thr : NInt, (v == v) = false → ¬ v ≤ thr) ∧
    ∀ I, (nanGrower.find I).feature = -1 ∨ 0 ≤ (nanGrower.find I).feature ∧ (nanGrower.find I).feature < (1 : Nat) := by
  refine ⟨fun v thr h => ?_, fun I => Or.inr ⟨le_refl (0 : Int), Int.one_pos⟩⟩
  cases v with
  | num n => simp [BEq.beq] at h
  | nan => exact fun h => by cases h

end Scigo.Trainer
