import Verif.Tree.Lemmas2

/-!
# Properties of the decision tree classifier (C33–C35, C73)
-/

set_option linter.unusedSectionVars false

namespace Scigo.Tree

variable {α K : Type _}

section
variable [Add α] [Sub α] [Mul α] [Div α] [Zero α] [One α] [NatCast α]
  [LT α] [LE α] [DecidableLT α] [DecidableLE α] [BEq α]

/-- the learned classes are the training labels -/
theorem mem_classes (toInt : α → Int) (iter : List Int → List Int) (hi : MapKeys iter) (y : Mat α)
    (c : Int) : c ∈ extractClasses toInt iter y ↔ ∃ i < y.r, toInt (y.at' i 0) = c := by
  unfold extractClasses
  rw [List.mem_insertionSort, (hi _).2]
  simp

theorem classes_nodup (toInt : α → Int) (iter : List Int → List Int) (hi : MapKeys iter) (y : Mat α) :
    (extractClasses toInt iter y).Nodup := by
  unfold extractClasses
  exact (List.perm_insertionSort _ _).symm.nodup (hi _).1

theorem idx_lookup (cls : List Int) (hnd : cls.Nodup) (c : Int) (hc : c ∈ cls) :
    (cls.idxOf? c).getD 0 < cls.length ∧
    ∀ k, (hk : k < cls.length) → ((cls.idxOf? c).getD 0 = k ↔ c = cls[k]) := by
  cases hidx : cls.idxOf? c with
  | none => exact absurd hc (List.idxOf?_eq_none_iff.1 hidx)
  | some j =>
    rw [List.idxOf?, List.findIdx?_eq_some_iff_getElem] at hidx
    obtain ⟨hj, hcj, -⟩ := hidx
    simp only [beq_iff_eq] at hcj
    refine ⟨hj, fun k hk => ?_⟩
    simp only [Option.getD_some]
    rw [← hcj]
    exact (hnd.getElem_inj_iff).symm

theorem samples_inRange (toInt : α → Int) (iter : List Int → List Int) (hi : MapKeys iter)
    (X y : Mat α) (h : X.r = y.r) :
    InRange (extractClasses toInt iter y).length (samples toInt (extractClasses toInt iter y) X y) := by
  intro s hs
  unfold samples at hs
  obtain ⟨i, hi', rfl⟩ := List.mem_map.1 hs
  rw [List.mem_range, h] at hi'
  exact (idx_lookup _ (classes_nodup toInt iter hi y) _ ((mem_classes toInt iter hi y _).2 ⟨i, hi', rfl⟩)).1

theorem samples_length (toInt : α → Int) (cls : List Int) (X y : Mat α) :
    (samples toInt cls X y).length = X.r := by simp [samples]

/-- what `fit` did when it returned a nil error -/
theorem fit_ok (log2 : α → α) (toInt : α → Int) (srt : (Nat → α) → List Nat → List Nat)
    (iter : List Int → List Int) (P : Params α) (fuel : Nat) (X y : Mat α) (t t' : Clf α)
    (h : t.fit log2 toInt srt iter P fuel X y = some (t', .ok ())) :
    X.r = y.r ∧ y.c = 1 ∧ ∃ root gs, Grown log2 srt P (extractClasses toInt iter y).length X.c
        (samples toInt (extractClasses toInt iter y) X y) 0 root gs ∧
      t' = ⟨true, some root, X.c, extractClasses toInt iter y,
        some (normalize (credit (List.replicate X.c 0) gs))⟩ := by
  unfold Clf.fit at h
  split at h
  · simp at h
  · rename_i h1
    split at h
    · simp at h
    · rename_i h2
      simp only at h
      split at h
      · simp at h
      · rename_i root imps hb
        obtain ⟨gs, hg, he⟩ := build_grown _ _ _ _ _ _ _ _ _ _ _ hb
        simp only [Option.some.injEq, Prod.mk.injEq, and_true] at h
        refine ⟨by simpa using h1, by simpa using h2, root, gs, hg, ?_⟩
        rw [← h, he]
      · simp at h
      · simp at h

/-- **C33** (law-free). With `minSamplesLeaf ≥ 1`, `Fit` on at least one row ends normally: as many
recursion levels as rows are enough, and the result does not depend on the allowance. It returns
an error, leaving the estimator as it was, exactly when row counts differ or `y` is not one column. -/
theorem fit_terminates (log2 : α → α) (toInt : α → Int) (srt : (Nat → α) → List Nat → List Nat)
    (iter : List Int → List Int) (hi : MapKeys iter) (P : Params α) (hmin : 1 ≤ P.minSamplesLeaf)
    (X y : Mat α) (hX : 0 < X.r) (t : Clf α) :
    ((X.r = y.r ∧ y.c = 1) → ∃ t', ∀ fuel, X.r ≤ fuel →
      t.fit log2 toInt srt iter P fuel X y = some (t', .ok ())) ∧
    (¬ (X.r = y.r ∧ y.c = 1) → ∃ e, ∀ fuel,
      t.fit log2 toInt srt iter P fuel X y = some (t, .err e)) := by
  constructor
  · rintro ⟨h1, h2⟩
    obtain ⟨root, imps, hb⟩ := build_total log2 srt P (extractClasses toInt iter y).length X.c
      (by intro S d f thr dec _ _ _ hL hR; omega) X.r
      (samples toInt (extractClasses toInt iter y) X y) 0 (List.replicate X.c 0)
      (samples_inRange toInt iter hi X y h1) (by rw [samples_length]; omega) (by rw [samples_length])
    refine ⟨⟨true, some root, X.c, extractClasses toInt iter y, some (normalize imps)⟩,
      fun fuel hf => ?_⟩
    unfold Clf.fit
    rw [if_neg (by simpa using h1), if_neg (by simpa using h2)]
    simp only
    rw [build_fuel _ _ _ _ _ _ _ hf _ _ _ _ hb]
  · intro h
    by_cases h1 : X.r = y.r
    · have h2 : y.c ≠ 1 := fun h2 => h ⟨h1, h2⟩
      exact ⟨_, fun fuel => by unfold Clf.fit; rw [if_neg (by simpa using h1), if_pos h2]⟩
    · exact ⟨_, fun fuel => by unfold Clf.fit; rw [if_pos h1]⟩

/-- **C33** (law-free). The fitted tree: no deeper than `maxDepth` when that is set; split nodes
hold at least `minSamplesSplit` rows; if there is a split at all, every leaf holds at least
`minSamplesLeaf` rows; the leaves' row counts add up to the number of training rows; `GetNLeaves`
counts the leaves, between one and the number of rows; `GetDepth` is the greatest depth of a leaf. -/
theorem fit_tree_limits (log2 : α → α) (toInt : α → Int) (srt : (Nat → α) → List Nat → List Nat)
    (iter : List Int → List Int) (P : Params α) (fuel : Nat) (X y : Mat α) (hX : 0 < X.r) (t t' : Clf α)
    (h : t.fit log2 toInt srt iter P fuel X y = some (t', .ok ())) :
    ∃ root, t'.tree = some root ∧ t'.fitted = true ∧
      (0 < P.maxDepth → (t'.getDepth : Int) ≤ P.maxDepth) ∧
      (∀ i ∈ root.splits, P.minSamplesSplit ≤ i.nSamples) ∧
      (root.splits ≠ [] → ∀ i ∈ root.leaves, P.minSamplesLeaf ≤ i.nSamples) ∧
      (root.leaves.map (·.nSamples)).sum = X.r ∧ (∀ i ∈ root.leaves, 0 < i.nSamples) ∧
      t'.getNLeaves = root.leaves.length ∧ 1 ≤ t'.getNLeaves ∧ t'.getNLeaves ≤ X.r ∧
      (∀ i ∈ root.leaves, i.depth ≤ t'.getDepth) ∧ (∃ i ∈ root.leaves, i.depth = t'.getDepth) := by
  obtain ⟨h1, h2, root, gs, hg, rfl⟩ := fit_ok _ _ _ _ _ _ _ _ _ _ h
  have hlen := samples_length toInt (extractClasses toInt iter y) X y
  have hne : samples toInt (extractClasses toInt iter y) X y ≠ [] := by
    intro e; rw [e] at hlen; simp at hlen; omega
  have hsum := hg.leaf_sum
  have hpos := hg.leaf_pos hne
  obtain ⟨m1, m2⟩ := root.maxDepth_spec
  refine ⟨root, rfl, rfl, ?_, fun i hi => (hg.split_min i hi).1, ?_, by rw [hsum, hlen], hpos,
    root.nLeaves_eq, ?_, ?_, m1, m2⟩
  · intro hm
    exact (hg.depth hm (by simpa using hm.le)).1
  · intro hs
    cases hg with
    | leaf => simp [DTree.splits] at hs
    | split _ _ f thr dec l r gl gr _ _ _ hL hR _ _ gl' gr' =>
      intro i hi
      rcases List.mem_append.1 hi with hi | hi
      · exact gl'.leaf_min hL i hi
      · exact gr'.leaf_min hR i hi
  · change 1 ≤ root.nLeaves
    rw [root.nLeaves_eq]
    obtain ⟨i, hi, -⟩ := m2
    exact List.length_pos_of_mem hi
  · change root.nLeaves ≤ X.r
    rw [root.nLeaves_eq, ← hlen, ← hsum]
    have aux : ∀ l : List (Info α), (∀ i ∈ l, 0 < i.nSamples) → l.length ≤ (l.map (·.nSamples)).sum := by
      intro l
      induction l with
      | nil => simp
      | cons a l ih =>
        intro hl
        have h1 := ih (fun i hi => hl i (by simp [hi]))
        have h2 := hl a (by simp)
        simp only [List.length_cons, List.map_cons, List.sum_cons]
        omega
    exact aux _ hpos

/-- **C34** (law-free). On a query at least as wide as the training data, `Predict` and
`PredictProba` do not panic; row `i` is answered from the leaf it is routed to, whose counts are
exactly the numbers of training rows of each class routed to the same leaf; the predicted label is
the first class of largest count, and is a training label. -/
theorem predict_from_leaf (log2 : α → α) (toInt : α → Int) (srt : (Nat → α) → List Nat → List Nat)
    (iter : List Int → List Int) (hi : MapKeys iter) (P : Params α) (fuel : Nat) (X y : Mat α)
    (hX : 0 < X.r) (t t' : Clf α) (h : t.fit log2 toInt srt iter P fuel X y = some (t', .ok ()))
    (Q : Mat α) (hQ : 0 < Q.r) (hQc : X.c ≤ Q.c) :
    ∃ root, t'.tree = some root ∧ ∃ (counts : Nat → List Nat) (k : Nat → Nat) (lab : Nat → Int),
      t'.predict Q = .ok ((List.range Q.r).map lab) ∧
      t'.predictProba Q = .ok ((List.range Q.r).map (fun i => probaRow t'.classes.length (counts i))) ∧
      ∀ i < Q.r, (counts i).length = t'.classes.length ∧ 0 < (counts i).sum ∧
        FirstMaxNat (counts i) (k i) ∧ t'.classes[k i]? = some (lab i) ∧
        (∃ j < X.r, toInt (y.at' j 0) = lab i) ∧
        ∀ c, (hc : c < t'.classes.length) → (counts i).getD c 0
          = (List.range X.r).countP (fun j =>
              decide ((root.route (X.at' j)).1 = (root.route (Q.at' i)).1 ∧
                toInt (y.at' j 0) = t'.classes[c])) := by
  obtain ⟨h1, h2, root, gs, hg, rfl⟩ := fit_ok _ _ _ _ _ _ _ _ _ _ h
  have hrange := samples_inRange toInt iter hi X y h1
  have hlen := samples_length toInt (extractClasses toInt iter y) X y
  have hne : samples toInt (extractClasses toInt iter y) X y ≠ [] := by
    intro e; rw [e] at hlen; simp at hlen; omega
  set cls := extractClasses toInt iter y with hcls
  have hdesc : ∀ i, root.descend Q.c (Q.at' i) = .ok (root.route (Q.at' i)).2 :=
    fun i => descend_eq _ _ _ (fun f hf => lt_of_lt_of_le (hg.features_lt f hf) hQc)
  have hinfo : ∀ i, FirstMaxNat (root.route (Q.at' i)).2.counts (root.route (Q.at' i)).2.predictClass ∧
      (root.route (Q.at' i)).2.counts.length = cls.length ∧ 0 < (root.route (Q.at' i)).2.counts.sum ∧
      ∀ c, (hc : c < cls.length) → (root.route (Q.at' i)).2.counts.getD c 0
          = (List.range X.r).countP (fun j =>
              decide ((root.route (X.at' j)).1 = (root.route (Q.at' i)).1 ∧
                toInt (y.at' j 0) = cls[c])) := by
    intro i
    obtain ⟨d', e⟩ := hg.histogram (Q.at' i)
    have hns := hg.leaf_pos hne _ (hg.depth_route (Q.at' i)).2
    rw [e] at hns
    have hsum : 0 < (classCounts cls.length ((samples toInt cls X y).filter
        (fun s => decide ((root.route s.1).1 = (root.route (Q.at' i)).1)))).sum := by
      rw [classCounts_sum _ _ (fun s hs => hrange s (List.mem_filter.1 hs).1)]
      exact hns
    refine ⟨?_, by rw [e]; exact classCounts_length _ _, by rw [e]; exact hsum, ?_⟩
    · rw [e]; exact majority_spec _ hsum
    · intro c hc
      rw [e]
      change (classCounts cls.length _).getD c 0 = _
      rw [classCounts_getD _ _ _ hc, List.countP_filter]
      unfold samples
      rw [List.countP_map]
      apply List.countP_congr
      intro j hj
      rw [List.mem_range, h1] at hj
      have hmem : toInt (y.at' j 0) ∈ cls := (mem_classes toInt iter hi y _).2 ⟨j, hj, rfl⟩
      have := (idx_lookup cls (classes_nodup toInt iter hi y) _ hmem).2 c hc
      simp only [Function.comp, Bool.and_eq_true, decide_eq_true_eq, this]
      exact and_comm
  have hk : ∀ i, (root.route (Q.at' i)).2.predictClass < cls.length :=
    fun i => by have := (hinfo i).1.1; rw [(hinfo i).2.1] at this; exact this
  have hcl0 : cls.length ≠ 0 := by have := hk 0; omega
  refine ⟨root, rfl, fun i => (root.route (Q.at' i)).2.counts,
    fun i => (root.route (Q.at' i)).2.predictClass,
    fun i => cls[(root.route (Q.at' i)).2.predictClass]'(hk i), ?_, ?_, ?_⟩
  · unfold Clf.predict
    rw [if_neg (by simp), if_neg (by omega)]
    simp only
    apply rowsM_ok
    intro i _
    unfold Clf.predictRow
    rw [hdesc i]
    simp only [Outcome.bind_ok]
    rw [List.getElem?_eq_getElem (hk i)]
  · unfold Clf.predictProba
    rw [if_neg (by simp), if_neg (by simp only; omega)]
    simp only
    apply rowsM_ok
    intro i _
    rw [hdesc i]; rfl
  · intro i _
    refine ⟨(hinfo i).2.1, (hinfo i).2.2.1, (hinfo i).1, List.getElem?_eq_getElem (hk i), ?_, (hinfo i).2.2.2⟩
    obtain ⟨j, hj, e⟩ := (mem_classes toInt iter hi y _).1 (List.getElem_mem (hk i))
    exact ⟨j, by omega, e⟩

/-- **C34** (law-free). An unfitted tree rejects; after a `Fit`, queries with too few columns for a
split on their way panic rather than return an error (there is no width check). -/
theorem predict_unfitted (Q : Mat α) (t : Clf α) (h : t.fitted = false) :
    (∃ e, t.predict Q = .err e) ∧ (∃ e, t.predictProba Q = .err e) := by
  unfold Clf.predict Clf.predictProba
  rw [if_pos h, if_pos h]
  exact ⟨⟨_, rfl⟩, ⟨_, rfl⟩⟩

/-- **C34** (law-free). A fitted tree panics on a query without rows, in `Predict` and in `PredictProba`. -/
theorem predict_no_rows (Q : Mat α) (t : Clf α) (h : t.fitted = true) (hQ : Q.r = 0) :
    (∃ v, t.predict Q = .panic v) ∧ (∃ v, t.predictProba Q = .panic v) := by
  constructor
  · exact ⟨"mat: zero length in matrix dimension", by simp [Clf.predict, h, hQ]⟩
  · exact ⟨"mat: zero length in matrix dimension", by simp [Clf.predictProba, h, hQ]⟩

/-- **C33** (law-free). Before any `Fit` the depth and the number of leaves are 0. -/
theorem counts_unfitted : (Clf.new : Clf α).getDepth = 0 ∧ (Clf.new : Clf α).getNLeaves = 0 := ⟨rfl, rfl⟩

end

section
variable [Field K] [LinearOrder K] [IsStrictOrderedRing K]

/-- **C34**. The rows of `PredictProba` are probability distributions, and the class of largest
count is the class of largest probability. -/
theorem probaRow_distribution (counts : List Nat) (hpos : 0 < counts.sum) :
    (probaRow counts.length counts : List K).length = counts.length ∧
    (∀ p ∈ (probaRow counts.length counts : List K), 0 ≤ p ∧ p ≤ 1) ∧
    (probaRow counts.length counts : List K).sum = 1 ∧
    ∀ k, FirstMaxNat counts k → (∀ j < counts.length, (probaRow counts.length counts : List K).getD j 0
        ≤ (probaRow counts.length counts : List K).getD k 0) ∧
      ∀ j < k, (probaRow counts.length counts : List K).getD j 0
        < (probaRow counts.length counts : List K).getD k 0 := by
  have hposK : (0 : K) < (counts.sum : K) := by exact_mod_cast hpos
  have e : (probaRow counts.length counts : List K) = counts.map (fun c : Nat => (c : K) / (counts.sum : K)) := by
    unfold probaRow
    simp only [foldl_add_nat, if_pos hpos]
    apply List.ext_getElem
    · simp
    · intro i h1 h2
      have h3 : i < counts.length := by simpa using h2
      simp [h3]
  rw [e]
  have hsum : (counts.map (fun c : Nat => (c : K) / (counts.sum : K))).sum = 1 := by
    have aux : ∀ (l : List Nat) (T : K), (l.map (fun c : Nat => (c : K) / T)).sum = (l.sum : K) / T := by
      intro l T
      induction l with
      | nil => simp
      | cons a l ih => simp [ih, add_div]
    rw [aux, div_self hposK.ne']
  have hget : ∀ j < counts.length, (counts.map (fun c : Nat => (c : K) / (counts.sum : K))).getD j 0
      = (counts.getD j 0 : K) / (counts.sum : K) := by
    intro j hj
    rw [List.getD_eq_getElem?_getD, List.getElem?_map, List.getElem?_eq_getElem hj,
      List.getD_eq_getElem?_getD, List.getElem?_eq_getElem hj]
    rfl
  refine ⟨by simp, ?_, hsum, ?_⟩
  · intro p hp
    obtain ⟨c, hc, rfl⟩ := List.mem_map.1 hp
    refine ⟨by positivity, (div_le_one hposK).2 ?_⟩
    exact_mod_cast List.le_sum_of_mem hc
  · intro k hk
    refine ⟨fun j hj => ?_, fun j hj => ?_⟩
    · rw [hget j hj, hget k hk.1]
      exact div_le_div_of_nonneg_right (by exact_mod_cast hk.2.1 j hj) hposK.le
    · rw [hget j (hj.trans hk.1), hget k hk.1]
      exact div_lt_div_of_pos_right (by exact_mod_cast hk.2.2 j hj) hposK

/-- **C33**. In exact arithmetic `Fit` terminates for every hyper-parameter setting, also for
`minSamplesLeaf ≤ 0`: a split with an empty side has gain 0 and is not taken. -/
theorem fit_terminates_exact (log2 : K → K) (toInt : K → Int) (srt : (Nat → K) → List Nat → List Nat)
    (iter : List Int → List Int) (hi : MapKeys iter) (P : Params K)
    (X y : Mat K) (hX : 0 < X.r) (t : Clf K) (h1 : X.r = y.r) (h2 : y.c = 1) :
    ∃ t', ∀ fuel, X.r ≤ fuel → t.fit log2 toInt srt iter P fuel X y = some (t', .ok ()) := by
  obtain ⟨root, imps, hb⟩ := build_total log2 srt P (extractClasses toInt iter y).length X.c
    (by
      intro S d f thr dec hS hr hbest _ _
      have hspec := findBestSplit_spec log2 srt P (extractClasses toInt iter y).length X.c S
        (mkInfo log2 P (extractClasses toInt iter y).length S d).impurity
      simp only [hbest] at hspec
      rcases hspec with ⟨e, -⟩ | ⟨c, -, -, h0, e, -⟩
      · simp at e
      · simp only [Prod.mk.injEq, Option.some.injEq] at e
        obtain ⟨rfl, rfl, -⟩ := e
        by_contra hcon
        have : (leftOf S c.1 ((c.2.1 + c.2.2) / ((2 : Nat) : K))).length = 0 ∨
            (rightOf S c.1 ((c.2.1 + c.2.2) / ((2 : Nat) : K))).length = 0 := by
          by_contra h; push Not at h; exact hcon h
        rw [gain_zero_of_empty log2 P _ S d hS _ _ this] at h0
        exact lt_irrefl _ h0) X.r
    (samples toInt (extractClasses toInt iter y) X y) 0 (List.replicate X.c 0)
    (samples_inRange toInt iter hi X y h1) (by rw [samples_length]; omega) (by rw [samples_length])
  refine ⟨⟨true, some root, X.c, extractClasses toInt iter y, some (normalize imps)⟩,
    fun fuel hf => ?_⟩
  unfold Clf.fit
  rw [if_neg (by simpa using h1), if_neg (by simpa using h2)]
  simp only
  rw [build_fuel _ _ _ _ _ _ _ hf _ _ _ _ hb]

/-- **C35**. Feature importances: one per feature, non-negative, sum 1 if the tree has a split and
all 0 otherwise; a feature never tested has importance 0. -/
theorem importances_normalised (log2 : K → K) (toInt : K → Int)
    (srt : (Nat → K) → List Nat → List Nat)
    (iter : List Int → List Int) (P : Params K) (fuel : Nat) (X y : Mat K) (t t' : Clf K)
    (h : t.fit log2 toInt srt iter P fuel X y = some (t', .ok ())) :
    ∃ root imps, t'.tree = some root ∧ t'.importances = some imps ∧ imps.length = X.c ∧
      (∀ v ∈ imps, 0 ≤ v) ∧ (root.splits ≠ [] → imps.sum = 1) ∧
      (root.splits = [] → imps = List.replicate X.c 0) ∧
      ∀ f < X.c, (f ∈ root.features ↔ 0 < imps.getD f 0) := by
  obtain ⟨h1, h2, root, gs, hg, rfl⟩ := fit_ok _ _ _ _ _ _ _ _ _ _ h
  have hgp : ∀ g ∈ gs, 0 < g.2 ∧ g.1 < X.c := by
    intro g hgm
    obtain ⟨dec, n, hd, hn, e, hf⟩ := hg.gains_pos g hgm
    have : (0 : K) < (n : K) := by exact_mod_cast hn
    exact ⟨by rw [e]; positivity, hf⟩
  obtain ⟨c1, c2⟩ := credit_sum gs (List.replicate X.c (0 : K)) (by simpa using fun a b hab => (hgp (a, b) hab).2)
  have c3 := credit_nonneg gs (List.replicate X.c (0 : K)) (fun g hgm => (hgp g hgm).1.le) (by simp)
  have hgs : root.splits = [] ↔ gs = [] := by
    cases hg <;> simp [DTree.splits]
  have hsum0 : (credit (List.replicate X.c (0 : K)) gs).foldl (· + ·) 0 = (gs.map Prod.snd).sum := by
    rw [← List.sum_eq_foldl, c2]; simp
  have hposum : gs ≠ [] → 0 < (gs.map Prod.snd).sum := by
    intro hne
    apply List.sum_pos
    · intro x hx
      obtain ⟨g, hgm, rfl⟩ := List.mem_map.1 hx
      exact (hgp g hgm).1
    · simpa using hne
  have hdivsum : ∀ (l : List K) (T : K), (l.map (· / T)).sum = l.sum / T := by
    intro l T
    induction l with
    | nil => simp
    | cons a l ih => simp [ih, add_div]
  -- entry `f` collects the gains of `f`
  have hentry : ∀ (gs : List (Nat × K)) (l : List K) (f : Nat), f < l.length →
      (∀ g ∈ gs, 0 < g.2) → (f ∉ gs.map Prod.fst → (credit l gs).getD f 0 = l.getD f 0) ∧
        (f ∈ gs.map Prod.fst → l.getD f 0 < (credit l gs).getD f 0) ∧
        l.getD f 0 ≤ (credit l gs).getD f 0 := by
    intro gs
    induction gs with
    | nil => intro l f hf _; simp [credit]
    | cons g gs ih =>
      intro l f hf hpos
      have hm : (l.modify g.1 (· + g.2)).getD f 0 = if g.1 = f then l.getD f 0 + g.2 else l.getD f 0 := by
        rw [List.getD_eq_getElem?_getD, List.getElem?_modify, List.getD_eq_getElem?_getD,
          List.getElem?_eq_getElem hf]
        by_cases e : g.1 = f <;> simp [e]
      obtain ⟨i1, i2, i3⟩ := ih (l.modify g.1 (· + g.2)) f (by simpa using hf)
        (fun g' hg' => hpos g' (by simp [hg']))
      have hc : credit l (g :: gs) = credit (l.modify g.1 (· + g.2)) gs := rfl
      have hg0 := hpos g (by simp)
      rw [hc]
      rw [hm] at i1 i2 i3
      refine ⟨?_, ?_, ?_⟩
      · intro hf'
        simp only [List.map_cons, List.mem_cons, not_or] at hf'
        rw [i1 hf'.2, if_neg (fun e => hf'.1 e.symm)]
      · intro hf'
        by_cases e : g.1 = f
        · rw [if_pos e] at i3
          linarith
        · rw [if_neg e] at i2
          exact i2 (by simpa [Ne.symm e] using hf')
      · by_cases e : g.1 = f
        · rw [if_pos e] at i3; linarith
        · rw [if_neg e] at i3; exact i3
  have hentry0 : ∀ f < X.c, (f ∈ root.features ↔ 0 < (credit (List.replicate X.c (0 : K)) gs).getD f 0) := by
    intro f hf
    obtain ⟨e1, e2, -⟩ := hentry gs (List.replicate X.c 0) f (by simpa using hf) (fun g hgm => (hgp g hgm).1)
    have z : (List.replicate X.c (0 : K)).getD f 0 = 0 := by simp [hf]
    rw [z] at e1 e2
    rw [← hg.gains_features]
    constructor
    · exact e2
    · intro hlt
      by_contra hcon
      rw [e1 hcon] at hlt
      exact lt_irrefl _ hlt
  refine ⟨root, _, rfl, rfl, ?_, ?_, ?_, ?_, ?_⟩
  · unfold normalize
    simp only
    split <;> simp [c1]
  · unfold normalize
    simp only
    split
    · rename_i hs
      intro v hv
      obtain ⟨w, hw, rfl⟩ := List.mem_map.1 hv
      exact div_nonneg (c3 w hw) hs.le
    · exact c3
  · intro hs
    have hne : gs ≠ [] := fun e => hs (hgs.2 e)
    unfold normalize
    simp only [hsum0]
    rw [if_pos (hposum hne), hdivsum, c2]
    simp only [List.sum_replicate, smul_zero, zero_add]
    exact div_self (hposum hne).ne'
  · intro hs
    rw [hgs.1 hs]
    unfold normalize credit
    simp
  · intro f hf
    rw [hentry0 f hf]
    unfold normalize
    simp only [hsum0]
    split
    · rename_i hs
      have hf2 : f < (credit (List.replicate X.c (0 : K)) gs).length := by rw [c1]; simpa using hf
      rw [List.getD_eq_getElem?_getD, List.getD_eq_getElem?_getD, List.getElem?_map,
        List.getElem?_eq_getElem hf2]
      simp only [Option.map_some, Option.getD_some]
      exact (div_pos_iff_of_pos_right hs).symm
    · exact Iff.rfl

end

section
variable [LinearOrder α] [Add α] [Sub α] [Mul α] [Div α] [Zero α] [One α] [NatCast α]

/-- **C35** (law-free over a linear order). The split search returns a positive gain attained at
the midpoint of two neighbouring values, and no admissible split between neighbouring values of any
feature gains more; it returns nothing exactly when no admissible split has positive gain. -/
theorem findBestSplit_optimal (log2 : α → α) (srt : (Nat → α) → List Nat → List Nat)
    (hs : ∀ key, SortsAsc key (srt key)) (P : Params α) (nC nF : Nat) (S : List (Sample α)) (parent : α) :
    (∀ f thr dec, findBestSplit log2 srt P nC nF S parent = (some f, thr, dec) →
      f < nF ∧ 0 < dec ∧ dec = gain log2 P nC S parent f thr ∧
      (∃ v, Neighbours S f v ∧ Admissible P S f v ∧ thr = (v.1 + v.2) / ((2 : Nat) : α)) ∧
      ∀ f' < nF, ∀ v, Neighbours S f' v → Admissible P S f' v →
        gain log2 P nC S parent f' ((v.1 + v.2) / ((2 : Nat) : α)) ≤ dec) ∧
    ((findBestSplit log2 srt P nC nF S parent).1 = none ↔
      ∀ f' < nF, ∀ v, Neighbours S f' v → Admissible P S f' v →
        gain log2 P nC S parent f' ((v.1 + v.2) / ((2 : Nat) : α)) ≤ 0) := by
  have hcand : ∀ f v, Neighbours S f v → f < nF → (f, v) ∈ candidates srt nF S := by
    rintro f ⟨a, b⟩ ⟨hab, ⟨s, hs1, rfl⟩, ⟨s', hs2, rfl⟩, hno⟩ hf
    obtain ⟨p1, p2⟩ := sortedValues_spec srt hs S f
    unfold candidates
    refine List.mem_flatMap.2 ⟨f, List.mem_range.2 hf, List.mem_map.2 ⟨_, ?_, rfl⟩⟩
    apply adjacent_of_sorted _ p2 _ _ (p1.mem_iff.2 (List.mem_map.2 ⟨s, hs1, rfl⟩))
      (p1.mem_iff.2 (List.mem_map.2 ⟨s', hs2, rfl⟩)) hab
    intro x hx
    obtain ⟨s'', hs3, rfl⟩ := List.mem_map.1 (p1.mem_iff.1 hx)
    exact hno s'' hs3
  have hcand' : ∀ c ∈ candidates srt nF S, c.2.1 ≠ c.2.2 → c.1 < nF ∧ Neighbours S c.1 c.2 := by
    intro c hc hne
    unfold candidates at hc
    obtain ⟨f, hf, hc⟩ := List.mem_flatMap.1 hc
    obtain ⟨v, hv, rfl⟩ := List.mem_map.1 hc
    obtain ⟨p1, p2⟩ := sortedValues_spec srt hs S f
    obtain ⟨m1, m2⟩ := List.of_mem_zip hv
    obtain ⟨i, hi, e⟩ := List.mem_iff_getElem.1 hv
    rw [List.getElem_zip] at e
    have hi1 : i < (sortedValues srt S f).length := by
      rw [List.length_zip] at hi; omega
    have hi2 : i + 1 < (sortedValues srt S f).length := by
      rw [List.length_zip, List.length_tail] at hi; omega
    rw [List.getElem_tail] at e
    have pw := List.pairwise_iff_getElem.1 p2
    have e1 : (sortedValues srt S f)[i] = v.1 := congrArg Prod.fst e
    have e2 : (sortedValues srt S f)[i + 1] = v.2 := congrArg Prod.snd e
    refine ⟨List.mem_range.1 hf, ?_, ?_, ?_, ?_⟩
    · refine lt_of_le_of_ne ?_ hne
      simp only
      rw [← e1, ← e2]
      exact pw i (i + 1) hi1 hi2 (by omega)
    · obtain ⟨s, h1, h2⟩ := List.mem_map.1 (p1.mem_iff.1 m1); exact ⟨s, h1, h2⟩
    · obtain ⟨s, h1, h2⟩ := List.mem_map.1 (p1.mem_iff.1 (List.mem_of_mem_tail m2)); exact ⟨s, h1, h2⟩
    · rintro s hs' ⟨hlt1, hlt2⟩
      have hm : s.1 f ∈ sortedValues srt S f := p1.mem_iff.2 (List.mem_map.2 ⟨s, hs', rfl⟩)
      obtain ⟨j, hj, ej⟩ := List.mem_iff_getElem.1 hm
      simp only at hlt1 hlt2
      rw [← ej] at hlt1 hlt2
      rw [← e1] at hlt1
      rw [← e2] at hlt2
      by_cases hji : j ≤ i
      · rcases Nat.lt_or_eq_of_le hji with h | h
        · exact absurd (pw j i hj hi1 h) (not_le.2 hlt1)
        · subst h; exact lt_irrefl _ hlt1
      · rcases Nat.lt_or_eq_of_le (show i + 1 ≤ j by omega) with h | h
        · exact absurd (pw (i + 1) j hi2 hj h) (not_le.2 hlt2)
        · subst h; exact lt_irrefl _ hlt2
  have hspec := findBestSplit_spec log2 srt P nC nF S parent
  simp only at hspec
  rcases hspec with ⟨e, h⟩ | ⟨c, hc, ha, h0, e, h⟩
  · constructor
    · intro f thr dec hb; rw [e] at hb; simp at hb
    · rw [e]
      refine ⟨fun _ f' hf' v hv hadm => h (f', v) (hcand f' v hv hf') hadm, fun _ => rfl⟩
  · obtain ⟨hcf, hcn⟩ := hcand' c hc ha.1
    constructor
    · intro f thr dec hb
      rw [e] at hb
      simp only [Prod.mk.injEq, Option.some.injEq] at hb
      obtain ⟨rfl, rfl, rfl⟩ := hb
      exact ⟨hcf, h0, rfl, ⟨c.2, hcn, ha, rfl⟩,
        fun f' hf' v hv hadm => h (f', v) (hcand f' v hv hf') hadm⟩
    · rw [e]
      constructor
      · intro hb; simp at hb
      · intro hall
        exact absurd (hall c.1 hcf c.2 hcn ha) (not_le.2 h0)

/-- **C73** (law-free over a linear order). The fitted classifier does not depend on the order of
the training rows, on how `sort.Slice` arranges equal values, or on map iteration order. -/
theorem fit_order_independent (log2 : α → α) (toInt : α → Int)
    (srt srt' : (Nat → α) → List Nat → List Nat) (hs : ∀ key, SortsAsc key (srt key))
    (hs' : ∀ key, SortsAsc key (srt' key)) (iter iter' : List Int → List Int)
    (hi : MapKeys iter) (hi' : MapKeys iter') (P : Params α) (fuel : Nat) (X y : Mat α) (t : Clf α)
    (σ : Nat → Nat) (hσ : ((List.range X.r).map σ).Perm (List.range X.r)) :
    t.fit log2 toInt srt' iter' P fuel (reorder σ X) (reorder σ y)
      = t.fit log2 toInt srt iter P fuel X y := by
  unfold Clf.fit
  by_cases h1 : X.r = y.r
  · have hcls : extractClasses toInt iter' (reorder σ y) = extractClasses toInt iter y := by
      have p : (extractClasses toInt iter' (reorder σ y)).Perm (extractClasses toInt iter y) := by
        rw [List.perm_ext_iff_of_nodup (classes_nodup _ _ hi' _) (classes_nodup _ _ hi _)]
        intro c
        rw [mem_classes _ _ hi', mem_classes _ _ hi]
        constructor
        · rintro ⟨i, hir, e⟩
          have hm : σ i ∈ List.range X.r :=
            hσ.mem_iff.1 (List.mem_map.2 ⟨i, List.mem_range.2 (by rw [h1]; exact hir), rfl⟩)
          exact ⟨σ i, by rw [← h1]; exact List.mem_range.1 hm, e⟩
        · rintro ⟨i, hir, e⟩
          have hm : i ∈ (List.range X.r).map σ := hσ.mem_iff.2 (List.mem_range.2 (by omega))
          obtain ⟨j, hj, rfl⟩ := List.mem_map.1 hm
          exact ⟨j, by rw [List.mem_range, h1] at hj; exact hj, e⟩
      have s1 : (extractClasses toInt iter' (reorder σ y)).Pairwise (· ≤ ·) :=
        List.pairwise_insertionSort (· ≤ ·) _
      have s2 : (extractClasses toInt iter y).Pairwise (· ≤ ·) :=
        List.pairwise_insertionSort (· ≤ ·) _
      exact List.Perm.eq_of_pairwise (fun a b _ _ g1 g2 => le_antisymm g1 g2) s1 s2 p
    have hsam : (samples toInt (extractClasses toInt iter y) (reorder σ X) (reorder σ y)).Perm
        (samples toInt (extractClasses toInt iter y) X y) := by
      unfold samples
      have := hσ.map (fun i => ((fun j => X.at' i j,
        ((extractClasses toInt iter y).idxOf? (toInt (y.at' i 0))).getD 0) : Sample α))
      rw [List.map_map] at this
      exact this
    rw [hcls]
    simp only
    rw [build_perm log2 srt' srt hs' hs P _ _ fuel _ _ hsam]
    rfl
  · rw [if_pos h1, if_pos (show ¬ (reorder σ X).r = (reorder σ y).r from h1)]

end

/-! ## C35: impurity, exact real arithmetic, both criteria -/

/-- **C35**. Gini impurity and entropy are non-negative, and zero exactly on nodes whose samples
all have one class. -/
theorem impurity_nonneg_and_pure (crit : String) (nC : Nat) (S : List (Sample ℝ))
    (hr : InRange nC S) (hne : S ≠ []) :
    0 ≤ impurity rlog2 crit (classCounts nC S) ∧
    (impurity rlog2 crit (classCounts nC S) = 0 ↔ OneClass S) := by
  rw [impurity_samples crit nC S hr hne]
  have hn : (0 : ℝ) < (S.length : ℝ) := by exact_mod_cast List.length_pos_iff.2 hne
  have hp : ∀ k, (0 : ℝ) ≤ (S.countP (fun s => decide (s.2 = k)) : ℝ) / (S.length : ℝ) ∧
      (S.countP (fun s => decide (s.2 = k)) : ℝ) / (S.length : ℝ) ≤ 1 := by
    intro k
    refine ⟨by positivity, (div_le_one hn).2 ?_⟩
    exact_mod_cast List.countP_le_length
  have hnn : ∀ x ∈ (List.range nC).map (fun k => phi crit
      ((S.countP (fun s => decide (s.2 = k)) : ℝ) / (S.length : ℝ))), 0 ≤ x := by
    intro x hx
    obtain ⟨k, -, rfl⟩ := List.mem_map.1 hx
    exact phi_nonneg _ _ (hp k).1 (hp k).2
  refine ⟨List.sum_nonneg hnn, ?_⟩
  constructor
  · intro h0
    have hall : ∀ k < nC, S.countP (fun s => decide (s.2 = k)) = 0 ∨
        S.countP (fun s => decide (s.2 = k)) = S.length := by
      intro k hk
      have hz : phi crit ((S.countP (fun s => decide (s.2 = k)) : ℝ) / (S.length : ℝ)) = 0 := by
        have hle := List.single_le_sum hnn _ (List.mem_map.2 ⟨k, List.mem_range.2 hk, rfl⟩)
        rw [h0] at hle
        exact le_antisymm hle (phi_nonneg _ _ (hp k).1 (hp k).2)
      rcases (phi_eq_zero _ _ (hp k).1 (hp k).2).1 hz with h | h
      · left
        rcases div_eq_zero_iff.1 h with h | h
        · exact_mod_cast h
        · exact absurd h hn.ne'
      · right
        rw [div_eq_one_iff_eq hn.ne'] at h
        exact_mod_cast h
    intro s hs s' hs'
    rcases hall s.2 (hr s hs) with h | h
    · rw [List.countP_eq_zero] at h
      exact absurd (by simp) (h s hs)
    · rw [List.countP_eq_length] at h
      have := h s' hs'
      simp only [decide_eq_true_eq] at this
      exact this.symm
  · intro hone
    apply List.sum_eq_zero
    intro x hx
    obtain ⟨k, -, rfl⟩ := List.mem_map.1 hx
    rw [phi_eq_zero _ _ (hp k).1 (hp k).2]
    obtain ⟨s0, hs0⟩ := List.exists_mem_of_ne_nil _ hne
    by_cases hk : s0.2 = k
    · right
      rw [div_eq_one_iff_eq hn.ne']
      have : S.countP (fun s => decide (s.2 = k)) = S.length := by
        rw [List.countP_eq_length]
        intro s hs
        simp only [decide_eq_true_eq]
        rw [hone s hs s0 hs0, hk]
      exact_mod_cast this
    · left
      have : S.countP (fun s => decide (s.2 = k)) = 0 := by
        rw [List.countP_eq_zero]
        intro s hs
        simp only [decide_eq_true_eq]
        rw [hone s hs s0 hs0]; exact hk
      rw [this]; simp

/-- **C35**. No split increases the weighted impurity: the gain of splitting at any threshold of
any feature is non-negative, for Gini and for entropy. -/
theorem gain_nonneg (P : Params ℝ) (nC : Nat) (S : List (Sample ℝ)) (hr : InRange nC S)
    (hne : S ≠ []) (f : Nat) (thr : ℝ) :
    0 ≤ gain rlog2 P nC S (impurity rlog2 P.criterion (classCounts nC S)) f thr := by
  have hlen := length_left_right S f thr
  have hpos := List.length_pos_iff.2 hne
  by_cases hL : (leftOf S f thr).length = 0
  · exact (gain_zero_of_empty rlog2 P nC S 0 (by omega) f thr (Or.inl hL)).ge
  by_cases hR : (rightOf S f thr).length = 0
  · exact (gain_zero_of_empty rlog2 P nC S 0 (by omega) f thr (Or.inr hR)).ge
  have hL0 : leftOf S f thr ≠ [] := fun e => hL (by rw [e]; rfl)
  have hR0 : rightOf S f thr ≠ [] := fun e => hR (by rw [e]; rfl)
  have hn : (0 : ℝ) < (S.length : ℝ) := by exact_mod_cast hpos
  have hp : (0 : ℝ) < ((leftOf S f thr).length : ℝ) := by exact_mod_cast Nat.pos_of_ne_zero hL
  have hq : (0 : ℝ) < ((rightOf S f thr).length : ℝ) := by exact_mod_cast Nat.pos_of_ne_zero hR
  unfold gain
  rw [impurity_samples _ nC S hr hne, impurity_samples _ nC _ (hr.left f thr) hL0,
    impurity_samples _ nC _ (hr.right f thr) hR0]
  have key := concave_sum (phi P.criterion) (leftOf S f thr).length (rightOf S f thr).length
    (fun k => (leftOf S f thr).countP (fun s => decide (s.2 = k)))
    (fun k => (rightOf S f thr).countP (fun s => decide (s.2 = k))) (List.range nC)
    (fun k _ => phi_term _ _ _ _ _ (Nat.cast_nonneg _) (Nat.cast_nonneg _) hp hq)
  have e1 : ((leftOf S f thr).length : ℝ) + ((rightOf S f thr).length : ℝ) = (S.length : ℝ) := by
    exact_mod_cast hlen
  rw [e1] at key
  have e2 : (List.range nC).map (fun k => phi P.criterion
      ((((leftOf S f thr).countP (fun s => decide (s.2 = k)) : ℝ)
        + ((rightOf S f thr).countP (fun s => decide (s.2 = k)) : ℝ)) / (S.length : ℝ)))
      = (List.range nC).map (fun k => phi P.criterion
          ((S.countP (fun s => decide (s.2 = k)) : ℝ) / (S.length : ℝ))) := by
    apply List.map_congr_left
    intro k _
    have := countP_split S f thr k
    rw [this]; push_cast; rfl
  rw [e2] at key
  rw [sub_nonneg, div_le_iff₀ hn]
  linarith

/-! ## Concrete cases -/

section
/-- four rows, two features; feature 1 separates the classes 5 and 7 -/
private def exX : Mat ℚ := Mat.ofRows [[1, 0], [2, 0], [1, 1], [3, 1]] 2 0
/-- targets for the examples -/
private def exY : Mat ℚ := Mat.ofRows [[5], [5], [7], [7]] 1 0
/-- parameters for the examples -/
private def exP : Params ℚ := ⟨"gini", 0, 2, 1, 0⟩

/-- the tree has one split at 1/2 on feature 1, the premises of the theorems above are met -/
example : ((Clf.new : Clf ℚ).fit (fun x => x) (fun x => x.floor) stableAsc List.dedup exP 4 exX exY).map
    (fun r => (r.1.tree.map (fun t => (t.features, t.leaves.map (·.counts))), r.2.isOk))
    = some (some ([1], [[2, 0], [0, 2]]), true) := by decide +kernel

/-- classes and importances -/
example : ((Clf.new : Clf ℚ).fit (fun x => x) (fun x => x.floor) stableAsc List.dedup exP 4 exX exY).map
    (fun r => (r.1.classes, r.1.importances)) = some ([5, 7], some [0, 1]) := by decide +kernel

/-- predictions on an unseen row -/
example : ((Clf.new : Clf ℚ).fit (fun x => x) (fun x => x.floor) stableAsc List.dedup exP 4 exX exY).map
    (fun r => (r.1.predict (Mat.ofRows [[9, 3]] 2 0), r.1.predictProba (Mat.ofRows [[9, 3]] 2 0)))
    = some (.ok [7], .ok [[0, 1]]) := by decide +kernel

/-- a query that is too narrow panics -/
example : ((Clf.new : Clf ℚ).fit (fun x => x) (fun x => x.floor) stableAsc List.dedup exP 4 exX exY).map
    (fun r => r.1.predict (Mat.ofRows [[9]] 1 0)) = some (.panic "mat: column index out of range") := by
  decide +kernel

/-- a limit of one level and a larger leaf size leave a single leaf -/
example : ((Clf.new : Clf ℚ).fit (fun x => x) (fun x => x.floor) stableAsc List.dedup
    ⟨"gini", 1, 2, 3, 0⟩ 4 exX exY).map (fun r => (r.1.getDepth, r.1.getNLeaves))
    = some (0, 1) := by decide +kernel

/-- rows in another order -/
example : ((List.range exX.r).map (fun i => 3 - i)).Perm (List.range exX.r) := by decide

example : OneClass [((fun _ => 0, 1) : Sample ℝ), (fun _ => 1, 1)] ∧
    ¬ OneClass [((fun _ => 0, 1) : Sample ℝ), (fun _ => 1, 0)] := by
  constructor
  · intro s hs s' hs'
    simp only [List.mem_cons, List.not_mem_nil, or_false] at hs hs'
    rcases hs with rfl | rfl <;> rcases hs' with rfl | rfl <;> rfl
  · intro h
    have := h _ (List.mem_cons_self ..) _ (List.mem_cons_of_mem _ (List.mem_cons_self ..))
    simp at this
end

end Scigo.Tree
