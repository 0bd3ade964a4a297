import Verif.Tree.Lemmas
import Mathlib.Analysis.SpecialFunctions.Log.NegMulLog
import Mathlib.Analysis.SpecialFunctions.Log.Base

set_option linter.unusedSectionVars false

namespace Scigo.Tree

variable {α K : Type _}

section
variable [Add α] [Sub α] [Mul α] [Div α] [Zero α] [One α] [NatCast α]
  [LT α] [LE α] [DecidableLT α] [DecidableLE α] [BEq α]

/-! ## Law-free consequences of `Grown` -/

theorem tryThreshold_feature (log2 : α → α) (P : Params α) (nC : Nat) (S : List (Sample α))
    (parent : α) (f : Nat) (b : Best α) (v : α × α) :
    tryThreshold log2 P nC S parent f b v = b ∨
    (tryThreshold log2 P nC S parent f b v).1 = some f := by
  unfold tryThreshold
  split
  · exact Or.inl rfl
  · simp only
    split
    · exact Or.inl rfl
    · split
      · exact Or.inr rfl
      · exact Or.inl rfl

theorem findBestSplit_lt (log2 : α → α) (srt : (Nat → α) → List Nat → List Nat) (P : Params α)
    (nC nF : Nat) (S : List (Sample α)) (parent : α) (f : Nat) (thr dec : α)
    (h : findBestSplit log2 srt P nC nF S parent = (some f, thr, dec)) : f < nF := by
  have inner : ∀ (vs : List (α × α)) (g : Nat) (b : Best α),
      vs.foldl (tryThreshold log2 P nC S parent g) b = b ∨
      (vs.foldl (tryThreshold log2 P nC S parent g) b).1 = some g := by
    intro vs g
    induction vs with
    | nil => intro b; exact Or.inl rfl
    | cons v vs ih =>
      intro b
      rw [List.foldl_cons]
      rcases ih (tryThreshold log2 P nC S parent g b v) with e | e
      · rw [e]; exact tryThreshold_feature _ _ _ _ _ _ _ _
      · exact Or.inr e
  have outer : ∀ (l : List Nat) (b : Best α), (∀ g, b.1 = some g → g < nF) → (∀ g ∈ l, g < nF) →
      ∀ g, (l.foldl (fun best feature =>
        let vs := sortedValues srt S feature
        (vs.zip vs.tail).foldl (tryThreshold log2 P nC S parent feature) best) b).1 = some g → g < nF := by
    intro l
    induction l with
    | nil => intro b hb _ g hg; exact hb g hg
    | cons x l ih =>
      intro b hb hl
      rw [List.foldl_cons]
      apply ih _ _ (fun g hg => hl g (by simp [hg]))
      intro g hg
      simp only at hg
      rcases inner ((sortedValues srt S x).zip (sortedValues srt S x).tail) x b with e | e
      · rw [e] at hg; exact hb g hg
      · rw [e] at hg
        injection hg with hg
        subst hg
        exact hl _ (by simp)
  apply outer (List.range nF) (none, 0, 0) (by simp) (by simp) f
  change (findBestSplit log2 srt P nC nF S parent).1 = _
  rw [h]

theorem InRange.left {n : Nat} {S : List (Sample α)} (h : InRange n S) (f : Nat) (thr : α) :
    InRange n (leftOf S f thr) := fun s hs => h s (List.mem_filter.1 hs).1

theorem InRange.right {n : Nat} {S : List (Sample α)} (h : InRange n S) (f : Nat) (thr : α) :
    InRange n (rightOf S f thr) := fun s hs => h s (List.mem_filter.1 hs).1

variable {log2 : α → α} {srt : (Nat → α) → List Nat → List Nat} {P : Params α} {nC nF : Nat}

theorem Grown.leaf_sum {S : List (Sample α)} {d : Nat} {t : DTree α} {gs : List (Nat × α)}
    (h : Grown log2 srt P nC nF S d t gs) : (t.leaves.map (·.nSamples)).sum = S.length := by
  induction h with
  | leaf S d => simp [DTree.leaves, mkInfo]
  | split S d f thr dec l r gl gr _ _ _ _ _ _ _ _ _ ih1 ih2 =>
    simp only [DTree.leaves, List.map_append, List.sum_append, ih1, ih2]
    exact length_left_right S f thr

theorem Grown.leaf_min {S : List (Sample α)} {d : Nat} {t : DTree α} {gs : List (Nat × α)}
    (h : Grown log2 srt P nC nF S d t gs) (hS : P.minSamplesLeaf ≤ S.length) :
    ∀ i ∈ t.leaves, P.minSamplesLeaf ≤ i.nSamples := by
  induction h with
  | leaf S d => simpa [DTree.leaves, mkInfo] using hS
  | split S d f thr dec l r gl gr _ _ _ hL hR _ _ _ _ ih1 ih2 =>
    intro i hi
    rcases List.mem_append.1 hi with hi | hi
    · exact ih1 hL i hi
    · exact ih2 hR i hi

theorem Grown.leaf_pos {S : List (Sample α)} {d : Nat} {t : DTree α} {gs : List (Nat × α)}
    (h : Grown log2 srt P nC nF S d t gs) (hS : S ≠ []) : ∀ i ∈ t.leaves, 0 < i.nSamples := by
  induction h with
  | leaf S d => simpa [DTree.leaves, mkInfo] using List.length_pos_iff.2 hS
  | split S d f thr dec l r gl gr _ _ _ _ _ hL hR _ _ ih1 ih2 =>
    intro i hi
    rcases List.mem_append.1 hi with hi | hi
    · exact ih1 hL i hi
    · exact ih2 hR i hi

theorem Grown.split_min {S : List (Sample α)} {d : Nat} {t : DTree α} {gs : List (Nat × α)}
    (h : Grown log2 srt P nC nF S d t gs) :
    ∀ i ∈ t.splits, P.minSamplesSplit ≤ i.nSamples ∧ (i.impurity == 0) = false := by
  induction h with
  | leaf S d => simp [DTree.splits]
  | split S d f thr dec l r gl gr hstop _ _ _ _ _ _ _ _ ih1 ih2 =>
    intro i hi
    simp only [DTree.splits, List.mem_cons, List.mem_append] at hi
    rcases hi with rfl | hi | hi
    · simp only [shouldStop, Bool.or_eq_false_iff] at hstop
      refine ⟨?_, hstop.2⟩
      have := hstop.1.2
      simp only [decide_eq_false_iff_not, not_lt] at this
      exact this
    · exact ih1 i hi
    · exact ih2 i hi

theorem Grown.depth {S : List (Sample α)} {d : Nat} {t : DTree α} {gs : List (Nat × α)}
    (h : Grown log2 srt P nC nF S d t gs) (hm : 0 < P.maxDepth) (hd : (d : Int) ≤ P.maxDepth) :
    (t.maxDepth : Int) ≤ P.maxDepth ∧ ∀ i ∈ t.leaves, (i.depth : Int) ≤ P.maxDepth := by
  induction h with
  | leaf S d => simpa [DTree.leaves, DTree.maxDepth, mkInfo] using hd
  | split S d f thr dec l r gl gr hstop _ _ _ _ _ _ _ _ ih1 ih2 =>
    have hlt : (d : Int) < P.maxDepth := by
      simp only [shouldStop, Bool.or_eq_false_iff, Bool.and_eq_false_iff, decide_eq_false_iff_not] at hstop
      rcases hstop.1.1 with h | h
      · exact absurd hm h
      · exact not_le.1 h
    have h1 := ih1 (by push_cast; omega)
    have h2 := ih2 (by push_cast; omega)
    constructor
    · unfold DTree.maxDepth
      split
      · exact h1.1
      · exact h2.1
    · intro i hi
      rcases List.mem_append.1 hi with hi | hi
      · exact h1.2 i hi
      · exact h2.2 i hi

/-- `GetDepth` is the greatest leaf depth, and leaf depth is the length of the path to it -/
theorem Grown.depth_route {S : List (Sample α)} {d : Nat} {t : DTree α} {gs : List (Nat × α)}
    (h : Grown log2 srt P nC nF S d t gs) (x : Nat → α) :
    (t.route x).2.depth = d + (t.route x).1.length ∧ (t.route x).2 ∈ t.leaves := by
  induction h with
  | leaf S d => simp [DTree.route, DTree.leaves, mkInfo]
  | split S d f thr dec l r gl gr _ _ _ _ _ _ _ _ _ ih1 ih2 =>
    unfold DTree.route DTree.leaves
    split
    · simp only [List.length_cons, List.mem_append]
      exact ⟨by rw [ih1.1]; omega, Or.inl ih1.2⟩
    · simp only [List.length_cons, List.mem_append]
      exact ⟨by rw [ih2.1]; omega, Or.inr ih2.2⟩

theorem DTree.maxDepth_spec (t : DTree α) : (∀ i ∈ t.leaves, i.depth ≤ t.maxDepth) ∧
    ∃ i ∈ t.leaves, i.depth = t.maxDepth := by
  induction t with
  | leaf i => simp [DTree.leaves, DTree.maxDepth]
  | split i f thr l r ih1 ih2 =>
    obtain ⟨a1, i1, hi1, e1⟩ := ih1
    obtain ⟨a2, i2, hi2, e2⟩ := ih2
    unfold DTree.leaves DTree.maxDepth
    split
    · rename_i hlt
      refine ⟨?_, i1, by simp [hi1], e1⟩
      intro j hj
      rcases List.mem_append.1 hj with hj | hj
      · exact a1 j hj
      · have := a2 j hj; omega
    · rename_i hlt
      refine ⟨?_, i2, by simp [hi2], e2⟩
      intro j hj
      rcases List.mem_append.1 hj with hj | hj
      · have := a1 j hj; omega
      · exact a2 j hj

theorem DTree.nLeaves_eq (t : DTree α) : t.nLeaves = t.leaves.length := by
  induction t with
  | leaf i => rfl
  | split i f thr l r ih1 ih2 => simp [DTree.nLeaves, DTree.leaves, ih1, ih2]

theorem Grown.features_lt {S : List (Sample α)} {d : Nat} {t : DTree α} {gs : List (Nat × α)}
    (h : Grown log2 srt P nC nF S d t gs) : ∀ f ∈ t.features, f < nF := by
  induction h with
  | leaf S d => simp [DTree.features]
  | split S d f thr dec l r gl gr _ hb _ _ _ _ _ _ _ ih1 ih2 =>
    intro g hg
    simp only [DTree.features, List.mem_cons, List.mem_append] at hg
    rcases hg with rfl | hg | hg
    · exact findBestSplit_lt _ _ _ _ _ _ _ _ _ _ hb
    · exact ih1 g hg
    · exact ih2 g hg

theorem descend_eq (cols : Nat) (x : Nat → α) (t : DTree α) (h : ∀ f ∈ t.features, f < cols) :
    t.descend cols x = .ok (t.route x).2 := by
  induction t with
  | leaf i => rfl
  | split i f thr l r ih1 ih2 =>
    unfold DTree.descend DTree.route
    rw [if_pos (h f (by simp [DTree.features]))]
    split
    · exact ih1 (fun g hg => h g (by simp [DTree.features, hg]))
    · exact ih2 (fun g hg => h g (by simp [DTree.features, hg]))

/-- every leaf records exactly the training samples routed to it -/
theorem Grown.histogram {S : List (Sample α)} {d : Nat} {t : DTree α} {gs : List (Nat × α)}
    (h : Grown log2 srt P nC nF S d t gs) (x : Nat → α) :
    ∃ d', (t.route x).2
      = mkInfo log2 P nC (S.filter (fun s => decide ((t.route s.1).1 = (t.route x).1))) d' := by
  induction h with
  | leaf S d => exact ⟨d, by simp [DTree.route]⟩
  | split S d f thr dec l r gl gr _ _ _ _ _ _ _ _ _ ih1 ih2 =>
    obtain ⟨d1, e1⟩ := ih1
    obtain ⟨d2, e2⟩ := ih2
    by_cases hx : x f ≤ thr
    · refine ⟨d1, ?_⟩
      have : S.filter (fun s => decide (((DTree.split (mkInfo log2 P nC S d) f thr l r).route s.1).1
          = ((DTree.split (mkInfo log2 P nC S d) f thr l r).route x).1))
          = (leftOf S f thr).filter (fun s => decide ((l.route s.1).1 = (l.route x).1)) := by
        unfold leftOf
        rw [List.filter_filter]
        apply List.filter_congr
        intro s _
        by_cases hs : s.1 f ≤ thr
        · simp [DTree.route, hs, hx]
        · simp [DTree.route, hs, hx]
      rw [this, ← e1]
      conv_lhs => unfold DTree.route
      rw [if_pos hx]
    · refine ⟨d2, ?_⟩
      have : S.filter (fun s => decide (((DTree.split (mkInfo log2 P nC S d) f thr l r).route s.1).1
          = ((DTree.split (mkInfo log2 P nC S d) f thr l r).route x).1))
          = (rightOf S f thr).filter (fun s => decide ((r.route s.1).1 = (r.route x).1)) := by
        unfold rightOf
        rw [List.filter_filter]
        apply List.filter_congr
        intro s _
        by_cases hs : s.1 f ≤ thr
        · simp [DTree.route, hs, hx]
        · simp [DTree.route, hs, hx]
      rw [this, ← e2]
      conv_lhs => unfold DTree.route
      rw [if_neg hx]

theorem Grown.gains_features {S : List (Sample α)} {d : Nat} {t : DTree α} {gs : List (Nat × α)}
    (h : Grown log2 srt P nC nF S d t gs) : gs.map Prod.fst = t.features := by
  induction h with
  | leaf S d => rfl
  | split S d f thr dec l r gl gr _ _ _ _ _ _ _ _ _ ih1 ih2 =>
    simp [DTree.features, ih1, ih2]

theorem rowsM_ok {β : Type _} (f : Nat → Outcome β) (g : Nat → β) (n : Nat)
    (h : ∀ i < n, f i = .ok (g i)) : rowsM f n = .ok ((List.range n).map g) := by
  induction n with
  | zero => rfl
  | succ n ih =>
    rw [rowsM, ih (fun i hi => h i (by omega)), h n (by omega), List.range_succ]
    simp

end

/-! ## The chosen split, over a linear order -/

section
variable [LinearOrder α] [Add α] [Sub α] [Mul α] [Div α] [Zero α] [One α] [NatCast α]

theorem tryThreshold_eq (log2 : α → α) (P : Params α) (nC : Nat) (S : List (Sample α)) (parent : α)
    (f : Nat) (b : Best α) (v : α × α) :
    (Admissible P S f v → tryThreshold log2 P nC S parent f b v =
      if b.2.2 < gain log2 P nC S parent f ((v.1 + v.2) / ((2 : Nat) : α)) then
        (some f, (v.1 + v.2) / ((2 : Nat) : α), gain log2 P nC S parent f ((v.1 + v.2) / ((2 : Nat) : α)))
      else b) ∧
    (¬ Admissible P S f v → tryThreshold log2 P nC S parent f b v = b) := by
  constructor
  · rintro ⟨h1, h2, h3⟩
    unfold tryThreshold
    rw [if_neg (by simpa using h1)]
    simp only [sideCounts_eq]
    rw [if_neg (by push Not; exact ⟨h2, h3⟩)]
    rfl
  · intro h
    unfold tryThreshold
    split
    · rfl
    · rename_i hne
      simp only [sideCounts_eq]
      rw [if_pos]
      by_contra hcon
      push Not at hcon
      exact h ⟨by simpa using hne, hcon.1, hcon.2⟩

/-- all candidates in the order they are tried -/
def candidates (srt : (Nat → α) → List Nat → List Nat) (nF : Nat) (S : List (Sample α)) :
    List (Nat × (α × α)) :=
  (List.range nF).flatMap (fun f =>
    ((sortedValues srt S f).zip (sortedValues srt S f).tail).map (fun v => (f, v)))

theorem findBestSplit_flat (log2 : α → α) (srt : (Nat → α) → List Nat → List Nat) (P : Params α)
    (nC nF : Nat) (S : List (Sample α)) (parent : α) :
    findBestSplit log2 srt P nC nF S parent
      = (candidates srt nF S).foldl (fun b c => tryThreshold log2 P nC S parent c.1 b c.2) (none, 0, 0) := by
  unfold findBestSplit candidates
  rw [List.foldl_flatMap]
  simp only [List.foldl_map]

theorem findBestSplit_spec (log2 : α → α) (srt : (Nat → α) → List Nat → List Nat) (P : Params α)
    (nC nF : Nat) (S : List (Sample α)) (parent : α) :
    let mid := fun v : α × α => (v.1 + v.2) / ((2 : Nat) : α)
    let r := findBestSplit log2 srt P nC nF S parent
    (r = (none, 0, 0) ∧ ∀ c ∈ candidates srt nF S, Admissible P S c.1 c.2 →
        gain log2 P nC S parent c.1 (mid c.2) ≤ 0) ∨
    (∃ c ∈ candidates srt nF S, Admissible P S c.1 c.2 ∧
      0 < gain log2 P nC S parent c.1 (mid c.2) ∧
      r = (some c.1, mid c.2, gain log2 P nC S parent c.1 (mid c.2)) ∧
      ∀ c' ∈ candidates srt nF S, Admissible P S c'.1 c'.2 →
        gain log2 P nC S parent c'.1 (mid c'.2) ≤ gain log2 P nC S parent c.1 (mid c.2)) := by
  intro mid r
  have hr : r = (candidates srt nF S).foldl
      (fun b c => tryThreshold log2 P nC S parent c.1 b c.2) (none, 0, 0) := findBestSplit_flat _ _ _ _ _ _ _
  rw [hr]
  induction (candidates srt nF S) using List.reverseRecOn with
  | nil => left; simp
  | append_singleton cs c ih =>
    rw [List.foldl_append]
    simp only [List.foldl_cons, List.foldl_nil]
    set b := cs.foldl (fun b c => tryThreshold log2 P nC S parent c.1 b c.2) (none, 0, 0) with hb
    by_cases hadm : Admissible P S c.1 c.2
    · rw [(tryThreshold_eq log2 P nC S parent c.1 b c.2).1 hadm]
      by_cases hlt : b.2.2 < gain log2 P nC S parent c.1 (mid c.2)
      · rw [if_pos hlt]
        right
        have hb0 : 0 ≤ b.2.2 := by
          rcases ih with ⟨e, -⟩ | ⟨c', -, -, h0, e, -⟩
          · rw [e]
          · rw [e]; exact h0.le
        refine ⟨c, by simp, hadm, lt_of_le_of_lt hb0 hlt, rfl, ?_⟩
        intro c' hc' hadm'
        rcases List.mem_append.1 hc' with hc' | hc'
        · rcases ih with ⟨e, h⟩ | ⟨c'', -, -, h0, e, h⟩
          · rw [e] at hlt; exact (h c' hc' hadm').trans hlt.le
          · rw [e] at hlt; exact (h c' hc' hadm').trans hlt.le
        · simp at hc'; rw [hc']
      · rw [if_neg hlt]
        rcases ih with ⟨e, h⟩ | ⟨c'', hm, ha, h0, e, h⟩
        · left
          refine ⟨e, ?_⟩
          intro c' hc' hadm'
          rcases List.mem_append.1 hc' with hc' | hc'
          · exact h c' hc' hadm'
          · simp at hc'; rw [hc']; rw [e] at hlt; exact not_lt.1 hlt
        · right
          refine ⟨c'', by simp [hm], ha, h0, e, ?_⟩
          intro c' hc' hadm'
          rcases List.mem_append.1 hc' with hc' | hc'
          · exact h c' hc' hadm'
          · simp at hc'; rw [hc']; rw [e] at hlt; exact not_lt.1 hlt
    · rw [(tryThreshold_eq log2 P nC S parent c.1 b c.2).2 hadm]
      rcases ih with ⟨e, h⟩ | ⟨c'', hm, ha, h0, e, h⟩
      · left
        refine ⟨e, ?_⟩
        intro c' hc' hadm'
        rcases List.mem_append.1 hc' with hc' | hc'
        · exact h c' hc' hadm'
        · simp at hc'; rw [hc'] at hadm'; exact absurd hadm' hadm
      · right
        refine ⟨c'', by simp [hm], ha, h0, e, ?_⟩
        intro c' hc' hadm'
        rcases List.mem_append.1 hc' with hc' | hc'
        · exact h c' hc' hadm'
        · simp at hc'; rw [hc'] at hadm'; exact absurd hadm' hadm

/-- in a sorted list, two values with nothing in between stand next to each other -/
theorem adjacent_of_sorted (l : List α) (h : l.Pairwise (· ≤ ·)) (a b : α) (ha : a ∈ l) (hb : b ∈ l)
    (hab : a < b) (hno : ∀ x ∈ l, ¬ (a < x ∧ x < b)) : (a, b) ∈ l.zip l.tail := by
  induction l with
  | nil => simp at ha
  | cons x l ih =>
    cases l with
    | nil =>
      simp at ha hb
      rw [ha, hb] at hab; exact absurd hab (lt_irrefl _)
    | cons y l =>
      simp only [List.tail_cons, List.zip_cons_cons, List.mem_cons]
      have hx := (List.pairwise_cons.1 h).1
      have hp := (List.pairwise_cons.1 h).2
      by_cases hal : a ∈ y :: l
      · have hbl : b ∈ y :: l := by
          rcases List.mem_cons.1 hb with rfl | hb
          · exact absurd (hx a hal) (not_le.2 hab)
          · exact hb
        right
        exact ih hp hal hbl (fun z hz => hno z (by simp [List.mem_cons.1 hz]))
      · have hax : a = x := by
          rcases List.mem_cons.1 ha with h | h
          · exact h
          · exact absurd h hal
        subst hax
        have hbl : b ∈ y :: l := by
          rcases List.mem_cons.1 hb with h | h
          · rw [h] at hab; exact absurd hab (lt_irrefl _)
          · exact h
        have hay : a < y := lt_of_le_of_ne (hx y (by simp)) (fun e => hal (by simp [e]))
        have hyb : y ≤ b := by
          rcases List.mem_cons.1 hbl with h | h
          · exact h.ge
          · exact (List.pairwise_cons.1 hp).1 b h
        left
        have := hno y (by simp)
        have hby : b ≤ y := by
          by_contra hcon
          exact this ⟨hay, not_le.1 hcon⟩
        rw [le_antisymm hyb hby]

theorem sortedValues_spec (srt : (Nat → α) → List Nat → List Nat) (hs : ∀ key, SortsAsc key (srt key))
    (S : List (Sample α)) (f : Nat) :
    (sortedValues srt S f).Perm (S.map (fun s => s.1 f)) ∧ (sortedValues srt S f).Pairwise (· ≤ ·) := by
  unfold sortedValues
  simp only
  obtain ⟨h1, h2⟩ := hs (fun i => (S.map (fun s => s.1 f)).getD i 0) (List.range S.length)
  constructor
  · refine (h1.map _).trans ?_
    have : (List.range S.length).map (fun i => (S.map (fun s => s.1 f)).getD i 0) = S.map (fun s => s.1 f) := by
      apply List.ext_getElem
      · simp
      · intro i g1 g2
        simp only [List.length_map, List.length_range] at g1
        simp [g1]
    rw [this]
  · rw [List.pairwise_map]
    exact h2.imp (fun h => not_lt.1 h)

theorem sortedValues_perm (srt srt' : (Nat → α) → List Nat → List Nat)
    (hs : ∀ key, SortsAsc key (srt key)) (hs' : ∀ key, SortsAsc key (srt' key))
    (S S' : List (Sample α)) (hp : S.Perm S') (f : Nat) :
    sortedValues srt S f = sortedValues srt' S' f := by
  obtain ⟨p1, s1⟩ := sortedValues_spec srt hs S f
  obtain ⟨p2, s2⟩ := sortedValues_spec srt' hs' S' f
  exact List.Perm.eq_of_pairwise (fun a b _ _ h1 h2 => le_antisymm h1 h2) s1 s2
    (p1.trans ((hp.map _).trans p2.symm))

theorem classCounts_perm (n : Nat) (S S' : List (Sample α)) (hp : S.Perm S') :
    classCounts n S = classCounts n S' := by
  rw [classCounts_eq, classCounts_eq]
  apply List.map_congr_left
  intro k _
  exact hp.countP_eq _

theorem sideCounts_perm (n : Nat) (S S' : List (Sample α)) (hp : S.Perm S') (f : Nat) (thr : α) :
    sideCounts n S f thr = sideCounts n S' f thr := by
  rw [sideCounts_eq, sideCounts_eq]
  have h1 : (leftOf S f thr).Perm (leftOf S' f thr) := hp.filter _
  have h2 : (rightOf S f thr).Perm (rightOf S' f thr) := hp.filter _
  rw [classCounts_perm n _ _ h1, classCounts_perm n _ _ h2, h1.length_eq, h2.length_eq]

theorem findBestSplit_perm (log2 : α → α) (srt srt' : (Nat → α) → List Nat → List Nat)
    (hs : ∀ key, SortsAsc key (srt key)) (hs' : ∀ key, SortsAsc key (srt' key)) (P : Params α)
    (nC nF : Nat) (S S' : List (Sample α)) (hp : S.Perm S') (parent : α) :
    findBestSplit log2 srt P nC nF S parent = findBestSplit log2 srt' P nC nF S' parent := by
  unfold findBestSplit
  congr 1
  funext best f
  rw [sortedValues_perm srt srt' hs hs' S S' hp f]
  have : tryThreshold log2 P nC S parent f = tryThreshold log2 P nC S' parent f := by
    funext b v
    unfold tryThreshold
    simp only [sideCounts_perm nC S S' hp, hp.length_eq]
  rw [this]

theorem build_perm (log2 : α → α) (srt srt' : (Nat → α) → List Nat → List Nat)
    (hs : ∀ key, SortsAsc key (srt key)) (hs' : ∀ key, SortsAsc key (srt' key)) (P : Params α)
    (nC nF : Nat) (fuel : Nat) : ∀ (S S' : List (Sample α)) (_ : S.Perm S') (d : Nat) (imps : List α),
    build log2 srt P nC nF fuel S d imps = build log2 srt' P nC nF fuel S' d imps := by
  induction fuel with
  | zero => intros; rfl
  | succ fuel ih =>
    intro S S' hp d imps
    have hinfo : mkInfo log2 P nC S d = mkInfo log2 P nC S' d := by
      unfold mkInfo
      rw [classCounts_perm nC S S' hp, hp.length_eq]
    rw [build, build]
    simp only [hinfo, hp.length_eq, findBestSplit_perm log2 srt srt' hs hs' P nC nF S S' hp]
    split
    · rfl
    · split
      · rfl
      · rename_i f thr dec _
        have h1 : (leftOf S f thr).Perm (leftOf S' f thr) := hp.filter _
        have h2 : (rightOf S f thr).Perm (rightOf S' f thr) := hp.filter _
        simp only [h1.length_eq, h2.length_eq, ih _ _ h1, ih _ _ h2]

theorem Grown.gains_pos {log2 : α → α} {srt : (Nat → α) → List Nat → List Nat} {P : Params α}
    {nC nF : Nat} {S : List (Sample α)} {d : Nat} {t : DTree α} {gs : List (Nat × α)}
    (h : Grown log2 srt P nC nF S d t gs) : ∀ g ∈ gs, ∃ dec : α, ∃ n : Nat, 0 < dec ∧ 0 < n ∧
      g.2 = dec * (n : α) ∧ g.1 < nF := by
  induction h with
  | leaf S d => simp
  | split S d f thr dec l r gl gr _ hb _ _ _ hL0 _ _ _ ih1 ih2 =>
    intro g hg
    simp only [List.mem_cons, List.mem_append] at hg
    rcases hg with rfl | hg | hg
    · refine ⟨dec, S.length, ?_, ?_, rfl, findBestSplit_lt _ _ _ _ _ _ _ _ _ _ hb⟩
      · have := findBestSplit_spec log2 srt P nC nF S (mkInfo log2 P nC S d).impurity
        simp only [hb] at this
        rcases this with ⟨e, -⟩ | ⟨c, -, -, h0, e, -⟩
        · simp at e
        · simp only [Prod.mk.injEq] at e
          rw [e.2.2]; exact h0
      · have h1 := length_left_right S f thr
        have h2 := List.length_pos_iff.2 hL0
        omega
    · exact ih1 g hg
    · exact ih2 g hg

end

/-! ## Exact arithmetic -/

section
variable [Field K] [LinearOrder K] [IsStrictOrderedRing K]

theorem credit_sum (gs : List (Nat × K)) (l : List K) (h : ∀ g ∈ gs, g.1 < l.length) :
    (credit l gs).length = l.length ∧ (credit l gs).sum = l.sum + (gs.map Prod.snd).sum := by
  have modsum : ∀ (l : List K) (k : Nat) (v : K), k < l.length →
      (l.modify k (· + v)).sum = l.sum + v := by
    intro l
    induction l with
    | nil => intro k v hk; simp at hk
    | cons a l ih =>
      intro k v hk
      cases k with
      | zero => simp; ring
      | succ k => simp [ih k v (by simpa using hk)]; ring
  induction gs generalizing l with
  | nil => simp [credit]
  | cons g gs ih =>
    have := ih (l.modify g.1 (· + g.2)) (by intro g' hg'; simpa using h g' (by simp [hg']))
    unfold credit at this ⊢
    rw [List.foldl_cons]
    refine ⟨by rw [this.1, List.length_modify], ?_⟩
    rw [this.2, modsum _ _ _ (h g (by simp)), List.map_cons, List.sum_cons]; ring

theorem credit_nonneg (gs : List (Nat × K)) (l : List K) (hg : ∀ g ∈ gs, 0 ≤ g.2)
    (h : ∀ x ∈ l, 0 ≤ x) : ∀ x ∈ credit l gs, 0 ≤ x := by
  induction gs generalizing l with
  | nil => exact h
  | cons g gs ih =>
    unfold credit
    rw [List.foldl_cons]
    apply ih _ (fun g' hg' => hg g' (by simp [hg']))
    intro x hx
    obtain ⟨i, hi, rfl⟩ := List.mem_iff_getElem.1 hx
    rw [List.getElem_modify]
    have hi' : i < l.length := by simpa using hi
    have h1 := h l[i] (List.getElem_mem hi')
    split
    · exact add_nonneg h1 (hg g (by simp))
    · exact h1

theorem foldl_gini (counts : List Nat) (T a : K) :
    counts.foldl (fun (acc : K) (c : Nat) => if 0 < c then let p : K := (c : K) / T; acc + p * p else acc) a
      = a + (counts.map (fun c : Nat => ((c : K) / T) ^ 2)).sum := by
  induction counts generalizing a with
  | nil => simp
  | cons c cs ih =>
    rw [List.foldl_cons, ih, List.map_cons, List.sum_cons]
    by_cases h : 0 < c
    · simp only [h, if_true]; ring
    · have : c = 0 := by omega
      simp [this]

theorem gini_eq (log2 : K → K) (crit : String) (hcrit : crit ≠ "entropy") (counts : List Nat)
    (hT : counts.sum ≠ 0) :
    impurity log2 crit counts
      = (counts.map (fun c : Nat => (c : K) / (counts.sum : K) - ((c : K) / (counts.sum : K)) ^ 2)).sum := by
  unfold impurity
  simp only [foldl_add_nat, if_neg hT, if_neg hcrit]
  rw [foldl_gini]
  have hT' : (counts.sum : K) ≠ 0 := by exact_mod_cast hT
  have h1 : (counts.map (fun c : Nat => (c : K) / (counts.sum : K))).sum = 1 := by
    have aux : ∀ (l : List Nat) (T : K), (l.map (fun c : Nat => (c : K) / T)).sum = (l.sum : K) / T := by
      intro l T
      induction l with
      | nil => simp
      | cons a l ih => simp [ih, add_div]
    rw [aux, div_self hT']
  have h2 : ∀ (l : List Nat) (f g : Nat → K),
      (l.map (fun c => f c - g c)).sum = (l.map f).sum - (l.map g).sum := by
    intro l f g
    induction l with
    | nil => simp
    | cons a l ih => simp [ih]; ring
  rw [h2, h1]; ring

/-- the sides of a split that improves anything are not empty, in exact arithmetic -/
theorem gain_zero_of_empty (log2 : K → K) (P : Params K) (nC : Nat) (S : List (Sample K)) (d : Nat)
    (hS : S.length ≠ 0) (f : Nat) (thr : K)
    (h : (leftOf S f thr).length = 0 ∨ (rightOf S f thr).length = 0) :
    gain log2 P nC S (mkInfo log2 P nC S d).impurity f thr = 0 := by
  have hn : (S.length : K) ≠ 0 := by exact_mod_cast hS
  unfold gain mkInfo
  rcases h with h | h
  · have h0 : leftOf S f thr = [] := List.length_eq_zero_iff.1 h
    have h1 : rightOf S f thr = S := by
      unfold rightOf
      rw [List.filter_eq_self]
      intro s hs
      unfold leftOf at h0
      rw [List.filter_eq_nil_iff] at h0
      simpa using h0 s hs
    rw [h0, h1]
    simp only [List.length_nil, Nat.cast_zero, zero_mul, zero_add]
    rw [mul_div_cancel_left₀ _ hn, sub_self]
  · have h0 : rightOf S f thr = [] := List.length_eq_zero_iff.1 h
    have h1 : leftOf S f thr = S := by
      unfold leftOf
      rw [List.filter_eq_self]
      intro s hs
      unfold rightOf at h0
      rw [List.filter_eq_nil_iff] at h0
      simpa using h0 s hs
    rw [h0, h1]
    simp only [List.length_nil, Nat.cast_zero, zero_mul, add_zero]
    rw [mul_div_cancel_left₀ _ hn, sub_self]

theorem gini_term (a b p q : K) (hp : 0 < p) (hq : 0 < q) :
    p * (a / p - (a / p) ^ 2) + q * (b / q - (b / q) ^ 2)
      ≤ (p + q) * ((a + b) / (p + q) - ((a + b) / (p + q)) ^ 2) := by
  have hpq : 0 < p + q := by positivity
  have e1 : p * (a / p - (a / p) ^ 2) = a - a ^ 2 / p := by field_simp
  have e2 : q * (b / q - (b / q) ^ 2) = b - b ^ 2 / q := by field_simp
  have e3 : (p + q) * ((a + b) / (p + q) - ((a + b) / (p + q)) ^ 2)
      = (a + b) - (a + b) ^ 2 / (p + q) := by field_simp
  rw [e1, e2, e3]
  have : (a + b) ^ 2 / (p + q) ≤ a ^ 2 / p + b ^ 2 / q := by
    rw [div_add_div _ _ hp.ne' hq.ne', div_le_div_iff₀ hpq (by positivity)]
    nlinarith [sq_nonneg (a * q - b * p)]
  linarith

theorem concave_sum (φ : K → K) (p q : Nat) (a b : Nat → Nat) (ks : List Nat)
    (hφ : ∀ k ∈ ks, (p : K) * φ ((a k : K) / p) + (q : K) * φ ((b k : K) / q)
      ≤ ((p : K) + q) * φ (((a k : K) + b k) / ((p : K) + q))) :
    (p : K) * (ks.map (fun k => φ ((a k : K) / p))).sum + (q : K) * (ks.map (fun k => φ ((b k : K) / q))).sum
      ≤ ((p : K) + q) * (ks.map (fun k => φ (((a k : K) + b k) / ((p : K) + q)))).sum := by
  induction ks with
  | nil => simp
  | cons k ks ih =>
    have h1 := hφ k (by simp)
    have h2 := ih (fun k' hk' => hφ k' (by simp [hk']))
    simp only [List.map_cons, List.sum_cons]
    nlinarith

end

section
/-- `math.Log2` in exact arithmetic -/
noncomputable def rlog2 (x : ℝ) : ℝ := Real.logb 2 x

theorem foldl_entropy (counts : List Nat) (T a : ℝ) :
    counts.foldl (fun (acc : ℝ) (c : Nat) => if 0 < c then let p : ℝ := (c : ℝ) / T; acc - p * rlog2 p else acc) a
      = a + (counts.map (fun c : Nat => Real.negMulLog ((c : ℝ) / T) / Real.log 2)).sum := by
  induction counts generalizing a with
  | nil => simp
  | cons c cs ih =>
    rw [List.foldl_cons, ih, List.map_cons, List.sum_cons]
    by_cases h : 0 < c
    · simp only [h, if_true]
      unfold rlog2 Real.negMulLog Real.logb
      ring
    · have : c = 0 := by omega
      simp [this]

/-- the summand of the impurity -/
noncomputable def phi (crit : String) (x : ℝ) : ℝ :=
  if crit = "entropy" then Real.negMulLog x / Real.log 2 else x - x ^ 2

theorem impurity_eq (crit : String) (counts : List Nat) (hT : counts.sum ≠ 0) :
    impurity rlog2 crit counts = (counts.map (fun c : Nat => phi crit ((c : ℝ) / (counts.sum : ℝ)))).sum := by
  by_cases h : crit = "entropy"
  · unfold impurity phi
    simp only [foldl_add_nat, if_neg hT, if_pos h]
    rw [foldl_entropy]; simp
  · rw [gini_eq rlog2 crit h counts hT]
    unfold phi
    simp only [if_neg h]

theorem log2_pos : 0 < Real.log 2 := Real.log_pos (by norm_num)

theorem phi_nonneg (crit : String) (x : ℝ) (h0 : 0 ≤ x) (h1 : x ≤ 1) : 0 ≤ phi crit x := by
  unfold phi
  split
  · exact div_nonneg (Real.negMulLog_nonneg h0 h1) log2_pos.le
  · nlinarith

theorem phi_eq_zero (crit : String) (x : ℝ) (h0 : 0 ≤ x) (h1 : x ≤ 1) :
    phi crit x = 0 ↔ x = 0 ∨ x = 1 := by
  unfold phi
  split
  · rw [div_eq_zero_iff]
    constructor
    · rintro (h | h)
      · unfold Real.negMulLog at h
        rcases mul_eq_zero.1 h with h | h
        · left; linarith
        · rcases Real.log_eq_zero.1 h with h | h | h
          · exact Or.inl h
          · exact Or.inr h
          · linarith
      · exact absurd h log2_pos.ne'
    · rintro (h | h) <;> left <;> simp [h]
  · constructor
    · intro h
      have : x * (1 - x) = 0 := by linarith [h, sq x]
      rcases mul_eq_zero.1 this with h | h
      · exact Or.inl h
      · right; linarith
    · rintro (h | h) <;> simp [h]

theorem phi_term (crit : String) (a b p q : ℝ) (ha : 0 ≤ a) (hb : 0 ≤ b) (hp : 0 < p) (hq : 0 < q) :
    p * phi crit (a / p) + q * phi crit (b / q) ≤ (p + q) * phi crit ((a + b) / (p + q)) := by
  unfold phi
  split
  · have hpq : 0 < p + q := by positivity
    have h1 : a / p ∈ Set.Ici (0 : ℝ) := by simp only [Set.mem_Ici]; positivity
    have h2 : b / q ∈ Set.Ici (0 : ℝ) := by simp only [Set.mem_Ici]; positivity
    have h3 : 0 ≤ p / (p + q) := by positivity
    have h4 : 0 ≤ q / (p + q) := by positivity
    have key := Real.concaveOn_negMulLog.2 h1 h2 h3 h4 (by field_simp)
    simp only [smul_eq_mul] at key
    have e : p / (p + q) * (a / p) + q / (p + q) * (b / q) = (a + b) / (p + q) := by field_simp
    rw [e] at key
    have h2 : p * Real.negMulLog (a / p) + q * Real.negMulLog (b / q)
        ≤ (p + q) * Real.negMulLog ((a + b) / (p + q)) := by
      have := mul_le_mul_of_nonneg_left key hpq.le
      refine le_trans (le_of_eq ?_) this
      field_simp
    have h3 := div_le_div_of_nonneg_right h2 log2_pos.le
    refine le_trans (le_of_eq ?_) (h3.trans (le_of_eq ?_))
    · ring
    · ring
  · exact gini_term a b p q hp hq

theorem impurity_samples (crit : String) (nC : Nat) (S : List (Sample ℝ)) (hr : InRange nC S)
    (hne : S ≠ []) : impurity rlog2 crit (classCounts nC S)
      = ((List.range nC).map (fun k => phi crit
          ((S.countP (fun s => decide (s.2 = k)) : ℝ) / (S.length : ℝ)))).sum := by
  have hs := classCounts_sum nC S hr
  have hl := List.length_pos_iff.2 hne
  rw [impurity_eq crit _ (by omega), hs, classCounts_eq, List.map_map]
  rfl

theorem countP_split (S : List (Sample ℝ)) (f : Nat) (thr : ℝ) (k : Nat) :
    S.countP (fun s => decide (s.2 = k)) = (leftOf S f thr).countP (fun s => decide (s.2 = k))
      + (rightOf S f thr).countP (fun s => decide (s.2 = k)) := by
  unfold leftOf rightOf
  induction S with
  | nil => rfl
  | cons s S ih =>
    by_cases h : s.1 f ≤ thr
    · simp [h, List.countP_cons] at ih ⊢; omega
    · simp [h, List.countP_cons] at ih ⊢; omega

end

end Scigo.Tree
