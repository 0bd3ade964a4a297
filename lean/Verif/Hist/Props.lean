import Verif.Hist.Lemmas
import Mathlib.Algebra.Order.Ring.Rat
import Mathlib.Data.List.Induction

/-!
# Histograms conserve rows, gradients and hessians (C63)
-/

set_option linter.unusedSectionVars false

namespace Scigo.Hist

variable {α : Type}

/-! ### Specification -/

/-- the rows of a node whose value lies in `[lo, hi)` -/
def rowsBetween [LE α] [DecidableLE α] [LT α] [DecidableLT α] (x : Nat → α) (indices : List Nat) (lo hi : α) : List Nat :=
  indices.filter fun i => lo ≤ x i ∧ x i < hi

/-- `H` is the histogram of the rows `indices` of column `x`: consecutive half-open bins that cover every row, each holding the
count and the sums of exactly the rows in it -/
structure IsHistogram [LE α] [DecidableLE α] [LT α] [DecidableLT α] [Add α] [Zero α] (x g h : Nat → α) (indices : List Nat)
    (H : Hist α) : Prop where
  /-- bins are not empty intervals and hold what they should -/
  bin : ∀ b ∈ H.bins, b.lo < b.hi ∧ b.count = (rowsBetween x indices b.lo b.hi).length ∧
    b.grad = sumOver (rowsBetween x indices b.lo b.hi) g ∧ b.hess = sumOver (rowsBetween x indices b.lo b.hi) h
  /-- bins are adjacent -/
  adjacent : ∀ (k : Nat) (b c : Bin α), H.bins[k]? = some b → H.bins[k + 1]? = some c → b.hi = c.lo
  /-- every row is in some bin -/
  covers : ∀ i ∈ indices, ∃ b ∈ H.bins, b.lo ≤ x i ∧ x i < b.hi

/-! ### Counts, for every carrier -/

section counts
variable [DecidableEq α] [LT α] [DecidableLT α] [LE α] [DecidableLE α] [Zero α] [One α] [Add α] [Sub α]

theorem fill_count (b : List α) (hb : 2 ≤ b.length) (x g h : Nat → α) (indices : List Nat) :
    ((fill findBinIndex b x g h indices).map (·.count)).sum = indices.length := by
  unfold fill
  induction indices using List.reverseRecOn with
  | nil =>
    rw [List.foldl_nil]
    unfold emptyBins
    rw [List.map_map]
    apply List.sum_eq_zero
    intro n hn
    obtain ⟨i, -, rfl⟩ := List.mem_map.1 hn
    rfl
  | append_singleton l i ih =>
    rw [List.foldl_append, List.foldl_cons, List.foldl_nil]
    have hlen : (l.foldl (fun bins idx => addRow findBinIndex b (x idx) (g idx) (h idx) bins) (emptyBins b)).length = b.length - 1 :=
      fill_length findBinIndex b x g h l
    obtain ⟨r1, r2⟩ := findBinIndex_range (x i) b hb
    unfold addRow at hlen ih ⊢
    rw [if_pos (by rw [hlen]; exact ⟨r1, r2⟩), sum_modify (fun c : Bin α => c.count) _ (1 : Int) (fun b => rfl) _ _ (by omega), ih]
    simp

end counts

/-! ### Continuous features -/

section continuous
variable [Field α] [LinearOrder α] [IsStrictOrderedRing α]

theorem isHistogram_of_bounds (find : α → List α → Int) (b : List α) (hs : b.Pairwise (· < ·)) (hb : 2 ≤ b.length) (feature : Nat)
    (x g h : Nat → α) (indices : List Nat) (hcov : ∀ i ∈ indices, b.getD 0 0 ≤ x i ∧ x i < b.getD (b.length - 1) 0)
    (hfind : ∀ v, b.getD 0 0 ≤ v → v < b.getD (b.length - 1) 0 → ∀ k, k < b.length - 1 →
      (find v b = (k : Int) ↔ b.getD k 0 ≤ v ∧ v < b.getD (k + 1) 0))
    (hex : ∀ v, b.getD 0 0 ≤ v → v < b.getD (b.length - 1) 0 → ∃ k : Nat, k < b.length - 1 ∧ find v b = (k : Int)) :
    IsHistogram x g h indices ⟨feature, fill find b x g h indices, b⟩ := by
  have hrows : ∀ k, k < b.length - 1 → rowsIn find b x indices k = rowsBetween x indices (b.getD k 0) (b.getD (k + 1) 0) := by
    intro k hk
    unfold rowsIn rowsBetween
    apply List.filter_congr
    intro i hi
    obtain ⟨c1, c2⟩ := hcov i hi
    have := hfind (x i) c1 c2 k hk
    simp only [decide_eq_decide]
    exact this
  have hget : ∀ (k : Nat) (c : Bin α), (fill find b x g h indices)[k]? = some c → k < b.length - 1 ∧
      c = ⟨b.getD k 0, b.getD (k + 1) 0, ((rowsIn find b x indices k).length : Int),
      sumOver (rowsIn find b x indices k) g, sumOver (rowsIn find b x indices k) h⟩ := by
    intro k c hc
    have hk : k < b.length - 1 := by
      rw [← fill_length find b x g h indices]
      exact (List.getElem?_eq_some_iff.1 hc).1
    rw [fill_get find b x g h indices k hk] at hc
    exact ⟨hk, (Option.some.inj hc).symm⟩
  refine ⟨?_, ?_, ?_⟩
  · intro c hc
    obtain ⟨k, hk, hck⟩ := List.getElem_of_mem hc
    obtain ⟨hk', he⟩ := hget k c (List.getElem?_eq_some_iff.2 ⟨hk, hck⟩)
    rw [hrows k hk'] at he
    rw [he]
    exact ⟨getD_mono b hs (by omega) (by omega), rfl, rfl, rfl⟩
  · intro k c d hc hd
    rw [(hget k c hc).2, (hget (k + 1) d hd).2]
  · intro i hi
    obtain ⟨c1, c2⟩ := hcov i hi
    obtain ⟨k, hk, hf⟩ := hex (x i) c1 c2
    have := fill_get find b x g h indices k hk
    refine ⟨_, List.mem_of_getElem? this, ?_⟩
    exact (hfind (x i) c1 c2 k hk).1 hf

/-- C63: the histogram built for a continuous feature (`buildContinuousHistogram`) is the histogram of the node's rows -/
theorem continuous_histogram (L : Lits α) (he : 0 < L.eps) (srt : List α → List α) (hsrt : SortsAsc id srt) (maxBin feature : Nat)
    (x g h : Nat → α) (indices : List Nat) :
    IsHistogram x g h indices (buildContinuous L srt maxBin feature x g h indices) := by
  obtain ⟨b1, b2, b3⟩ := bounds_spec L he srt hsrt maxBin (indices.map x)
  refine isHistogram_of_bounds findBinIndex _ b1 b2 feature x g h indices
    (fun i hi => b3 (x i) (List.mem_map_of_mem hi)) (fun v h1 h2 k hk => findBinIndex_iff v _ b1 b2 h1 h2 k hk) ?_
  intro v h1 h2
  obtain ⟨r1, r2⟩ := findBinIndex_range v (findBinBoundaries L srt maxBin (indices.map x)) b2
  exact ⟨(findBinIndex v (findBinBoundaries L srt maxBin (indices.map x))).toNat, by omega, by omega⟩

/-- C63: the same for the histogram of the parallel builder (`buildContinuousHistogramOptimized`), with at least one bin -/
theorem continuous_histogram_opt (L : Lits α) (he : 0 < L.eps) (trunc : Nat → Nat → Nat → Nat)
    (ht : ∀ i n m, trunc i n m = i * (n - 1) / m) (srt : List α → List α) (hsrt : SortsAsc id srt) (maxBin feature : Nat)
    (hm : 0 < maxBin) (x g h : Nat → α) (indices : List Nat) :
    IsHistogram x g h indices (buildContinuousOpt L trunc srt maxBin feature x g h indices) := by
  obtain ⟨b1, b2, b3⟩ := boundsOpt_spec L he trunc ht srt hsrt maxBin hm (indices.map x)
  refine isHistogram_of_bounds findBinIndexOpt _ b1 b2 feature x g h indices
    (fun i hi => b3 (x i) (List.mem_map_of_mem hi)) (fun v h1 h2 k hk => findBinIndexOpt_iff v _ b1 b2 h1 h2 k hk) ?_
  intro v h1 h2
  set b := findBinBoundariesOpt L trunc srt maxBin (indices.map x)
  obtain ⟨m, hm, -, -⟩ := searchBinOpt_spec v b b1 0 ((b.length : Int) - 2) (le_refl _) (by omega) (by omega) (by simpa using h1)
    (by rw [show ((b.length : Int) - 2 + 1).toNat = b.length - 1 by omega]; exact h2)
  obtain ⟨r1, r2⟩ := searchBinOpt_range v b _ _ m hm
  refine ⟨m.toNat, by omega, ?_⟩
  unfold findBinIndexOpt
  rw [hm]
  simp only
  omega

/-- disjoint, covering, increasing bins: sums over the bins are sums over the rows -/
theorem sum_over_bins (x f : Nat → α) (indices : List Nat) (bins : List (Bin α)) (hlt : ∀ b ∈ bins, b.lo < b.hi)
    (hadj : ∀ (k : Nat) (b c : Bin α), bins[k]? = some b → bins[k + 1]? = some c → b.hi = c.lo) :
    (bins.map fun b => ((rowsBetween x indices b.lo b.hi).map f).sum).sum =
      ((indices.filter fun i => ∃ b ∈ bins, b.lo ≤ x i ∧ x i < b.hi).map f).sum := by
  classical
  induction bins with
  | nil => simp
  | cons b l ih =>
    have ih' := ih (fun c hc => hlt c (List.mem_cons_of_mem _ hc)) (fun k c d hc hd => hadj (k + 1) c d (by simpa using hc) (by simpa using hd))
    rw [List.map_cons, List.sum_cons, ih']
    -- every later bin starts at or above the end of `b`
    have hlater : ∀ (l : List (Bin α)) (b : Bin α), (∀ c ∈ b :: l, c.lo < c.hi) →
        (∀ (k : Nat) (c d : Bin α), (b :: l)[k]? = some c → (b :: l)[k + 1]? = some d → c.hi = d.lo) → ∀ c ∈ l, b.hi ≤ c.lo := by
      intro l
      induction l with
      | nil => intro b _ _ c hc; simp at hc
      | cons d l ihl =>
        intro b hlt hadj c hc
        have hbd : b.hi = d.lo := hadj 0 b d rfl rfl
        rcases List.mem_cons.1 hc with rfl | hc
        · exact hbd.le
        · have h1 := ihl d (fun c hc => hlt c (List.mem_cons_of_mem _ hc))
            (fun k c e hc he => hadj (k + 1) c e (by simpa using hc) (by simpa using he)) c hc
          have h2 := hlt d (by simp)
          rw [hbd]
          exact h2.le.trans h1
    have hl := hlater l b hlt hadj
    clear ih ih' hlater hadj hlt
    induction indices with
    | nil => simp [rowsBetween]
    | cons i is ihi =>
      unfold rowsBetween at ihi ⊢
      by_cases hb : b.lo ≤ x i ∧ x i < b.hi
      · have hnot : ¬ ∃ c ∈ l, c.lo ≤ x i ∧ x i < c.hi := by
          rintro ⟨c, hc, h1, -⟩
          exact absurd (lt_of_lt_of_le hb.2 ((hl c hc).trans h1)) (lt_irrefl _)
        have hyes : ∃ c ∈ b :: l, c.lo ≤ x i ∧ x i < c.hi := ⟨b, by simp, hb⟩
        rw [List.filter_cons_of_pos (by simpa using hb), List.filter_cons_of_neg (by simpa using hnot),
          List.filter_cons_of_pos (by simpa using hyes), List.map_cons, List.sum_cons, List.map_cons, List.sum_cons, ← ihi, add_assoc]
      · by_cases hc : ∃ c ∈ l, c.lo ≤ x i ∧ x i < c.hi
        · obtain ⟨c, hc1, hc2⟩ := hc
          rw [List.filter_cons_of_neg (by simpa using hb), List.filter_cons_of_pos (by simpa using ⟨c, hc1, hc2⟩),
            List.filter_cons_of_pos (by simpa using Or.inr ⟨c, hc1, hc2⟩), List.map_cons, List.sum_cons, List.map_cons, List.sum_cons, ← ihi,
            add_left_comm]
        · have hnot : ¬ ∃ c ∈ b :: l, c.lo ≤ x i ∧ x i < c.hi := by
            rintro ⟨c, hc1, hc2⟩
            rcases List.mem_cons.1 hc1 with rfl | h
            · exact hb hc2
            · exact hc ⟨c, h, hc2⟩
          rw [List.filter_cons_of_neg (by simpa using hb), List.filter_cons_of_neg (by simpa using hc),
            List.filter_cons_of_neg (by simpa using hnot), ← ihi]

/-- C63: counts, gradients and hessians of a histogram add up to the totals of the node -/
theorem histogram_conserves (x g h : Nat → α) (indices : List Nat) (H : Hist α) (hH : IsHistogram x g h indices H) :
    (H.bins.map (·.count)).sum = indices.length ∧ (H.bins.map (·.grad)).sum = (indices.map g).sum ∧
      (H.bins.map (·.hess)).sum = (indices.map h).sum := by
  have hall : indices.filter (fun i => ∃ b ∈ H.bins, b.lo ≤ x i ∧ x i < b.hi) = indices := by
    rw [List.filter_eq_self]
    intro i hi
    simpa using hH.covers i hi
  have key : ∀ f : Nat → α, (H.bins.map fun b => ((rowsBetween x indices b.lo b.hi).map f).sum).sum = (indices.map f).sum := by
    intro f
    rw [sum_over_bins x f indices H.bins (fun b hb => (hH.bin b hb).1) hH.adjacent]
    congr 2
  refine ⟨?_, ?_, ?_⟩
  · have h1 := key (fun _ => 1)
    have e1 : ∀ l : List Nat, (l.map (fun _ => (1 : α))).sum = (l.length : α) := by
      intro l; induction l with
      | nil => simp
      | cons a l ih => simp [ih, add_comm]
    rw [e1] at h1
    have h2 : (((H.bins.map (·.count)).sum : Int) : α) = (indices.length : α) := by
      rw [← h1]
      have : H.bins.map (fun b => ((rowsBetween x indices b.lo b.hi).map fun _ => (1 : α)).sum) =
          (H.bins.map (·.count)).map (fun n : Int => (n : α)) := by
        rw [List.map_map]
        apply List.map_congr_left
        intro b hb
        rw [e1, Function.comp_apply, (hH.bin b hb).2.1]
        simp
      rw [this]
      induction H.bins.map (·.count) with
      | nil => simp
      | cons a l ih => simp [ih]
    exact_mod_cast h2
  · rw [← key g]
    congr 1
    apply List.map_congr_left
    intro b hb
    rw [(hH.bin b hb).2.2.1, sumOver_eq]
  · rw [← key h]
    congr 1
    apply List.map_congr_left
    intro b hb
    rw [(hH.bin b hb).2.2.2, sumOver_eq]

/-! ### Subtraction -/

theorem fill_append_bin (find : α → List α → Int) (b : List α) (x g h : Nat → α) (l r : List Nat) (k : Nat) :
    rowsIn find b x (l ++ r) k = rowsIn find b x l k ++ rowsIn find b x r k := by
  unfold rowsIn; rw [List.filter_append]

/-- C63: with the same bounds, subtracting the left child's histogram from the parent's gives the right child's, whatever the
order in which the parent lists its rows -/
theorem subtraction_sibling (find : α → List α → Int) (b : List α) (feature f' : Nat) (x g h : Nat → α) (parent l r : List Nat)
    (hp : parent.Perm (l ++ r)) :
    subtract ⟨feature, fill find b x g h parent, b⟩ ⟨f', fill find b x g h l, b⟩ = .ok ⟨feature, fill find b x g h r, b⟩ := by
  unfold subtract
  rw [if_neg (by simp [fill_length])]
  congr 2
  apply List.ext_getElem?
  intro k
  by_cases hk : k < b.length - 1
  · rw [List.getElem?_zipWith, fill_get find b x g h parent k hk, fill_get find b x g h l k hk, fill_get find b x g h r k hk]
    have hperm : (rowsIn find b x parent k).Perm (rowsIn find b x l k ++ rowsIn find b x r k) := by
      rw [← fill_append_bin find b x g h]
      exact hp.filter _
    simp only [sumOver_eq]
    rw [(hperm.map g).sum_eq, (hperm.map h).sum_eq, hperm.length_eq]
    simp
  · rw [List.getElem?_eq_none (by simp [fill_length]; omega), List.getElem?_eq_none (by simp [fill_length]; omega)]

end continuous

/-! ### Categorical features -/

section categorical
variable [Zero α] [One α] [Add α]

theorem addTo_keys (c : Int) (g h : α) (m : List (Cat α)) (hn : (m.map (·.category)).Nodup) :
    ((Cat.addTo c g h m).map (·.category)).Nodup ∧ ∀ k, k ∈ (Cat.addTo c g h m).map (·.category) ↔ k = c ∨ k ∈ m.map (·.category) := by
  induction m with
  | nil => simp [Cat.addTo]
  | cons a l ih =>
    rw [List.map_cons, List.nodup_cons] at hn
    unfold Cat.addTo
    by_cases ha : a.category = c
    · rw [if_pos ha]
      simp only [List.map_cons]
      refine ⟨List.nodup_cons.2 hn, fun k => ?_⟩
      rw [List.mem_cons, ha]
      tauto
    · rw [if_neg ha]
      obtain ⟨i1, i2⟩ := ih hn.2
      simp only [List.map_cons]
      refine ⟨List.nodup_cons.2 ⟨?_, i1⟩, fun k => ?_⟩
      · rw [i2]
        rintro (h1 | h1)
        · exact ha h1
        · exact hn.1 h1
      · rw [List.mem_cons, List.mem_cons, i2]
        tauto

/-- the entry of category `c` -/
def entry (m : List (Cat α)) (c : Int) : Option (Cat α) := m.find? fun k => k.category = c

theorem addTo_entry (c : Int) (g h : α) (m : List (Cat α)) (k : Int) :
    entry (Cat.addTo c g h m) k = if k = c then some (match entry m c with
      | some e => { e with count := e.count + 1, grad := e.grad + g, hess := e.hess + h }
      | none => ⟨c, 0 + 1, 0 + g, 0 + h⟩) else entry m k := by
  induction m with
  | nil =>
    unfold Cat.addTo entry
    by_cases hk : k = c
    · subst hk; simp
    · have : ¬ c = k := fun h => hk h.symm
      simp [hk, this]
  | cons a l ih =>
    unfold Cat.addTo
    by_cases ha : a.category = c
    · rw [if_pos ha]
      unfold entry
      by_cases hk : k = c
      · subst hk; simp [ha]
      · have : ¬ a.category = k := fun h => hk (by rw [← h, ha])
        simp [hk, this]
    · rw [if_neg ha]
      unfold entry at ih ⊢
      by_cases hk : k = c
      · subst hk
        simp only [if_true] at ih ⊢
        rw [List.find?_cons_of_neg (by simpa using ha), ih, List.find?_cons_of_neg (by simpa using ha)]
      · by_cases hak : a.category = k
        · simp [hk, hak]
        · rw [List.find?_cons_of_neg (by simpa using hak), ih, if_neg hk, if_neg hk, List.find?_cons_of_neg (by simpa using hak)]

/-- the rows of a category -/
def rowsOf (toInt : α → Int) (x : Nat → α) (indices : List Nat) (c : Int) : List Nat := indices.filter fun i => toInt (x i) = c

theorem catStats_spec (toInt : α → Int) (x g h : Nat → α) (indices : List Nat) :
    ((catStats toInt x g h indices).map (·.category)).Nodup ∧
      ∀ c, entry (catStats toInt x g h indices) c = if rowsOf toInt x indices c = [] then none else
        some ⟨c, (rowsOf toInt x indices c).length, sumOver (rowsOf toInt x indices c) g, sumOver (rowsOf toInt x indices c) h⟩ := by
  unfold catStats
  induction indices using List.reverseRecOn with
  | nil => exact ⟨by simp, fun c => by simp [rowsOf, entry]⟩
  | append_singleton l i ih =>
    obtain ⟨i1, i2⟩ := ih
    rw [List.foldl_append, List.foldl_cons, List.foldl_nil]
    refine ⟨(addTo_keys _ _ _ _ i1).1, fun c => ?_⟩
    rw [addTo_entry]
    by_cases hc : c = toInt (x i)
    · rw [if_pos hc, i2, ← hc]
      have hr : rowsOf toInt x (l ++ [i]) c = rowsOf toInt x l c ++ [i] := by
        unfold rowsOf; rw [List.filter_append]; simp [hc]
      rw [hr]
      by_cases he : rowsOf toInt x l c = []
      · simp [he, sumOver]
      · simp [he, sumOver, List.foldl_append]
    · rw [if_neg hc, i2]
      have hr : rowsOf toInt x (l ++ [i]) c = rowsOf toInt x l c := by
        unfold rowsOf; rw [List.filter_append]
        have : ¬ toInt (x i) = c := fun h => hc h.symm
        simp [this]
      rw [hr]

theorem entry_mem (m : List (Cat α)) (hn : (m.map (·.category)).Nodup) (e : Cat α) : e ∈ m ↔ entry m e.category = some e := by
  constructor
  · intro he
    induction m with
    | nil => simp at he
    | cons a l ih =>
      rw [List.map_cons, List.nodup_cons] at hn
      unfold entry
      rcases List.mem_cons.1 he with rfl | he
      · simp
      · have : ¬ a.category = e.category := fun h => hn.1 (h ▸ List.mem_map_of_mem (f := (·.category)) he)
        rw [List.find?_cons_of_neg (by simpa using this)]
        exact ih hn.2 he
  · intro he
    exact List.mem_of_find?_eq_some he

/-- C63: the histogram of a categorical feature has one bin per category present, in increasing order of category, holding the
count and sums of exactly the rows of the category, added in row order; valid for every arithmetic -/
theorem categorical_histogram (toInt : α → Int) (ofInt : Int → α) (iter : List (Cat α) → List (Cat α)) (hiter : ∀ l, (iter l).Perm l)
    (srt : List (Cat α) → List (Cat α)) (hsrt : SortsAsc (fun c : Cat α => c.category) srt) (feature : Nat) (x g h : Nat → α)
    (indices : List Nat) :
    ∃ cs : List Int, cs.Pairwise (· < ·) ∧ (∀ c, c ∈ cs ↔ ∃ i ∈ indices, toInt (x i) = c) ∧
      (buildCategorical toInt ofInt iter srt feature x g h indices).bins = cs.map fun c =>
        ⟨ofInt c, ofInt c + 1, (rowsOf toInt x indices c).length, sumOver (rowsOf toInt x indices c) g,
          sumOver (rowsOf toInt x indices c) h⟩ := by
  obtain ⟨n1, n2⟩ := catStats_spec toInt x g h indices
  set m := catStats toInt x g h indices with hm
  have hperm : (srt (iter m)).Perm m := (hsrt _).1.trans (hiter m)
  have hnod : ((srt (iter m)).map (·.category)).Nodup := (hperm.map _).nodup_iff.2 n1
  refine ⟨(srt (iter m)).map (·.category), ?_, ?_, ?_⟩
  · rw [List.pairwise_map]
    have h1 := (hsrt (iter m)).2
    have h2 : (srt (iter m)).Pairwise (fun a b => a.category ≠ b.category) := by
      have := hnod
      unfold List.Nodup at this
      rwa [List.pairwise_map] at this
    exact (h1.and h2).imp fun ⟨a, b⟩ => lt_of_le_of_ne (not_lt.1 a) b
  · intro c
    rw [(hperm.map _).mem_iff]
    have hrow : rowsOf toInt x indices c = [] ↔ ¬ ∃ i ∈ indices, toInt (x i) = c := by
      unfold rowsOf
      rw [List.filter_eq_nil_iff]
      simp
    constructor
    · intro hc
      obtain ⟨e, he, rfl⟩ := List.mem_map.1 hc
      have := (entry_mem m n1 e).1 he
      rw [n2] at this
      split_ifs at this with hr
      rw [hrow, not_not] at hr
      exact hr
    · intro hc
      have := n2 c
      rw [if_neg (by rw [hrow]; simpa using hc)] at this
      unfold entry at this
      have hmem := List.mem_of_find?_eq_some this
      exact List.mem_map.2 ⟨_, hmem, rfl⟩
  · unfold buildCategorical
    simp only
    rw [← hm, List.map_map]
    apply List.map_congr_left
    intro e he
    have := (entry_mem m n1 e).1 (hperm.mem_iff.1 he)
    rw [n2] at this
    split_ifs at this with hr
    have := Option.some.inj this
    rw [Function.comp_apply]
    rw [← this]

end categorical

/-! ### Concrete cases -/

/-- five rows with values 3, 1, 3, 2, 1 -/
def exX : Nat → Rat := fun i => [3, 1, 3, 2, 1].getD i 0
/-- their gradients -/
def exG : Nat → Rat := fun i => [1, 2, 3, 4, 5].getD i 0
/-- literals for the cases -/
def exL : Lits Rat := ⟨1 / 100, 1 / 1000, 1 / 2⟩

example : ((buildContinuous exL (stableAsc id) 5 0 exX exG (fun _ => 1) [0, 1, 2, 3, 4]).bins.map fun b => (b.count, b.grad)) =
    [(2, 7), (1, 4), (2, 4)] := by decide +kernel

example : (0 : Rat) < exL.eps := by decide +kernel

example : (buildContinuous exL (stableAsc id) 2 0 exX exG (fun _ => 1) [0, 1, 2, 3, 4]).bounds = [1 - 1 / 100, 2, 3 + 1 / 100] := by
  decide +kernel

example : [2, 0, 1].Perm ([0, 1] ++ [2]) := by decide

end Scigo.Hist
