import Verif.Hist.Lemmas

/-!
# Values at the outer bounds of a histogram, and splits below the minimum gain

Properties C63 and C64. The bounds need not be strictly increasing: in floating point the margin added to the largest value can
be absorbed, and then the largest value equals the last bound.
-/

namespace Scigo.Hist

variable {α : Type}

section order
variable [LinearOrder α] [Zero α] [One α] [Add α] [Sub α]

theorem getD_le (b : List α) (hs : b.Pairwise (· ≤ ·)) {i j : Nat} (hij : i ≤ j) (hj : j < b.length) : b.getD i 0 ≤ b.getD j 0 := by
  rcases Nat.lt_or_ge i j with h | h
  · rw [List.getD_eq_getElem _ _ (by omega), List.getD_eq_getElem _ _ hj]
    exact List.pairwise_iff_getElem.1 hs i j _ _ h
  · have : i = j := by omega
    rw [this]

theorem searchBinOpt_below (v : α) (b : List α) (hs : b.Pairwise (· ≤ ·)) (left right : Int) (hl : 0 ≤ left)
    (hr : right + 1 < b.length) (h : v < b.getD 0 0) : searchBinOpt v b left right = none := by
  fun_induction searchBinOpt v b left right with
  | case1 l r hle mid hlt ih =>
    have e : mid = (l + r) / 2 := rfl
    exact ih hl (by omega)
  | case2 l r hle mid hlt hge ih =>
    have e : mid = (l + r) / 2 := rfl
    exact absurd (lt_of_lt_of_le h (getD_le b hs (Nat.zero_le _) (by omega))) hlt
  | case3 l r hle mid hlt hge =>
    have e : mid = (l + r) / 2 := rfl
    exact absurd (lt_of_lt_of_le h (getD_le b hs (Nat.zero_le _) (by omega))) hlt
  | case4 l r hle => rfl

theorem searchBinOpt_above (v : α) (b : List α) (hs : b.Pairwise (· ≤ ·)) (left right : Int) (hl : 0 ≤ left)
    (hr : right + 1 < b.length) (h : b.getD (b.length - 1) 0 ≤ v) : searchBinOpt v b left right = none := by
  fun_induction searchBinOpt v b left right with
  | case1 l r hle mid hlt ih =>
    have e : mid = (l + r) / 2 := rfl
    exact absurd hlt (not_lt.2 ((getD_le b hs (by omega) (by omega)).trans h))
  | case2 l r hle mid hlt hge ih =>
    have e : mid = (l + r) / 2 := rfl
    exact ih (by omega) hr
  | case3 l r hle mid hlt hge =>
    have e : mid = (l + r) / 2 := rfl
    exact absurd ((getD_le b hs (by omega) (by omega)).trans h) hge
  | case4 l r hle => rfl

theorem searchBinOpt_within (v : α) (b : List α) (left right : Int) (hl : 0 ≤ left)
    (hlr : left ≤ right + 1) (h1 : b.getD left.toNat 0 ≤ v) (h2 : v < b.getD (right + 1).toNat 0) :
    ∃ m, searchBinOpt v b left right = some m ∧ b.getD m.toNat 0 ≤ v ∧ v < b.getD (m + 1).toNat 0 := by
  fun_induction searchBinOpt v b left right with
  | case1 l r hle mid hlt ih =>
    have e : mid = (l + r) / 2 := rfl
    have hml : l < mid := by
      by_contra hc
      have : mid = l := by omega
      rw [this] at hlt
      exact absurd h1 (not_le.2 hlt)
    exact ih hl (by omega) h1 (by simpa using hlt)
  | case2 l r hle mid hlt hge ih =>
    have e : mid = (l + r) / 2 := rfl
    exact ih (by omega) (by omega) hge h2
  | case3 l r hle mid hlt hge => exact ⟨mid, rfl, not_lt.1 hlt, not_le.1 hge⟩
  | case4 l r hle =>
    have : l = r + 1 := by omega
    subst this
    exact absurd h2 (not_lt.2 h1)

/-- C63 (law-free over a linear order): on bounds that do not decrease, a value below the first bound belongs to the first bin of
the parallel builder, a value at or above the last bound to the last bin, and every other value to a bin around it -/
theorem opt_bin_of_value (v : α) (b : List α) (hs : b.Pairwise (· ≤ ·)) (hb : 2 ≤ b.length) :
    (v < b.getD 0 0 → findBinIndexOpt v b = 0) ∧
    (b.getD (b.length - 1) 0 ≤ v → findBinIndexOpt v b = (b.length : Int) - 2) ∧
    (b.getD 0 0 ≤ v → v < b.getD (b.length - 1) 0 → ∃ k : Nat, k < b.length - 1 ∧ findBinIndexOpt v b = (k : Int) ∧
      b.getD k 0 ≤ v ∧ v < b.getD (k + 1) 0) := by
  refine ⟨fun h => ?_, fun h => ?_, fun h1 h2 => ?_⟩
  · unfold findBinIndexOpt
    rw [searchBinOpt_below v b hs _ _ (le_refl _) (by omega) h]
    exact if_pos h
  · unfold findBinIndexOpt
    rw [searchBinOpt_above v b hs _ _ (le_refl _) (by omega) h]
    dsimp only
    rw [if_neg (not_lt.2 ((getD_le b hs (Nat.zero_le _) (by omega)).trans h)), if_pos h]
  · obtain ⟨m, hm, g1, g2⟩ := searchBinOpt_within v b 0 ((b.length : Int) - 2) (le_refl _) (by omega) (by simpa using h1)
      (by rw [show ((b.length : Int) - 2 + 1).toNat = b.length - 1 by omega]; exact h2)
    obtain ⟨r1, r2⟩ := searchBinOpt_range v b _ _ m hm
    refine ⟨m.toNat, by omega, ?_, g1, ?_⟩
    · unfold findBinIndexOpt
      rw [hm]
      dsimp only
      omega
    · rw [show m.toNat + 1 = (m + 1).toNat by omega]
      exact g2

/-- C63 (law-free over a linear order): every row is counted in exactly one bin of the parallel builder, also when the largest value
equals the last bound -/
theorem opt_counts_every_row (b : List α) (hs : b.Pairwise (· ≤ ·)) (hb : 2 ≤ b.length) (x g h : Nat → α) (indices : List Nat) :
    ((fill findBinIndexOpt b x g h indices).map Bin.count).sum = indices.length := by
  have hstep : ∀ (v gv hv : α) (bins : List (Bin α)), bins.length = b.length - 1 →
      (addRow findBinIndexOpt b v gv hv bins).length = b.length - 1 ∧
      ((addRow findBinIndexOpt b v gv hv bins).map Bin.count).sum = (bins.map Bin.count).sum + 1 := by
    intro v gv hv bins hl
    obtain ⟨k1, k2, k3⟩ := opt_bin_of_value v b hs hb
    have hr : 0 ≤ findBinIndexOpt v b ∧ findBinIndexOpt v b < bins.length := by
      rcases lt_or_ge v (b.getD 0 0) with c | c
      · rw [k1 c, hl]; omega
      · rcases lt_or_ge v (b.getD (b.length - 1) 0) with d | d
        · obtain ⟨k, hk, e, -⟩ := k3 c d
          rw [e, hl]; omega
        · rw [k2 d, hl]; omega
    unfold addRow
    rw [if_pos hr]
    exact ⟨by rw [List.length_modify]; exact hl, sum_modify Bin.count _ 1 (fun _ => rfl) bins _ (by omega)⟩
  have hfold : ∀ (l : List Nat) (bins : List (Bin α)), bins.length = b.length - 1 →
      ((l.foldl (fun bins idx => addRow findBinIndexOpt b (x idx) (g idx) (h idx) bins) bins).map Bin.count).sum =
        (bins.map Bin.count).sum + l.length := by
    intro l
    induction l with
    | nil => intro bins _; simp
    | cons i l ih =>
      intro bins hl
      obtain ⟨s1, s2⟩ := hstep (x i) (g i) (h i) bins hl
      rw [List.foldl_cons, ih _ s1, s2, List.length_cons]
      push_cast
      omega
  unfold fill
  rw [hfold indices (emptyBins b) (by simp [emptyBins])]
  have : ((emptyBins b).map Bin.count).sum = 0 := by
    unfold emptyBins
    rw [List.map_map]
    apply List.sum_eq_zero
    intro y hy
    obtain ⟨i, -, rfl⟩ := List.mem_map.1 hy
    rfl
  rw [this, zero_add]

end order

/-- the bounds of three distinct values whose margin was absorbed, and four rows, one of them at the last bound -/
example : ([1, 2, 5, 5] : List Int).Pairwise (· ≤ ·) ∧
    ((fill findBinIndexOpt [1, 2, 5, 5] (fun i => [1, 5, 2, 5].getD i 0) (fun _ => 1) (fun _ => 1) [0, 1, 2, 3]).map Bin.count) =
      ([1, 1, 2] : List Int) := by
  constructor
  · decide
  · simp [fill, addRow, emptyBins, findBinIndexOpt, searchBinOpt, List.modify]
    rfl

/-! ### The minimum gain -/

section gain
variable [Zero α] [LinearOrder α]

/-- C64 (law-free over a linear order): the split handed out keeps its gain exactly if the gain reaches the minimum — a gain equal to
the minimum is kept — and otherwise reports gain 0 with the same feature, threshold and counts -/
theorem min_gain_is_inclusive (minGain : α) (best : Split α) :
    (minGain ≤ best.gain → finish minGain best = best) ∧
    (best.gain < minGain → finish minGain best = { best with gain := 0 }) :=
  ⟨fun h => if_neg (not_lt.2 h), fun h => if_pos h⟩

end gain

end Scigo.Hist
