import Verif.Hist.SplitProps
import Mathlib.Data.Finset.Dedup
import Mathlib.Data.Finset.Card

/-!
# Exact greedy splits and optimal category subsets (C64, C118)
-/

set_option linter.unusedSectionVars false

namespace Scigo.Hist

variable {α : Type}

section greedy
variable [Field α] [LinearOrder α] [IsStrictOrderedRing α]

/-- the rows at or below `t` -/
def atMost (x : Nat → α) (indices : List Nat) (t : α) : List Nat := indices.filter fun i => x i ≤ t
/-- the rows above `t` -/
def over (x : Nat → α) (indices : List Nat) (t : α) : List Nat := indices.filter fun i => t < x i

/-- gain of sending the rows at or below `t` left -/
def thresholdGain (hb : Builder α) (L : Lits α) (special : α → Bool) (x g h : Nat → α) (indices : List Nat) (t : α) : α :=
  hb.gain L special ((atMost x indices t).map g).sum ((atMost x indices t).map h).sum ((over x indices t).map g).sum
    ((over x indices t).map h).sum (indices.map g).sum (indices.map h).sum

/-- the bins when there are few enough distinct values: one per value, ending just above it -/
theorem unique_bins (L : Lits α) (srt : List α → List α) (hsrt : SortsAsc id srt) (maxBin feature : Nat)
    (x g h : Nat → α) (indices : List Nat) (hne : indices ≠ []) (hu : (indices.map x).toFinset.card ≤ maxBin) :
    ∃ u : List α, u.Pairwise (· < ·) ∧ (∀ v, v ∈ u ↔ ∃ i ∈ indices, x i = v) ∧
      ((buildContinuous L srt maxBin feature x g h indices).bins.map (·.hi)) = u.map (· + L.eps) := by
  obtain ⟨hp, hs⟩ := hsrt (indices.map x)
  have hsorted : (srt (indices.map x)).Pairwise (· ≤ ·) := hs.imp (fun h => not_lt.1 h)
  obtain ⟨u1, u2⟩ := uniq_spec (srt (indices.map x)) hsorted
  set u := uniq (srt (indices.map x)) with hud
  have hmem : ∀ v, v ∈ u ↔ v ∈ indices.map x := fun v => by rw [u2, hp.mem_iff]
  have hcard : u.length = (indices.map x).toFinset.card := by
    have hnd : u.Nodup := u1.imp (fun h => h.ne)
    rw [← List.toFinset_card_of_nodup hnd]
    congr 1
    ext v
    simp only [List.mem_toFinset]
    exact hmem v
  refine ⟨u, u1, fun v => by rw [hmem]; simp, ?_⟩
  have hb : findBinBoundaries L srt maxBin (indices.map x) = (u.getD 0 0 - L.eps) :: u.map (fun v => v + L.eps) := by
    unfold findBinBoundaries
    rw [if_neg (by simpa using hne)]
    simp only
    rw [← hud, if_pos (by rw [hcard]; exact hu)]
  unfold buildContinuous
  simp only
  rw [hb]
  set b := (u.getD 0 0 - L.eps) :: u.map (fun v => v + L.eps) with hbd
  have hbl : b.length = u.length + 1 := by rw [hbd]; simp
  apply List.ext_getElem?
  intro k
  by_cases hk : k < u.length
  · rw [List.getElem?_map, fill_get findBinIndex b x g h indices k (by omega), List.getElem?_map, List.getElem?_eq_getElem hk]
    simp only [Option.map_some, Option.some.injEq]
    rw [hbd, List.getD_cons_succ, List.getD_eq_getElem _ _ (by simpa using hk), List.getElem_map]
  · rw [List.getElem?_eq_none (by rw [List.length_map, fill_length]; omega), List.getElem?_eq_none (by simpa using hk)]

/-- C64: when a feature has at most `max_bin` distinct values, further apart than the bin margin, the histogram search is exact: no
threshold whatever that leaves at least `min_data_in_leaf ≥ 1` rows on both sides has a larger gain than the split found -/
theorem exact_greedy (hb : Builder α) (L : Lits α) (he : 0 < L.eps) (special : α → Bool) (srt : List α → List α) (hsrt : SortsAsc id srt)
    (maxBin feature : Nat) (x g h : Nat → α) (indices : List Nat) (hu : (indices.map x).toFinset.card ≤ maxBin)
    (hgap : ∀ i ∈ indices, ∀ j ∈ indices, x i < x j → x i + L.eps < x j) (minData : Int) (hmd : 1 ≤ minData) (t : α)
    (h1 : minData ≤ (atMost x indices t).length) (h2 : minData ≤ (over x indices t).length) :
    thresholdGain hb L special x g h indices t ≤
      (hb.findSplit L special (buildContinuous L srt maxBin feature x g h indices) (indices.map g).sum (indices.map h).sum minData).gain := by
  have hn1 : atMost x indices t ≠ [] := by rintro e; rw [e] at h1; simp at h1; omega
  have hn2 : over x indices t ≠ [] := by rintro e; rw [e] at h2; simp at h2; omega
  have hne : indices ≠ [] := by rintro rfl; exact hn1 rfl
  obtain ⟨u, u1, u2, u3⟩ := unique_bins L srt hsrt maxBin feature x g h indices hne hu
  -- the largest value at or below `t`
  obtain ⟨i0, hi0, hmax⟩ : ∃ i0 ∈ atMost x indices t, ∀ j ∈ atMost x indices t, x j ≤ x i0 := by
    have : ∀ l : List Nat, l ≠ [] → ∃ i0 ∈ l, ∀ j ∈ l, x j ≤ x i0 := by
      intro l
      induction l with
      | nil => intro h; exact absurd rfl h
      | cons a l ih =>
        intro _
        by_cases hl : l = []
        · subst hl; exact ⟨a, by simp, by simp⟩
        · obtain ⟨i, hi, hm⟩ := ih hl
          rcases le_total (x a) (x i) with h | h
          · exact ⟨i, List.mem_cons_of_mem _ hi, fun j hj => by
              rcases List.mem_cons.1 hj with rfl | hj
              · exact h
              · exact hm j hj⟩
          · exact ⟨a, by simp, fun j hj => by
              rcases List.mem_cons.1 hj with rfl | hj
              · exact le_refl _
              · exact (hm j hj).trans h⟩
    exact this _ hn1
  have hi0' : i0 ∈ indices ∧ x i0 ≤ t := by simpa [atMost] using hi0
  have hiff : ∀ i ∈ indices, (x i ≤ t ↔ x i < x i0 + L.eps) := by
    intro i hi
    constructor
    · intro hle
      have := hmax i (by simp [atMost, hi, hle])
      linarith
    · intro hlt
      by_contra hcon
      rw [not_le] at hcon
      have := hgap i0 hi0'.1 i hi (lt_of_le_of_lt hi0'.2 hcon)
      linarith
  have eb : below x indices (x i0 + L.eps) = atMost x indices t := by
    unfold below atMost
    apply List.filter_congr
    intro i hi
    rw [decide_eq_decide, hiff i hi]
  have ea : above x indices (x i0 + L.eps) = over x indices t := by
    unfold above over
    apply List.filter_congr
    intro i hi
    rw [decide_eq_decide, ← not_lt, ← hiff i hi, not_le]
  -- it is a bin boundary, and not the last
  obtain ⟨k, hk, hku⟩ := List.getElem_of_mem ((u2 (x i0)).2 ⟨i0, hi0'.1, rfl⟩)
  obtain ⟨j0, hj0⟩ := List.exists_mem_of_ne_nil _ hn2
  have hj0' : j0 ∈ indices ∧ t < x j0 := by simpa [over] using hj0
  obtain ⟨k', hk', hku'⟩ := List.getElem_of_mem ((u2 (x j0)).2 ⟨j0, hj0'.1, rfl⟩)
  have hkk : k < k' := by
    by_contra hcon
    have hle : u[k'] ≤ u[k] := by
      rcases Nat.lt_or_ge k' k with h | h
      · exact (List.pairwise_iff_getElem.1 u1 k' k hk' hk h).le
      · have : k = k' := by omega
        subst this; exact le_refl _
    rw [hku, hku'] at hle
    have := lt_of_le_of_lt hi0'.2 hj0'.2
    exact absurd (lt_of_lt_of_le this hle) (lt_irrefl _)
  set H := buildContinuous L srt maxBin feature x g h indices with hH
  have hlen : H.bins.length = u.length := by
    have := congrArg List.length u3
    simpa using this
  have hkH : k < H.bins.length - 1 := by omega
  have hhi : (H.bins[k]'(by omega)).hi = x i0 + L.eps := by
    have := congrArg (fun l : List α => l[k]?) u3
    simp only [List.getElem?_map] at this
    rw [List.getElem?_eq_getElem (by omega), List.getElem?_eq_getElem hk] at this
    simp only [Option.map_some, Option.some.injEq] at this
    rw [this, hku]
  have hmem : H.bins[k]'(by omega) ∈ H.bins.dropLast := by
    rw [← List.getElem_dropLast (by rw [List.length_dropLast]; exact hkH)]
    exact List.getElem_mem _
  have hmx := split_maximal hb L special x g h indices H (continuous_histogram L he srt hsrt maxBin feature x g h indices) minData
    (H.bins[k]'(by omega)) hmem (by rw [hhi, eb]; exact h1) (by rw [hhi, ea]; exact h2)
  rw [hhi] at hmx
  unfold rowGain at hmx
  rw [eb, ea] at hmx
  exact hmx

/-- C119: in the same setting the trainer, which sends rows at or below the threshold left, divides the rows exactly as counted -/
theorem exact_threshold_partial (hb : Builder α) (L : Lits α) (he : 0 < L.eps) (special : α → Bool) (srt : List α → List α) (hsrt : SortsAsc id srt)
    (maxBin feature : Nat) (x g h : Nat → α) (indices : List Nat) (hu : (indices.map x).toFinset.card ≤ maxBin)
    (hgap : ∀ i ∈ indices, ∀ j ∈ indices, x i < x j → x i + L.eps < x j) (minData : Int) (r : Split α)
    (hr : r = hb.findSplit L special (buildContinuous L srt maxBin feature x g h indices) (indices.map g).sum (indices.map h).sum minData)
    (hpos : 0 < r.gain) :
    r.leftCount = (atMost x indices r.threshold).length ∧ r.rightCount = (over x indices r.threshold).length ∧
      minData ≤ (atMost x indices r.threshold).length ∧ minData ≤ (over x indices r.threshold).length := by
  have hH := continuous_histogram L he srt hsrt maxBin feature x g h indices
  obtain ⟨e1, e2, -, -, -, -, m1, m2, -, -⟩ := split_divides_rows hb L special x g h indices _ hH minData r hr hpos
  by_cases hne : indices = []
  · subst hne
    rw [e1, e2]
    rw [e1] at m1
    rw [e2] at m2
    exact ⟨rfl, rfl, m1, m2⟩
  · obtain ⟨u, u1, u2, u3⟩ := unique_bins L srt hsrt maxBin feature x g h indices hne hu
    set H := buildContinuous L srt maxBin feature x g h indices with hHd
    -- the threshold is just above a value
    obtain ⟨i0, hi0, ht⟩ : ∃ i0 ∈ indices, r.threshold = x i0 + L.eps := by
      rcases split_is_best hb L special H (indices.map g).sum (indices.map h).sum minData with ⟨e, -⟩ | ⟨i, hi, -, -, e, -⟩
      · rw [hr, e] at hpos; exact absurd hpos (lt_irrefl _)
      · have hthr : r.threshold = ((H.bins[i]?).map (·.hi)).getD 0 := by rw [hr, e]; rfl
        have hlen : H.bins.length = u.length := by simpa using congrArg List.length u3
        have := congrArg (fun l : List α => l[i]?) u3
        simp only [List.getElem?_map] at this
        rw [this, List.getElem?_eq_getElem (by omega)] at hthr
        obtain ⟨i0, hi0, hx⟩ := (u2 u[i]).1 (List.getElem_mem _)
        exact ⟨i0, hi0, by rw [hthr, hx]; rfl⟩
    have hiff : ∀ i ∈ indices, (x i ≤ r.threshold ↔ x i < r.threshold) := by
      intro i hi
      rw [ht]
      refine ⟨fun hle => ?_, le_of_lt⟩
      rcases lt_or_ge (x i0) (x i) with h | h
      · have := hgap i0 hi0 i hi h
        linarith
      · linarith
    have eb : below x indices r.threshold = atMost x indices r.threshold := by
      unfold below atMost
      apply List.filter_congr
      intro i hi
      rw [decide_eq_decide, hiff i hi]
    have ea : above x indices r.threshold = over x indices r.threshold := by
      unfold above over
      apply List.filter_congr
      intro i hi
      rw [decide_eq_decide, ← not_lt, ← hiff i hi, not_le]
    rw [eb] at e1
    rw [ea] at e2
    exact ⟨e1, e2, e1 ▸ m1, e2 ▸ m2⟩

end greedy

/-! ### Not so with more values than bins -/

/-- six rows: 1, 2, 3, 3, 3, 3 -/
def rowsX : Nat → Rat := fun i => [1, 2, 3, 3, 3, 3].getD i 0
/-- their gradients -/
def rowsG : Nat → Rat := fun i => [-1, -1, 1, 1, 1, 1].getD i 0

/-- C119: with more distinct values than bins the threshold is a value of the data; the split found counts the rows below it, while
the trainer sends the rows at or below it left. Here the split promises 2 and 4 rows and the trainer sends all six left. -/
theorem quantile_threshold_mismatch :
    let r := Builder.findSplit ⟨2, 0, 0⟩ exL (fun _ => false)
      (buildContinuous exL (stableAsc id) 2 0 rowsX rowsG (fun _ => 1) [0, 1, 2, 3, 4, 5]) 2 6 1
    0 < r.gain ∧ r.leftCount = 2 ∧ r.rightCount = 4 ∧ (atMost rowsX [0, 1, 2, 3, 4, 5] r.threshold).length = 6 := by
  decide +kernel

/-! ### Categories -/

section categories
variable [Field α] [LinearOrder α] [IsStrictOrderedRing α]

/-- sum of the gradients of some bins -/
def gradOf (l : List (Bin α)) : α := (l.map (·.grad)).sum
/-- sum of the hessians of some bins -/
def hessOf (l : List (Bin α)) : α := (l.map (·.hess)).sum

theorem sorted_cut (key : Bin α → α) (c : α) (l : List (Bin α)) (hs : l.Pairwise fun a b => ¬ key b < key a) :
    ∃ k ≤ l.length, (∀ b ∈ l.take k, key b < c) ∧ ∀ b ∈ l.drop k, c ≤ key b := by
  induction l with
  | nil => exact ⟨0, by simp, by simp, by simp⟩
  | cons a l ih =>
    rw [List.pairwise_cons] at hs
    by_cases ha : key a < c
    · obtain ⟨k, hk, h1, h2⟩ := ih hs.2
      refine ⟨k + 1, by simpa using hk, ?_, by simpa using h2⟩
      intro b hb
      rw [List.take_succ_cons] at hb
      rcases List.mem_cons.1 hb with rfl | hb
      · exact ha
      · exact h1 b hb
    · refine ⟨0, by simp, by simp, ?_⟩
      intro b hb
      rw [List.drop_zero] at hb
      rcases List.mem_cons.1 hb with rfl | hb
      · exact not_lt.1 ha
      · exact (not_lt.1 ha).trans (not_lt.1 (hs.1 b hb))

theorem sum_le_of_cut (φ : Bin α → α) (P Q S T : List (Bin α)) (hp : (P ++ Q).Perm (S ++ T)) (hP : ∀ b ∈ P, φ b ≤ 0)
    (hQ : ∀ b ∈ Q, 0 ≤ φ b) : (P.map φ).sum ≤ (S.map φ).sum := by
  have hmin : ∀ l : List (Bin α), (l.map fun b => min (φ b) 0).sum ≤ (l.map φ).sum ∧ (l.map fun b => min (φ b) 0).sum ≤ 0 := by
    intro l
    induction l with
    | nil => simp
    | cons a l ih =>
      simp only [List.map_cons, List.sum_cons]
      exact ⟨add_le_add (min_le_left _ _) ih.1, add_nonpos (min_le_right _ _) ih.2⟩
  have eP : (P.map φ).sum = (P.map fun b => min (φ b) 0).sum := by
    congr 1; apply List.map_congr_left; intro b hb; rw [min_eq_left (hP b hb)]
  have eQ : (Q.map fun b => min (φ b) 0).sum = 0 := by
    apply List.sum_eq_zero
    intro y hy
    obtain ⟨b, hb, rfl⟩ := List.mem_map.1 hy
    exact min_eq_right (hQ b hb)
  have e := (hp.map fun b => min (φ b) 0).sum_eq
  rw [List.map_append, List.sum_append, List.map_append, List.sum_append, eQ, add_zero] at e
  rw [eP, e]
  have h1 := (hmin S).1
  have h2 := (hmin T).2
  linarith

theorem hessOf_ge (m : α) (hm : 0 < m) (l : List (Bin α)) (hl : ∀ b ∈ l, m ≤ b.hess) (hne : l ≠ []) : m ≤ hessOf l := by
  unfold hessOf
  cases l with
  | nil => exact absurd rfl hne
  | cons a l =>
    rw [List.map_cons, List.sum_cons]
    have h1 := hl a (by simp)
    have h2 : 0 ≤ (l.map (·.hess)).sum := by
      apply List.sum_nonneg
      intro y hy
      obtain ⟨b, hb, rfl⟩ := List.mem_map.1 hy
      exact hm.le.trans (hl b (List.mem_cons_of_mem _ hb))
    linarith

theorem countOf_ge (l : List (Bin α)) (hl : ∀ b ∈ l, 1 ≤ b.count) (hne : l ≠ []) : 1 ≤ countOf l := by
  unfold countOf
  cases l with
  | nil => exact absurd rfl hne
  | cons a l =>
    rw [List.map_cons, List.sum_cons]
    have h1 := hl a (by simp)
    have h2 : 0 ≤ (l.map (·.count)).sum := by
      apply List.sum_nonneg
      intro y hy
      obtain ⟨b, hb, rfl⟩ := List.mem_map.1 hy
      have := hl b (List.mem_cons_of_mem _ hb)
      omega
    omega

/-- sums of squares of a two-way division -/
theorem score_of_cut (a b a' b' A B A' B' : α) (hb : 0 < b) (hb' : 0 < b') (hB : 0 < B) (hB' : 0 < B') (hA : A + A' = a + a')
    (hBB : B + B' = b + b') (hΦ : (a / b - a' / b') * (2 * A - (a / b + a' / b') * B) ≥ (a / b - a' / b') * (2 * a - (a / b + a' / b') * b)) :
    a * a / b + a' * a' / b' ≤ A * A / B + A' * A' / B' := by
  set u := a / b with hu
  set v := a' / b' with hv
  have eu : a = u * b := by rw [hu]; field_simp
  have ev : a' = v * b' := by rw [hv]; field_simp
  clear_value u v
  clear hu hv
  have h1 : 2 * u * A - u ^ 2 * B ≤ A * A / B := by
    rw [le_div_iff₀ hB]
    nlinarith [sq_nonneg (A - u * B)]
  have h2 : 2 * v * A' - v ^ 2 * B' ≤ A' * A' / B' := by
    rw [le_div_iff₀ hB']
    nlinarith [sq_nonneg (A' - v * B')]
  have h3 : a * a / b = u ^ 2 * b := by rw [eu]; field_simp
  have h4 : a' * a' / b' = v ^ 2 * b' := by rw [ev]; field_simp
  rw [h3, h4]
  refine le_trans ?_ (add_le_add h1 h2)
  have hA' : A' = a + a' - A := by linarith
  have hB'' : B' = b + b' - B := by linarith
  rw [hA', hB'']
  subst eu ev
  nlinarith [hΦ]

/-- C118: without L2 and L1 regularisation and with `min_data_in_leaf ≤ 1`, the split found for a categorical feature has the largest
gain among **all** divisions of the categories into two non-empty sets, not only the prefixes that are tried -/
theorem categorical_optimal_partial (hb : Builder α) (hlam : hb.lambda = 0) (halp : hb.alpha ≤ 0) (L : Lits α) (hhalf : L.half = 1 / 2)
    (hmh : 0 < L.minHess) (special : α → Bool) (hs : ∀ v, special v = false) (toInt : α → Int) (ofNat : Nat → α)
    (srt : List (Bin α) → List (Bin α)) (hsrt : SortsAsc (fun b : Bin α => b.grad / (b.hess + hb.lambda)) srt) (H : Hist α)
    (hh : ∀ b ∈ H.bins, L.minHess ≤ b.hess) (hc : ∀ b ∈ H.bins, 1 ≤ b.count) (minData : Int) (hmd : minData ≤ 1)
    (S T : List (Bin α)) (hST : (S ++ T).Perm H.bins) (hS : S ≠ []) (hT : T ≠ []) :
    hb.gain L special (gradOf S) (hessOf S) (gradOf T) (hessOf T) (gradOf H.bins) (hessOf H.bins) ≤
      (hb.findCategorical L special toInt ofNat srt H (gradOf H.bins) (hessOf H.bins) minData).gain := by
  obtain ⟨hperm, hsorted⟩ := hsrt H.bins
  have hbest := categorical_split_is_best hb L special toInt ofNat srt H hperm.length_eq (gradOf H.bins) (hessOf H.bins) minData
  set r := hb.findCategorical L special toInt ofNat srt H (gradOf H.bins) (hessOf H.bins) minData with hr
  have hr0 : 0 ≤ r.gain := by
    rcases hbest with ⟨e, -⟩ | ⟨i, -, -, h0, e, -⟩
    · rw [e]; exact le_refl _
    · rw [e]; exact h0.le
  have hrmax : ∀ i < H.bins.length - 1, Admissible (srt H.bins) minData i →
      gainAt hb L special (srt H.bins) (gradOf H.bins) (hessOf H.bins) i ≤ r.gain := by
    rcases hbest with ⟨e, h⟩ | ⟨i, -, -, h0, e, h, -⟩
    · rw [e]; exact h
    · rw [e]; exact h
  have hgain : ∀ lg lh rg rh : α, L.minHess ≤ lh → L.minHess ≤ rh → lg + rg = gradOf H.bins → lh + rh = hessOf H.bins →
      hb.gain L special lg lh rg rh (gradOf H.bins) (hessOf H.bins) =
        1 / 2 * (lg * lg / lh + rg * rg / rh - gradOf H.bins * gradOf H.bins / hessOf H.bins) := by
    intro lg lh rg rh h1 h2 h3 h4
    unfold Builder.gain
    simp only [hlam, add_zero, hs, hhalf]
    rw [if_neg (by rintro (h | h | h) <;> linarith), if_neg (by simp), if_neg (not_lt.2 halp)]
  -- the main argument, for the side with the smaller ratio
  have main : ∀ S T : List (Bin α), (S ++ T).Perm H.bins → S ≠ [] → T ≠ [] →
      gradOf S / hessOf S < gradOf T / hessOf T →
      hb.gain L special (gradOf S) (hessOf S) (gradOf T) (hessOf T) (gradOf H.bins) (hessOf H.bins) ≤ r.gain := by
    intro S T hST hS hT huv
    have hSb : L.minHess ≤ hessOf S := hessOf_ge L.minHess hmh S (fun b hb => hh b (hST.mem_iff.1 (List.mem_append_left _ hb))) hS
    have hTb : L.minHess ≤ hessOf T := hessOf_ge L.minHess hmh T (fun b hb => hh b (hST.mem_iff.1 (List.mem_append_right _ hb))) hT
    have hbp : 0 < hessOf S := hmh.trans_le hSb
    have hbp' : 0 < hessOf T := hmh.trans_le hTb
    set u := gradOf S / hessOf S with hu
    set v := gradOf T / hessOf T with hv
    obtain ⟨k, hk, k1, k2⟩ := sorted_cut (fun b : Bin α => b.grad / (b.hess + hb.lambda)) ((u + v) / 2) (srt H.bins) hsorted
    set P := (srt H.bins).take k with hP
    set Q := (srt H.bins).drop k with hQ
    have hPQ : (P ++ Q).Perm H.bins := by rw [hP, hQ, List.take_append_drop]; exact hperm
    have hhP : ∀ b ∈ P, L.minHess ≤ b.hess := fun b hb => hh b (hPQ.mem_iff.1 (List.mem_append_left _ hb))
    have hhQ : ∀ b ∈ Q, L.minHess ≤ b.hess := fun b hb => hh b (hPQ.mem_iff.1 (List.mem_append_right _ hb))
    let φ : Bin α → α := fun b => 2 * b.grad - (u + v) * b.hess
    have hφ : ∀ l : List (Bin α), (l.map φ).sum = 2 * gradOf l - (u + v) * hessOf l := by
      intro l
      unfold gradOf hessOf
      induction l with
      | nil => simp
      | cons a l ih =>
        simp only [List.map_cons, List.sum_cons]
        rw [ih]
        show 2 * a.grad - (u + v) * a.hess + _ = _
        ring
    have hφP : ∀ b ∈ P, φ b ≤ 0 := by
      intro b hb
      have h1 := k1 b hb
      have h2 : 0 < b.hess := hmh.trans_le (hhP b hb)
      simp only [hlam, add_zero] at h1
      rw [div_lt_iff₀ h2] at h1
      show 2 * b.grad - (u + v) * b.hess ≤ 0
      linarith
    have hφQ : ∀ b ∈ Q, 0 ≤ φ b := by
      intro b hb
      have h1 := k2 b hb
      have h2 : 0 < b.hess := hmh.trans_le (hhQ b hb)
      simp only [hlam, add_zero] at h1
      rw [le_div_iff₀ h2] at h1
      show 0 ≤ 2 * b.grad - (u + v) * b.hess
      linarith
    have hle := sum_le_of_cut φ P Q S T (hPQ.trans hST.symm) hφP hφQ
    have hsumG : ∀ {l m : List (Bin α)}, (l ++ m).Perm H.bins → gradOf l + gradOf m = gradOf H.bins := by
      intro l m hp
      unfold gradOf
      rw [← (hp.map _).sum_eq, List.map_append, List.sum_append]
    have hsumH : ∀ {l m : List (Bin α)}, (l ++ m).Perm H.bins → hessOf l + hessOf m = hessOf H.bins := by
      intro l m hp
      unfold hessOf
      rw [← (hp.map _).sum_eq, List.map_append, List.sum_append]
    have eS : gradOf S = u * hessOf S := by rw [hu]; field_simp
    have eT : gradOf T = v * hessOf T := by rw [hv]; field_simp
    rw [hφ, hφ] at hle
    have hSneg : 2 * gradOf S - (u + v) * hessOf S < 0 := by
      rw [eS]
      have : 2 * (u * hessOf S) - (u + v) * hessOf S = -((v - u) * hessOf S) := by ring
      rw [this]
      have := mul_pos (sub_pos.2 huv) hbp
      linarith
    have hTpos : 0 < 2 * gradOf T - (u + v) * hessOf T := by
      rw [eT]
      have : 2 * (v * hessOf T) - (u + v) * hessOf T = (v - u) * hessOf T := by ring
      rw [this]
      exact mul_pos (sub_pos.2 huv) hbp'
    have hPne : P ≠ [] := by
      intro e
      rw [e] at hle
      simp only [gradOf, hessOf, List.map_nil, List.sum_nil, mul_zero, sub_zero] at hle hSneg
      exact absurd (lt_of_le_of_lt hle hSneg) (lt_irrefl _)
    have g1 := hsumG hPQ
    have g2 := hsumG hST
    have g3 := hsumH hPQ
    have g4 := hsumH hST
    have hQne : Q ≠ [] := by
      intro e
      rw [e] at g1 g3
      have e1 : gradOf P = gradOf S + gradOf T := by rw [g2, ← g1]; simp [gradOf]
      have e2 : hessOf P = hessOf S + hessOf T := by rw [g4, ← g3]; simp [hessOf]
      rw [e1, e2] at hle
      nlinarith
    have hPl : 0 < P.length := List.length_pos_of_ne_nil hPne
    have hQl : 0 < Q.length := List.length_pos_of_ne_nil hQne
    rw [hP, List.length_take] at hPl
    rw [hQ, List.length_drop] at hQl
    have hlen : (srt H.bins).length = H.bins.length := hperm.length_eq
    have hPb : L.minHess ≤ hessOf P := hessOf_ge L.minHess hmh P hhP hPne
    have hQb : L.minHess ≤ hessOf Q := hessOf_ge L.minHess hmh Q hhQ hQne
    have hadm : Admissible (srt H.bins) minData (k - 1) := by
      unfold Admissible
      rw [show k - 1 + 1 = k by omega, ← hP, ← hQ]
      exact ⟨hmd.trans (countOf_ge P (fun b hb => hc b (hPQ.mem_iff.1 (List.mem_append_left _ hb))) hPne),
        hmd.trans (countOf_ge Q (fun b hb => hc b (hPQ.mem_iff.1 (List.mem_append_right _ hb))) hQne)⟩
    refine le_trans ?_ (hrmax (k - 1) (by omega) hadm)
    unfold gainAt
    rw [show k - 1 + 1 = k by omega, ← hP, sumOver_eq, sumOver_eq]
    rw [show (P.map fun b => b.grad).sum = gradOf P from rfl, show (P.map fun b => b.hess).sum = hessOf P from rfl,
      show gradOf H.bins - gradOf P = gradOf Q by rw [← g1]; ring, show hessOf H.bins - hessOf P = hessOf Q by rw [← g3]; ring,
      hgain _ _ _ _ hSb hTb g2 g4, hgain _ _ _ _ hPb hQb g1 g3]
    have hcut := score_of_cut (gradOf S) (hessOf S) (gradOf T) (hessOf T) (gradOf P) (hessOf P) (gradOf Q) (hessOf Q) hbp hbp'
      (hmh.trans_le hPb) (hmh.trans_le hQb) (by rw [g1, g2]) (by rw [g3, g4])
      (by rw [← hu, ← hv]; exact mul_le_mul_of_nonpos_left hle (by linarith))
    linarith
  have hSb : L.minHess ≤ hessOf S := hessOf_ge L.minHess hmh S (fun b hb => hh b (hST.mem_iff.1 (List.mem_append_left _ hb))) hS
  have hTb : L.minHess ≤ hessOf T := hessOf_ge L.minHess hmh T (fun b hb => hh b (hST.mem_iff.1 (List.mem_append_right _ hb))) hT
  have g2 : gradOf S + gradOf T = gradOf H.bins := by
    unfold gradOf
    rw [← (hST.map _).sum_eq, List.map_append, List.sum_append]
  have g4 : hessOf S + hessOf T = hessOf H.bins := by
    unfold hessOf
    rw [← (hST.map _).sum_eq, List.map_append, List.sum_append]
  rcases lt_trichotomy (gradOf S / hessOf S) (gradOf T / hessOf T) with h | h | h
  · exact main S T hST hS hT h
  · rw [hgain _ _ _ _ hSb hTb g2 g4]
    refine le_trans (le_of_eq ?_) hr0
    have hbp : 0 < hessOf S := hmh.trans_le hSb
    have hbp' : 0 < hessOf T := hmh.trans_le hTb
    rw [← g2, ← g4]
    set u := gradOf S / hessOf S with hu
    have eS : gradOf S = u * hessOf S := by rw [hu]; field_simp
    have eT : gradOf T = u * hessOf T := by rw [h]; field_simp
    have hne : hessOf S + hessOf T ≠ 0 := by positivity
    rw [eS, eT]
    field_simp
    ring
  · have := main T S (List.perm_append_comm.trans hST) hT hS h
    rw [hgain _ _ _ _ hTb hSb (by rw [add_comm]; exact g2) (by rw [add_comm]; exact g4)] at this
    rw [hgain _ _ _ _ hSb hTb g2 g4]
    linarith

end categories

/-- three categories -/
def catBins : List (Bin Rat) := [⟨0, 1, 1, -1, 1⟩, ⟨1, 2, 6, -4, 6⟩, ⟨2, 3, 3, -5, 3⟩]

/-- C118: with L2 regularisation it is not optimal: for `reg_lambda = 1` and three categories with gradient sums `-1, -4, -5` and
`1, 6, 3` rows of hessian one, sending category 1 alone left gains more than the split found -/
theorem categorical_not_optimal :
    let hb : Builder Rat := ⟨255, 1, 0⟩
    let r := hb.findCategorical exL (fun _ => false) (fun _ => 0) (fun n => n) (stableAsc fun b : Bin Rat => b.grad / (b.hess + 1))
      ⟨0, catBins, [0, 1, 2, 3]⟩ (-10) 10 1
    r.gain = 25 / 176 ∧ hb.gain exL (fun _ => false) (-4) 6 (-6) 4 (-10) 10 = 76 / 385 ∧ (25 / 176 : Rat) < 76 / 385 := by
  decide +kernel

/-! ### Concrete cases -/

example : ([1, 2, 3].map fun i : Nat => (i : Rat)).toFinset.card ≤ 3 := by decide +kernel

example : ((Builder.findSplit ⟨5, 0, 0⟩ exL (fun _ => false)
    (buildContinuous exL (stableAsc id) 5 0 rowsX rowsG (fun _ => 1) [0, 1, 2, 3, 4, 5]) 2 6 1).leftCount,
    (Builder.findSplit ⟨5, 0, 0⟩ exL (fun _ => false)
    (buildContinuous exL (stableAsc id) 5 0 rowsX rowsG (fun _ => 1) [0, 1, 2, 3, 4, 5]) 2 6 1).threshold) = (2, 2 + 1 / 100) := by
  decide +kernel

example : SortsAsc (fun b : Bin Rat => b.grad / (b.hess + 1)) (stableAsc fun b : Bin Rat => b.grad / (b.hess + 1)) := stableAsc_sorts _

example : (Builder.findCategorical (⟨255, 0, 0⟩ : Builder Rat) exL (fun _ => false) (fun v => v.floor) (fun n => n)
    (stableAsc fun b : Bin Rat => b.grad / (b.hess + 0)) ⟨0, catBins, [0, 1, 2, 3]⟩ (-10) 10 1).leftCategories = [2] := by decide +kernel

end Scigo.Hist
