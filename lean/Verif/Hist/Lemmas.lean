import Verif.Hist.Model
import Mathlib.Algebra.Order.Field.Basic
import Mathlib.Data.List.GetD
import Mathlib.Tactic.Linarith

/-!
# Lemmas on bins and bounds
-/

set_option linter.unusedSectionVars false

namespace Scigo.Hist

variable {α : Type}

/-! ### Searching (no law of the order is used) -/

section search
variable [DecidableEq α] [LT α] [DecidableLT α] [LE α] [DecidableLE α] [Zero α] [One α] [Add α] [Sub α]

theorem searchBin_range (v : α) (b : List α) (left right m : Int) (h : searchBin v b left right = some m) : left ≤ m ∧ m ≤ right := by
  fun_induction searchBin v b left right with
  | case1 l r hlr mid hmid =>
    simp only [Option.some.injEq] at h
    have e : mid = (l + r) / 2 := rfl
    omega
  | case2 l r hlr mid hmid hlt ih =>
    have := ih h
    have e : mid = (l + r) / 2 := rfl
    omega
  | case3 l r hlr mid hmid hlt ih =>
    have := ih h
    have e : mid = (l + r) / 2 := rfl
    omega
  | case4 l r hlr => exact absurd h (by simp)

theorem searchBinOpt_range (v : α) (b : List α) (left right m : Int) (h : searchBinOpt v b left right = some m) :
    left ≤ m ∧ m ≤ right := by
  fun_induction searchBinOpt v b left right with
  | case1 l r hlr mid hlt ih =>
    have := ih h
    have e : mid = (l + r) / 2 := rfl
    omega
  | case2 l r hlr mid hlt hle ih =>
    have := ih h
    have e : mid = (l + r) / 2 := rfl
    omega
  | case3 l r hlr mid hlt hle =>
    simp only [Option.some.injEq] at h
    have e : mid = (l + r) / 2 := rfl
    omega
  | case4 l r hlr => exact absurd h (by simp)

theorem findBinIndex_range (v : α) (b : List α) (hb : 2 ≤ b.length) : 0 ≤ findBinIndex v b ∧ findBinIndex v b < (b.length - 1 : Nat) := by
  unfold findBinIndex
  cases h : searchBin v b 0 ((b.length : Int) - 2) with
  | some m => have := searchBin_range v b _ _ m h; simp only; omega
  | none => simp only; split_ifs <;> omega

end search

/-! ### Filling -/

section fill
variable [DecidableEq α] [LT α] [DecidableLT α] [LE α] [DecidableLE α] [Zero α] [One α] [Add α] [Sub α]

theorem emptyBins_length (b : List α) : (emptyBins b).length = b.length - 1 := by simp [emptyBins]

theorem addRow_length (find : α → List α → Int) (b : List α) (v g h : α) (bins : List (Bin α)) :
    (addRow find b v g h bins).length = bins.length := by
  unfold addRow; split_ifs <;> simp

theorem fill_length (find : α → List α → Int) (b : List α) (x g h : Nat → α) (indices : List Nat) :
    (fill find b x g h indices).length = b.length - 1 := by
  unfold fill
  rw [← emptyBins_length b]
  generalize emptyBins b = bins
  induction indices generalizing bins with
  | nil => rfl
  | cons i l ih => rw [List.foldl_cons, ih, addRow_length]

/-- the rows that the search sends to bin `k` -/
def rowsIn (find : α → List α → Int) (b : List α) (x : Nat → α) (indices : List Nat) (k : Nat) : List Nat :=
  indices.filter fun idx => find (x idx) b = (k : Int)

/-- each bin holds exactly the rows sent to it, added in order -/
theorem fill_get (find : α → List α → Int) (b : List α) (x g h : Nat → α) (indices : List Nat) (k : Nat) (hk : k < b.length - 1) :
    (fill find b x g h indices)[k]? = some ⟨b.getD k 0, b.getD (k + 1) 0, ((rowsIn find b x indices k).length : Int),
      sumOver (rowsIn find b x indices k) g, sumOver (rowsIn find b x indices k) h⟩ := by
  have gen : ∀ (l : List Nat) (bins : List (Bin α)) (c : Bin α), bins.length = b.length - 1 → bins[k]? = some c →
      (l.foldl (fun bins idx => addRow find b (x idx) (g idx) (h idx) bins) bins)[k]? =
        some ⟨c.lo, c.hi, c.count + ((rowsIn find b x l k).length : Int), (rowsIn find b x l k).foldl (fun s i => s + g i) c.grad,
          (rowsIn find b x l k).foldl (fun s i => s + h i) c.hess⟩ := by
    intro l
    induction l with
    | nil => intro bins c _ hc; simpa [rowsIn] using hc
    | cons i l ih =>
      intro bins c hlen hc
      rw [List.foldl_cons]
      by_cases hf : find (x i) b = (k : Int)
      · have hadd : (addRow find b (x i) (g i) (h i) bins)[k]? = some (c.add (g i) (h i)) := by
          unfold addRow
          rw [if_pos (by rw [hf, hlen]; omega), hf, Int.toNat_natCast]
          simp [List.getElem?_modify, hc]
        rw [ih _ _ (by rw [addRow_length, hlen]) hadd]
        have hr : rowsIn find b x (i :: l) k = i :: rowsIn find b x l k := by
          unfold rowsIn; rw [List.filter_cons_of_pos (by simp [hf])]
        rw [hr]
        simp only [Bin.add, List.length_cons, List.foldl_cons, Option.some.injEq, Bin.mk.injEq, true_and, and_true]
        push_cast
        omega
      · have hadd : (addRow find b (x i) (g i) (h i) bins)[k]? = some c := by
          unfold addRow
          split_ifs with hr
          · rw [List.getElem?_modify, hc]
            have : ¬ (find (x i) b).toNat = k := by intro he; apply hf; omega
            simp [this]
          · exact hc
        rw [ih _ _ (by rw [addRow_length, hlen]) hadd]
        have hr : rowsIn find b x (i :: l) k = rowsIn find b x l k := by
          unfold rowsIn; rw [List.filter_cons_of_neg (by simp [hf])]
        rw [hr]
  have h0 : (emptyBins b)[k]? = some ⟨b.getD k 0, b.getD (k + 1) 0, 0, 0, 0⟩ := by
    simp [emptyBins, hk]
  have := gen indices (emptyBins b) _ (emptyBins_length b) h0
  rw [fill, this]
  simp [sumOver]

end fill

/-! ### Totals -/

theorem sum_modify {β M : Type} [AddCommMonoid M] (f : β → M) (u : β → β) (c : M) (hu : ∀ b, f (u b) = f b + c) (l : List β) (k : Nat)
    (hk : k < l.length) : ((l.modify k u).map f).sum = (l.map f).sum + c := by
  induction l generalizing k with
  | nil => simp at hk
  | cons a l ih =>
    cases k with
    | zero => simp [hu, add_assoc, add_comm c]
    | succ k => simp only [List.modify_succ_cons, List.map_cons, List.sum_cons]; rw [ih k (by simpa using hk), add_assoc]

/-! ### Correct bins over a linear order -/

section order
variable [LinearOrder α] [Zero α] [One α] [Add α] [Sub α]

theorem getD_mono (b : List α) (hs : b.Pairwise (· < ·)) {i j : Nat} (hij : i < j) (hj : j < b.length) : b.getD i 0 < b.getD j 0 := by
  rw [List.getD_eq_getElem _ _ (by omega), List.getD_eq_getElem _ _ hj]
  exact List.pairwise_iff_getElem.1 hs i j _ _ hij

theorem getD_mono_le (b : List α) (hs : b.Pairwise (· < ·)) {i j : Nat} (hij : i ≤ j) (hj : j < b.length) : b.getD i 0 ≤ b.getD j 0 := by
  rcases Nat.lt_or_ge i j with h | h
  · exact (getD_mono b hs h hj).le
  · have : i = j := by omega
    rw [this]

theorem searchBin_spec (v : α) (b : List α) (hs : b.Pairwise (· < ·)) (left right : Int) (hl : 0 ≤ left) (hr : right + 1 < b.length)
    (hlr : left ≤ right + 1) (h1 : b.getD left.toNat 0 ≤ v) (h2 : v < b.getD (right + 1).toNat 0) :
    ∃ m, searchBin v b left right = some m ∧ b.getD m.toNat 0 ≤ v ∧ v < b.getD (m + 1).toNat 0 := by
  fun_induction searchBin v b left right with
  | case1 l r hle mid hmid => exact ⟨mid, rfl, hmid.1, hmid.2⟩
  | case2 l r hle mid hmid hlt ih =>
    have e : mid = (l + r) / 2 := rfl
    have hml : l < mid := by
      by_contra hc
      have : mid = l := by omega
      rw [this] at hlt
      exact absurd h1 (not_le.2 hlt)
    exact ih hl (by omega) (by omega) h1 (by simpa using hlt)
  | case3 l r hle mid hmid hlt ih =>
    have e : mid = (l + r) / 2 := rfl
    have hge : b.getD (mid + 1).toNat 0 ≤ v := by
      by_contra hc
      exact hmid ⟨not_lt.1 hlt, not_le.1 hc⟩
    exact ih (by omega) hr (by omega) hge h2
  | case4 l r hle =>
    have : l = r + 1 := by omega
    subst this
    exact absurd h2 (not_lt.2 h1)

theorem searchBinOpt_spec (v : α) (b : List α) (hs : b.Pairwise (· < ·)) (left right : Int) (hl : 0 ≤ left) (hr : right + 1 < b.length)
    (hlr : left ≤ right + 1) (h1 : b.getD left.toNat 0 ≤ v) (h2 : v < b.getD (right + 1).toNat 0) :
    ∃ m, searchBinOpt v b left right = some m ∧ b.getD m.toNat 0 ≤ v ∧ v < b.getD (m + 1).toNat 0 := by
  fun_induction searchBinOpt v b left right with
  | case1 l r hle mid hlt ih =>
    have e : mid = (l + r) / 2 := rfl
    have hml : l < mid := by
      by_contra hc
      have : mid = l := by omega
      rw [this] at hlt
      exact absurd h1 (not_le.2 hlt)
    exact ih hl (by omega) (by omega) h1 (by simpa using hlt)
  | case2 l r hle mid hlt hge ih =>
    have e : mid = (l + r) / 2 := rfl
    exact ih (by omega) hr (by omega) hge h2
  | case3 l r hle mid hlt hge => exact ⟨mid, rfl, not_lt.1 hlt, not_le.1 hge⟩
  | case4 l r hle =>
    have : l = r + 1 := by omega
    subst this
    exact absurd h2 (not_lt.2 h1)

/-- on increasing bounds the search finds the bin of the value and no other -/
theorem findBinIndex_iff (v : α) (b : List α) (hs : b.Pairwise (· < ·)) (hb : 2 ≤ b.length) (h1 : b.getD 0 0 ≤ v)
    (h2 : v < b.getD (b.length - 1) 0) (k : Nat) (hk : k < b.length - 1) :
    findBinIndex v b = (k : Int) ↔ b.getD k 0 ≤ v ∧ v < b.getD (k + 1) 0 := by
  obtain ⟨m, hm, g1, g2⟩ := searchBin_spec v b hs 0 ((b.length : Int) - 2) (le_refl _) (by omega) (by omega) (by simpa using h1)
    (by rw [show ((b.length : Int) - 2 + 1).toNat = b.length - 1 by omega]; exact h2)
  obtain ⟨r1, r2⟩ := searchBin_range v b _ _ m hm
  have hf : findBinIndex v b = m := by unfold findBinIndex; rw [hm]
  rw [hf]
  constructor
  · rintro rfl
    exact ⟨by simpa using g1, by simpa using g2⟩
  · rintro ⟨k1, k2⟩
    rcases lt_trichotomy m (k : Int) with hlt | heq | hgt
    · have : b.getD (m + 1).toNat 0 ≤ b.getD k 0 := getD_mono_le b hs (by omega) (by omega)
      exact absurd (lt_of_lt_of_le g2 (this.trans k1)) (lt_irrefl _)
    · exact heq
    · have : b.getD (k + 1) 0 ≤ b.getD m.toNat 0 := getD_mono_le b hs (by omega) (by omega)
      exact absurd (lt_of_lt_of_le k2 (this.trans g1)) (lt_irrefl _)

theorem findBinIndexOpt_iff (v : α) (b : List α) (hs : b.Pairwise (· < ·)) (hb : 2 ≤ b.length) (h1 : b.getD 0 0 ≤ v)
    (h2 : v < b.getD (b.length - 1) 0) (k : Nat) (hk : k < b.length - 1) :
    findBinIndexOpt v b = (k : Int) ↔ b.getD k 0 ≤ v ∧ v < b.getD (k + 1) 0 := by
  obtain ⟨m, hm, g1, g2⟩ := searchBinOpt_spec v b hs 0 ((b.length : Int) - 2) (le_refl _) (by omega) (by omega) (by simpa using h1)
    (by rw [show ((b.length : Int) - 2 + 1).toNat = b.length - 1 by omega]; exact h2)
  obtain ⟨r1, r2⟩ := searchBinOpt_range v b _ _ m hm
  have hf : findBinIndexOpt v b = m := by unfold findBinIndexOpt; rw [hm]
  rw [hf]
  constructor
  · rintro rfl
    exact ⟨by simpa using g1, by simpa using g2⟩
  · rintro ⟨k1, k2⟩
    rcases lt_trichotomy m (k : Int) with hlt | heq | hgt
    · have : b.getD (m + 1).toNat 0 ≤ b.getD k 0 := getD_mono_le b hs (by omega) (by omega)
      exact absurd (lt_of_lt_of_le g2 (this.trans k1)) (lt_irrefl _)
    · exact heq
    · have : b.getD (k + 1) 0 ≤ b.getD m.toNat 0 := getD_mono_le b hs (by omega) (by omega)
      exact absurd (lt_of_lt_of_le k2 (this.trans g1)) (lt_irrefl _)

/-! ### uniq and rising -/

theorem uniqFrom_spec (prev : α) (l : List α) (hs : (prev :: l).Pairwise (· ≤ ·)) :
    (uniqFrom prev l).Pairwise (· < ·) ∧ (∀ y ∈ uniqFrom prev l, prev < y) ∧ ∀ y, y ∈ prev :: uniqFrom prev l ↔ y ∈ prev :: l := by
  induction l generalizing prev with
  | nil => simp [uniqFrom]
  | cons b l ih =>
    rw [List.pairwise_cons] at hs
    obtain ⟨i1, i2, i3⟩ := ih b hs.2
    have hpb : prev ≤ b := hs.1 b List.mem_cons_self
    unfold uniqFrom
    by_cases h : b ≠ prev
    · rw [if_pos h]
      have hlt : prev < b := lt_of_le_of_ne hpb (Ne.symm h)
      refine ⟨List.pairwise_cons.2 ⟨i2, i1⟩, ?_, ?_⟩
      · intro y hy
        rcases List.mem_cons.1 hy with rfl | hy
        · exact hlt
        · exact hlt.trans (i2 y hy)
      · intro y
        rw [List.mem_cons, List.mem_cons (a := y) (b := prev), i3 y]
    · rw [if_neg h]
      have he : b = prev := not_not.1 h
      subst he
      refine ⟨i1, i2, fun y => ?_⟩
      rw [i3 y]
      simp

theorem uniq_spec (l : List α) (hs : l.Pairwise (· ≤ ·)) : (uniq l).Pairwise (· < ·) ∧ ∀ y, y ∈ uniq l ↔ y ∈ l := by
  cases l with
  | nil => simp [uniq]
  | cons a l =>
    obtain ⟨h1, h2, h3⟩ := uniqFrom_spec a l hs
    exact ⟨List.pairwise_cons.2 ⟨h2, h1⟩, h3⟩

theorem uniq_head (l : List α) : (uniq l).getD 0 0 = l.getD 0 0 := by cases l <;> rfl

theorem risingFrom_spec (last : α) (l : List α) :
    (last :: risingFrom last l).Pairwise (· < ·) ∧ (∀ y ∈ l, (∀ z ∈ last :: l, z ≤ y) → last < y → y ∈ risingFrom last l) ∧
      ∀ y ∈ risingFrom last l, y ∈ l := by
  induction l generalizing last with
  | nil => simp [risingFrom]
  | cons b l ih =>
    unfold risingFrom
    by_cases h : last < b
    · rw [if_pos h]
      obtain ⟨i1, i2, i3⟩ := ih b
      refine ⟨List.pairwise_cons.2 ⟨?_, i1⟩, ?_, ?_⟩
      · intro y hy
        rcases List.mem_cons.1 hy with rfl | hy
        · exact h
        · exact h.trans ((List.pairwise_cons.1 i1).1 y hy)
      · intro y hy hmax hlt
        rcases List.mem_cons.1 hy with rfl | hy
        · exact List.mem_cons_self
        · by_cases hby : b < y
          · exact List.mem_cons_of_mem _ (i2 y hy (fun z hz => hmax z (List.mem_cons_of_mem _ hz)) hby)
          · have : y = b := le_antisymm (not_lt.1 hby) (hmax b (by simp))
            rw [this]; exact List.mem_cons_self
      · intro y hy
        rcases List.mem_cons.1 hy with rfl | hy
        · exact List.mem_cons_self
        · exact List.mem_cons_of_mem _ (i3 y hy)
    · rw [if_neg h]
      obtain ⟨i1, i2, i3⟩ := ih last
      refine ⟨i1, ?_, fun y hy => List.mem_cons_of_mem _ (i3 y hy)⟩
      intro y hy hmax hlt
      rcases List.mem_cons.1 hy with rfl | hy
      · exact absurd hlt h
      · refine i2 y hy (fun z hz => hmax z ?_) hlt
        rcases List.mem_cons.1 hz with rfl | hz
        · simp
        · simp [hz]

theorem le_last_of_sorted (l : List α) (hs : l.Pairwise (· < ·)) (y : α) (hy : y ∈ l) : y ≤ l.getD (l.length - 1) 0 := by
  obtain ⟨i, hi, rfl⟩ := List.getElem_of_mem hy
  rw [← List.getD_eq_getElem l 0 hi]
  exact getD_mono_le l hs (by omega) (by omega)

theorem head_le_of_sorted (l : List α) (hs : l.Pairwise (· < ·)) (y : α) (hy : y ∈ l) : l.getD 0 0 ≤ y := by
  obtain ⟨i, hi, rfl⟩ := List.getElem_of_mem hy
  rw [← List.getD_eq_getElem l 0 hi]
  exact getD_mono_le l hs (by omega) (by omega)

end order

section field
variable [Field α] [LinearOrder α] [IsStrictOrderedRing α]

theorem sorted_le (srt : List α → List α) (hsrt : SortsAsc id srt) (l : List α) : (srt l).Pairwise (· ≤ ·) :=
  (hsrt l).2.imp fun h => not_lt.1 h

/-- bounds of `findBinBoundaries`: increasing, at least two, around all values -/
theorem bounds_spec (L : Lits α) (he : 0 < L.eps) (srt : List α → List α) (hsrt : SortsAsc id srt) (maxBin : Nat)
    (values : List α) :
    (findBinBoundaries L srt maxBin values).Pairwise (· < ·) ∧ 2 ≤ (findBinBoundaries L srt maxBin values).length ∧
      ∀ v ∈ values, (findBinBoundaries L srt maxBin values).getD 0 0 ≤ v ∧
        v < (findBinBoundaries L srt maxBin values).getD ((findBinBoundaries L srt maxBin values).length - 1) 0 := by
  unfold findBinBoundaries
  by_cases hv : values.length = 0
  · rw [if_pos hv]
    have : values = [] := List.length_eq_zero_iff.1 hv
    subst this
    simp
  · rw [if_neg hv]
    have hsort := sorted_le srt hsrt values
    have hmem : ∀ v, v ∈ srt values ↔ v ∈ values := fun v => (hsrt values).1.mem_iff
    have hlen : (srt values).length = values.length := (hsrt values).1.length_eq
    obtain ⟨u1, u2⟩ := uniq_spec (srt values) hsort
    have hlast : ∀ v ∈ values, v ≤ (srt values).getD ((srt values).length - 1) 0 := by
      intro v hv'
      obtain ⟨i, hi, rfl⟩ := List.getElem_of_mem ((hmem v).2 hv')
      rw [List.getD_eq_getElem _ _ (by omega)]
      rcases Nat.lt_or_ge i ((srt values).length - 1) with h | h
      · exact List.pairwise_iff_getElem.1 hsort i _ _ _ h
      · have : i = (srt values).length - 1 := by omega
        simp only [this, le_refl]
    have hhead : ∀ v ∈ values, (srt values).getD 0 0 ≤ v := by
      intro v hv'
      obtain ⟨i, hi, rfl⟩ := List.getElem_of_mem ((hmem v).2 hv')
      rw [List.getD_eq_getElem _ _ (by omega)]
      rcases Nat.eq_zero_or_pos i with h | h
      · simp only [h, le_refl]
      · exact List.pairwise_iff_getElem.1 hsort 0 i _ _ h
    simp only
    split_ifs with hu
    · -- all distinct values
      set U := uniq (srt values) with hU
      have hUne : U ≠ [] := by
        intro h0
        have : ∀ v, v ∉ values := fun v hv' => by have := (u2 v).2 ((hmem v).2 hv'); rw [h0] at this; simp at this
        exact hv (by rw [List.length_eq_zero_iff]; exact List.eq_nil_iff_forall_not_mem.2 this)
      have hUlen : 0 < U.length := List.length_pos_iff.2 hUne
      have hh0 : ∀ y ∈ U, U.getD 0 0 ≤ y := fun y hy => head_le_of_sorted U u1 y hy
      refine ⟨List.pairwise_cons.2 ⟨?_, ?_⟩, by simp; omega, ?_⟩
      · intro y hy
        obtain ⟨z, hz, rfl⟩ := List.mem_map.1 hy
        have := hh0 z hz
        linarith
      · rw [List.pairwise_map]
        exact u1.imp fun h => by linarith
      · intro v hv'
        have hvU : v ∈ U := (u2 v).2 ((hmem v).2 hv')
        constructor
        · rw [List.getD_cons_zero]
          have := hh0 v hvU
          linarith
        · have e : ((U.getD 0 0 - L.eps) :: U.map (fun u => u + L.eps)).getD
              (((U.getD 0 0 - L.eps) :: U.map (fun u => u + L.eps)).length - 1) 0 = U.getD (U.length - 1) 0 + L.eps := by
            simp only [List.length_cons, List.length_map, Nat.add_sub_cancel]
            obtain ⟨k, hk⟩ : ∃ k, U.length = k + 1 := ⟨U.length - 1, by omega⟩
            rw [hk, List.getD_cons_succ, Nat.add_sub_cancel, List.getD_eq_getElem _ _ (by simp [hk]),
              List.getD_eq_getElem _ _ (by omega), List.getElem_map]
          rw [e]
          have := le_last_of_sorted U u1 v hvU
          linarith
    · -- quantiles
      set lo := (srt values).getD 0 0 - L.eps with hlo
      set hi := (srt values).getD ((srt values).length - 1) 0 + L.eps with hhi
      have hq : quantileBounds L maxBin (srt values) = lo :: (((List.range (maxBin - 1)).map fun i =>
          (srt values).getD (((srt values).length - 1) * (i + 1) / maxBin) 0) ++ [hi]) := rfl
      rw [hq]
      simp only
      set mid := (List.range (maxBin - 1)).map fun i => (srt values).getD (((srt values).length - 1) * (i + 1) / maxBin) 0 with hmid
      obtain ⟨v0, hv0⟩ : ∃ v, v ∈ values := List.exists_mem_of_length_pos (by omega)
      have hlohi : lo < hi := by have := hhead v0 hv0; have := hlast v0 hv0; linarith
      have hmidle : ∀ z ∈ mid, z ≤ hi := by
        intro z hz
        obtain ⟨i, hi', rfl⟩ := List.mem_map.1 hz
        rw [List.mem_range] at hi'
        have hidx : ((srt values).length - 1) * (i + 1) / maxBin < (srt values).length := by
          have hle : ((srt values).length - 1) * (i + 1) / maxBin ≤ ((srt values).length - 1) * maxBin / maxBin :=
            Nat.div_le_div_right (Nat.mul_le_mul_left _ (by omega))
          rw [Nat.mul_div_cancel _ (by omega)] at hle
          omega
        rw [List.getD_eq_getElem _ _ hidx]
        have := hlast _ ((hmem _).1 (List.getElem_mem hidx))
        linarith
      obtain ⟨r1, r2, r3⟩ := risingFrom_spec lo (mid ++ [hi])
      have hin : hi ∈ risingFrom lo (mid ++ [hi]) := by
        refine r2 hi (by simp) ?_ hlohi
        intro z hz
        rcases List.mem_cons.1 hz with rfl | hz
        · exact hlohi.le
        · rcases List.mem_append.1 hz with hz | hz
          · exact hmidle z hz
          · rw [List.mem_singleton.1 hz]
      have hpos : 0 < (risingFrom lo (mid ++ [hi])).length := List.length_pos_of_mem hin
      refine ⟨r1, by rw [List.length_cons]; omega, ?_⟩
      intro v hv'
      constructor
      · rw [List.getD_cons_zero]
        have := hhead v hv'
        linarith
      · have := le_last_of_sorted _ r1 hi (List.mem_cons_of_mem _ hin)
        have := hlast v hv'
        linarith

/-- bounds of `findBinBoundariesOptimized`: increasing, at least two, around all values, when `maxBins ≥ 1` and the index
computation is exact -/
theorem boundsOpt_spec (L : Lits α) (he : 0 < L.eps) (trunc : Nat → Nat → Nat → Nat)
    (ht : ∀ i n m, trunc i n m = i * (n - 1) / m) (srt : List α → List α) (hsrt : SortsAsc id srt) (maxBin : Nat) (hm : 0 < maxBin)
    (values : List α) :
    (findBinBoundariesOpt L trunc srt maxBin values).Pairwise (· < ·) ∧ 2 ≤ (findBinBoundariesOpt L trunc srt maxBin values).length ∧
      ∀ v ∈ values, (findBinBoundariesOpt L trunc srt maxBin values).getD 0 0 ≤ v ∧
        v < (findBinBoundariesOpt L trunc srt maxBin values).getD ((findBinBoundariesOpt L trunc srt maxBin values).length - 1) 0 := by
  unfold findBinBoundariesOpt
  by_cases hv : values.length = 0
  · rw [if_pos hv]
    have : values = [] := List.length_eq_zero_iff.1 hv
    subst this
    simp
  · rw [if_neg hv]
    have hsort := sorted_le srt hsrt values
    have hmem : ∀ v, v ∈ srt values ↔ v ∈ values := fun v => (hsrt values).1.mem_iff
    obtain ⟨u1, u2⟩ := uniq_spec (srt values) hsort
    simp only
    set U := uniq (srt values) with hU
    have hUne : U ≠ [] := by
      intro h0
      have : ∀ v, v ∉ values := fun v hv' => by have := (u2 v).2 ((hmem v).2 hv'); rw [h0] at this; simp at this
      exact hv (by rw [List.length_eq_zero_iff]; exact List.eq_nil_iff_forall_not_mem.2 this)
    have hUlen : 0 < U.length := List.length_pos_iff.2 hUne
    have hvU : ∀ v ∈ values, v ∈ U := fun v hv' => (u2 v).2 ((hmem v).2 hv')
    -- common form: an increasing list of values starting at the smallest, then the end
    have gen : ∀ P : List α, P.Pairwise (· < ·) → 0 < P.length → (∀ y ∈ P, y ∈ U) → P.getD 0 0 = U.getD 0 0 →
        (P ++ [U.getD (U.length - 1) 0 + L.eps]).Pairwise (· < ·) ∧ 2 ≤ (P ++ [U.getD (U.length - 1) 0 + L.eps]).length ∧
        ∀ v ∈ values, (P ++ [U.getD (U.length - 1) 0 + L.eps]).getD 0 0 ≤ v ∧
          v < (P ++ [U.getD (U.length - 1) 0 + L.eps]).getD ((P ++ [U.getD (U.length - 1) 0 + L.eps]).length - 1) 0 := by
      intro P hP hlen hsub hhead
      refine ⟨List.pairwise_append.2 ⟨hP, by simp, ?_⟩, by simp; omega, ?_⟩
      · intro a ha b hb
        rw [List.mem_singleton.1 hb]
        have := le_last_of_sorted U u1 a (hsub a ha)
        linarith
      · intro v hv'
        constructor
        · rw [List.getD_append _ _ _ _ hlen, hhead]
          exact head_le_of_sorted U u1 v (hvU v hv')
        · rw [List.getD_append_right _ _ _ _ (by simp)]
          simp only [List.length_append, List.length_singleton, Nat.add_sub_cancel, Nat.sub_self, List.getD_cons_zero]
          have := le_last_of_sorted U u1 v (hvU v hv')
          linarith
    split_ifs with hu
    · exact gen U u1 hUlen (fun y hy => hy) rfl
    · have hidx : ∀ i, i < maxBin → trunc i U.length maxBin < U.length := by
        intro i hi
        rw [ht]
        have hle : i * (U.length - 1) / maxBin ≤ maxBin * (U.length - 1) / maxBin :=
          Nat.div_le_div_right (Nat.mul_le_mul_right _ (by omega))
        rw [Nat.mul_div_cancel_left _ hm] at hle
        omega
      have hinc : ∀ i j, i < j → trunc i U.length maxBin < trunc j U.length maxBin := by
        intro i j hij
        rw [ht, ht]
        have h1 : i * (U.length - 1) / maxBin + 1 ≤ (i + 1) * (U.length - 1) / maxBin := by
          rw [← Nat.add_div_right _ hm]
          apply Nat.div_le_div_right
          rw [Nat.add_mul, Nat.one_mul]
          omega
        have h2 : (i + 1) * (U.length - 1) / maxBin ≤ j * (U.length - 1) / maxBin :=
          Nat.div_le_div_right (Nat.mul_le_mul_right _ hij)
        omega
      apply gen
      · rw [List.pairwise_map]
        rw [List.pairwise_iff_getElem]
        intro i j hi hj hij
        simp only [List.length_range] at hi hj
        simp only [List.getElem_range]
        exact getD_mono U u1 (hinc i j hij) (hidx j hj)
      · simpa using hm
      · intro y hy
        obtain ⟨i, hi, rfl⟩ := List.mem_map.1 hy
        rw [List.mem_range] at hi
        rw [List.getD_eq_getElem _ _ (hidx i hi)]
        exact List.getElem_mem _
      · rw [List.getD_eq_getElem _ _ (by simpa using hm)]
        simp [ht]

end field

end Scigo.Hist
