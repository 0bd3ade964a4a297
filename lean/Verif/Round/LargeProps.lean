import Verif.Base.Binary64Add
import Verif.Hist.GreedyProps
import Verif.Trainer.Grow
import Mathlib.Tactic.Linarith

/-!
# C294: splits on features with large values, in float64

The split search of the booster puts the end of a bin `1e-10` above the value it holds. In float64 a value of magnitude `2^21` or more
absorbs this margin.
-/

set_option linter.unusedSectionVars false

namespace Scigo.Binary64

/-- a binary64 number of magnitude at least `2^21` absorbs every addend of magnitude below `2^-33` -/
theorem rnd_absorb {u d : ℚ} (hu : rnd u = u) (h21 : pow2 21 ≤ |u|) (hd : |d| < pow2 (-33)) : rnd (u + d) = u := by
  have hu0 : u ≠ 0 := by
    rintro rfl
    rw [abs_zero] at h21
    exact absurd (pow2_pos 21) (not_lt.2 h21)
  obtain ⟨e1, e2⟩ := expo_spec u hu0
  have hexp : 21 ≤ expo u := by
    have := pow2_lt_iff.1 (lt_of_le_of_lt h21 e2)
    omega
  have hlast : last u = expo u - 52 := by unfold last; omega
  -- `u` as a whole number of units
  have hum : u = (roundEven (u / pow2 (last u)) : ℚ) * pow2 (last u) := by
    conv_lhs => rw [← hu]
    unfold rnd
    rw [if_neg hu0]
  set m := roundEven (u / pow2 (last u)) with hmd
  have hq0 : |d| < pow2 (expo u - 52) := lt_of_lt_of_le hd (pow2_le (by omega))
  have hml : |u| + pow2 (expo u - 52) ≤ pow2 (expo u + 1) := by
    have hp := pow2_pos (expo u - 52)
    have hs : pow2 (expo u + 1) = ((2 ^ 53 : Int) : ℚ) * pow2 (expo u - 52) := by
      rw [← pow2_53, ← pow2_add]
      congr 1
      omega
    have hau : |u| = ((|m| : Int) : ℚ) * pow2 (expo u - 52) := by
      conv_lhs => rw [hum, hlast]
      rw [abs_mul, abs_of_pos hp, Int.cast_abs]
    have hmb : |m| < 2 ^ 53 := by
      rw [hau, hs] at e2
      have := lt_of_mul_lt_mul_right e2 hp.le
      exact_mod_cast this
    have : ((|m| : Int) : ℚ) + 1 ≤ ((2 ^ 53 : Int) : ℚ) := by exact_mod_cast hmb
    rw [hau, hs]
    have := mul_le_mul_of_nonneg_right this hp.le
    linarith
  set q := u + d with hqd
  have hqa : |q| ≤ |u| + |d| := abs_add_le u d
  have hqb : |u| - |d| ≤ |q| := by
    have := abs_sub_abs_le_abs_sub u (-d)
    rw [abs_neg, sub_neg_eq_add] at this
    exact this
  have h20 : pow2 20 ≤ |q| := by
    have h1 : pow2 21 = pow2 20 + pow2 20 := by norm_num [pow2]
    have h2 : pow2 (-33) ≤ pow2 20 := pow2_le (by norm_num)
    linarith
  have hq : q ≠ 0 := by
    intro h
    rw [h, abs_zero] at h20
    exact absurd (pow2_pos 20) (not_lt.2 h20)
  obtain ⟨f1, f2⟩ := expo_spec q hq
  have hx1 : 20 ≤ expo q := by
    have := pow2_lt_iff.1 (lt_of_le_of_lt h20 f2)
    omega
  have hx2 : expo q ≤ expo u := by
    have : pow2 (expo q) < pow2 (expo u + 1) := by linarith
    have := pow2_lt_iff.1 this
    omega
  have hlq : last q = expo q - 52 := by unfold last; omega
  obtain ⟨k, hk⟩ := Int.le.dest hx2
  have hp := pow2_pos (last q)
  have huq : u = ((m * 2 ^ k : Int) : ℚ) * pow2 (last q) := by
    conv_lhs => rw [hum, hlast, ← hk]
    rw [show expo q + (k : Int) - 52 = (k : Int) + last q by rw [hlq]; omega, pow2_add, pow2_nat]
    push_cast
    ring
  set M : Int := m * 2 ^ k
  have hdp : |d| < pow2 (last q) / 2 := by
    have h1 : pow2 (-33) * 2 = pow2 (-32) := by rw [pow2_eq, pow2_eq]; norm_num
    have h2 : pow2 (-32) ≤ pow2 (last q) := pow2_le (by omega)
    linarith
  have hdiv : q / pow2 (last q) = (M : ℚ) + d / pow2 (last q) := by
    rw [hqd]
    conv_lhs => rw [add_div]
    congr 1
    rw [div_eq_iff hp.ne']
    exact huq
  have hsmall : |d / pow2 (last q)| < 1 / 2 := by
    rw [abs_div, abs_of_pos hp, div_lt_iff₀ hp]
    linarith
  have hnear := roundEven_near (q / pow2 (last q))
  have hM : roundEven (q / pow2 (last q)) = M := by
    rw [hdiv] at hnear ⊢
    have h3 : |((roundEven ((M : ℚ) + d / pow2 (last q)) - M : Int) : ℚ)| < 1 := by
      push_cast
      rw [abs_lt] at hsmall ⊢
      rw [abs_le] at hnear
      constructor <;> linarith
    have h4 : |roundEven ((M : ℚ) + d / pow2 (last q)) - M| < 1 := by exact_mod_cast h3
    rw [abs_lt] at h4
    omega
  unfold rnd
  rw [if_neg hq, hM]
  exact huq.symm

end Scigo.Binary64

namespace Scigo.Hist

section order
variable {α : Type} [LinearOrder α] [Zero α] [One α] [Add α] [Sub α] [Neg α] [Mul α] [Div α]

theorem getD_weak (b : List α) (hs : b.Pairwise (· ≤ ·)) {i j : Nat} (hij : i ≤ j) (hj : j < b.length) : b.getD i 0 ≤ b.getD j 0 := by
  rcases Nat.lt_or_ge i j with h | h
  · rw [List.getD_eq_getElem _ _ (by omega), List.getD_eq_getElem _ _ hj]
    exact List.pairwise_iff_getElem.1 hs i j _ _ h
  · have : i = j := by omega
    rw [this]

theorem searchBin_found (v : α) (b : List α) (left right : Int) (hl : 0 ≤ left) (hr : right + 1 < b.length)
    (hlr : left ≤ right + 1) (h1 : b.getD left.toNat 0 ≤ v) (h2 : v < b.getD (right + 1).toNat 0) :
    ∃ m, searchBin v b left right = some m := by
  fun_induction searchBin v b left right with
  | case1 l r hle mid hmid => exact ⟨mid, rfl⟩
  | case2 l r hle mid hmid hlt ih =>
    have e : mid = (l + r) / 2 := rfl
    have hml : l < mid := by
      by_contra hc
      have : mid = l := by omega
      rw [this] at hlt
      exact absurd h1 (not_le.2 hlt)
    exact ih hl (by omega) (by omega) h1 (by simpa using hlt)
  | case3 l r hle mid hmid hlt ih =>
    have e : mid = (l + r) / 2 := rfl
    have hge : b.getD (mid + 1).toNat 0 ≤ v := by
      by_contra hc
      exact hmid ⟨not_lt.1 hlt, not_le.1 hc⟩
    exact ih (by omega) hr (by omega) hge h2
  | case4 l r hle =>
    have : l = r + 1 := by omega
    subst this
    exact absurd h2 (not_lt.2 h1)

theorem searchBin_sound (v : α) (b : List α) (left right m : Int) (h : searchBin v b left right = some m) :
    b.getD m.toNat 0 ≤ v ∧ v < b.getD (m + 1).toNat 0 := by
  fun_induction searchBin v b left right with
  | case1 l r hle mid hmid =>
    have e := Option.some.inj h
    rw [← e]
    exact hmid
  | case2 l r hle mid hmid hlt ih => exact ih h
  | case3 l r hle mid hmid hlt ih => exact ih h
  | case4 l r hle => cases h

/-- on bounds that do not decrease, the bin of a value is at or before bin `i`, not the last, exactly if the value is below the upper
bound of bin `i` -/
theorem findBinIndex_le_iff (v : α) (b : List α) (hs : b.Pairwise (· ≤ ·)) (hb : 2 ≤ b.length) (h0 : b.getD 0 0 ≤ v) (i : Nat)
    (hi : i < b.length - 2) : findBinIndex v b < (i : Int) + 1 ↔ v < b.getD (i + 1) 0 := by
  unfold findBinIndex
  rcases hm : searchBin v b 0 ((b.length : Int) - 2) with _ | m
  · dsimp only
    rw [if_neg (not_lt.2 h0)]
    have hv : b.getD (b.length - 1) 0 ≤ v := by
      by_contra hc
      obtain ⟨m, h⟩ := searchBin_found v b 0 ((b.length : Int) - 2) le_rfl (by omega) (by omega) (by simpa using h0)
        (by rw [show ((b.length : Int) - 2 + 1).toNat = b.length - 1 by omega]; exact not_le.1 hc)
      rw [hm] at h
      cases h
    constructor
    · intro h
      omega
    · intro h
      exact absurd (lt_of_lt_of_le h ((getD_weak b hs (by omega) (by omega)).trans hv)) (lt_irrefl _)
  · dsimp only
    obtain ⟨g1, g2⟩ := searchBin_sound v b _ _ m hm
    obtain ⟨r1, r2⟩ := searchBin_range v b _ _ m hm
    constructor
    · intro h
      exact lt_of_lt_of_le g2 (getD_weak b hs (by omega) (by omega))
    · intro h
      by_contra hc
      exact absurd (lt_of_lt_of_le h ((getD_weak b hs (by omega) (by omega)).trans g1)) (lt_irrefl _)

theorem count_below (b : List α) (x g h : Nat → α) (indices : List Nat) (n : Nat) (hn : n ≤ b.length - 1) (hb : 2 ≤ b.length) :
    countOf ((fill findBinIndex b x g h indices).take n) = ((indices.filter fun i => findBinIndex (x i) b < (n : Int)).length : Int) := by
  induction n with
  | zero =>
    have : (indices.filter fun i => findBinIndex (x i) b < ((0 : Nat) : Int)) = [] := by
      rw [List.filter_eq_nil_iff]
      intro i _
      have := (findBinIndex_range (x i) b hb).1
      simpa using this
    rw [this]
    rfl
  | succ n ih =>
    rw [countOf_take_succ _ _ _ (fill_get findBinIndex b x g h indices n (by omega)), ih (by omega)]
    unfold rowsIn
    dsimp only
    clear ih
    induction indices with
    | nil => rfl
    | cons a l ihl =>
      simp only [List.filter_cons]
      by_cases h1 : findBinIndex (x a) b < (n : Int)
      · have h2 : ¬ findBinIndex (x a) b = (n : Int) := by omega
        have h3 : findBinIndex (x a) b < ((n + 1 : Nat) : Int) := by push_cast; omega
        simp only [h1, h2, h3, decide_true, decide_false, if_true, List.length_cons] at ihl ⊢
        push_cast at ihl ⊢
        omega
      · by_cases h2 : findBinIndex (x a) b = (n : Int)
        · have h3 : findBinIndex (x a) b < ((n + 1 : Nat) : Int) := by push_cast; omega
          simp only [h1, decide_eq_true h2, h3, decide_true, decide_false, if_true, List.length_cons] at ihl ⊢
          push_cast at ihl ⊢
          omega
        · have h3 : ¬ findBinIndex (x a) b < ((n + 1 : Nat) : Int) := by push_cast; omega
          simp only [h1, h2, h3, decide_false, Bool.false_eq_true, if_false]
          exact ihl

/-- the split found on bounds that do not decrease: its threshold is an inner bound or the second, and it counts the rows strictly
below its threshold -/
theorem split_counts (hb : Builder α) (L : Lits α) (special : α → Bool) (b : List α) (hs : b.Pairwise (· ≤ ·)) (hlen : 2 ≤ b.length)
    (feature : Nat) (x g h : Nat → α) (indices : List Nat) (h0 : ∀ i ∈ indices, b.getD 0 0 ≤ x i) (tg th : α) (minData : Int) (r : Split α)
    (hr : r = hb.findSplit L special ⟨feature, fill findBinIndex b x g h indices, b⟩ tg th minData) (hpos : 0 < r.gain) :
    ∃ i, i < b.length - 2 ∧ r.threshold = b.getD (i + 1) 0 ∧ r.leftCount = ((indices.filter fun k => x k < r.threshold).length : Int) ∧
      r.leftCount + r.rightCount = indices.length ∧ minData ≤ r.leftCount ∧ minData ≤ r.rightCount := by
  have hbest := split_is_best hb L special ⟨feature, fill findBinIndex b x g h indices, b⟩ tg th minData
  rw [← hr] at hbest
  rcases hbest with ⟨e, -⟩ | ⟨i, hi, ⟨a1, a2⟩, -, e, -⟩
  · rw [e] at hpos
    exact absurd hpos (lt_irrefl _)
  dsimp only at hi e a1 a2
  rw [fill_length] at hi
  have ht : r.threshold = b.getD (i + 1) 0 := by
    rw [e]
    unfold splitAt
    dsimp only
    rw [fill_get findBinIndex b x g h indices i (by omega)]
    rfl
  have hl : r.leftCount = ((indices.filter fun k => x k < r.threshold).length : Int) := by
    rw [ht, e]
    unfold splitAt
    dsimp only
    rw [count_below b x g h indices (i + 1) (by omega) hlen]
    congr 2
    apply List.filter_congr
    intro k hk
    rw [decide_eq_decide]
    push_cast
    exact findBinIndex_le_iff (x k) b hs hlen (h0 k hk) i (by omega)
  refine ⟨i, by omega, ht, hl, ?_, ?_, ?_⟩
  · rw [e]
    unfold splitAt countOf
    dsimp only
    rw [← List.sum_append, ← List.map_append, List.take_append_drop]
    exact fill_count b hlen x g h indices
  · rw [e]
    exact a1
  · rw [e]
    exact a2

/-- the bounds when there are few enough distinct values -/
theorem few_bounds (L : Lits α) (srt : List α → List α) (hsrt : SortsAsc id srt) (maxBin : Nat)
    (x : Nat → α) (indices : List Nat) (hne : indices ≠ []) (hu : (indices.map x).toFinset.card ≤ maxBin) :
    ∃ u : List α, u ≠ [] ∧ u.Pairwise (· < ·) ∧ (∀ v, v ∈ u ↔ ∃ i ∈ indices, x i = v) ∧
      findBinBoundaries L srt maxBin (indices.map x) = (u.getD 0 0 - L.eps) :: u.map (· + L.eps) := by
  obtain ⟨hp, hs⟩ := hsrt (indices.map x)
  have hsorted : (srt (indices.map x)).Pairwise (· ≤ ·) := hs.imp (fun h => not_lt.1 h)
  obtain ⟨u1, u2⟩ := uniq_spec (srt (indices.map x)) hsorted
  set u := uniq (srt (indices.map x)) with hud
  have hmem : ∀ v, v ∈ u ↔ v ∈ indices.map x := fun v => by rw [u2, hp.mem_iff]
  have hcard : u.length = (indices.map x).toFinset.card := by
    have hnd : u.Nodup := u1.imp (fun h => h.ne)
    rw [← List.toFinset_card_of_nodup hnd]
    congr 1
    ext v
    simp only [List.mem_toFinset]
    exact hmem v
  refine ⟨u, ?_, u1, fun v => by rw [hmem]; simp, ?_⟩
  · obtain ⟨i, hi⟩ := List.exists_mem_of_ne_nil _ hne
    exact List.ne_nil_of_mem ((hmem (x i)).2 (List.mem_map.2 ⟨i, hi, rfl⟩))
  · unfold findBinBoundaries
    rw [if_neg (by simpa using hne)]
    simp only
    rw [← hud, if_pos (by rw [hcard]; exact hu)]

end order

end Scigo.Hist

namespace Scigo.Round

open Scigo.Hist

/-- a column of binary64 numbers, all of magnitude at least `2^21 = 2097152` -/
def Large (x : Nat → Fl Binary64.rounding) (indices : List Nat) : Prop := ∀ i ∈ indices, 2 ^ 21 ≤ |(x i).val|

theorem margin_small {e : Fl Binary64.rounding} (he : e = Fl.of _ (1 / 10 ^ 10)) : 0 < e.val ∧ e.val < Binary64.pow2 (-33) := by
  subst he
  have h1 : Binary64.rounding.rnd ((15 : Int) * Binary64.pow2 (-37)) = (15 : Int) * Binary64.pow2 (-37) :=
    Binary64.rnd_exact 15 (-37) (by norm_num) (by norm_num)
  have h2 : Binary64.rounding.rnd ((1 : Int) * Binary64.pow2 (-34)) = (1 : Int) * Binary64.pow2 (-34) :=
    Binary64.rnd_exact 1 (-34) (by norm_num) (by norm_num)
  have m1 := Binary64.rounding.mono (show (1 / 10 ^ 10 : ℚ) ≤ (15 : Int) * Binary64.pow2 (-37) by rw [Binary64.pow2_eq]; norm_num)
  have m2 := Binary64.rounding.mono (show ((1 : Int) * Binary64.pow2 (-34) : ℚ) ≤ 1 / 10 ^ 10 by rw [Binary64.pow2_eq]; norm_num)
  rw [h1] at m1
  rw [h2] at m2
  constructor
  · refine lt_of_lt_of_le ?_ m2
    rw [Binary64.pow2_eq]; norm_num
  · refine lt_of_le_of_lt m1 ?_
    rw [Binary64.pow2_eq, Binary64.pow2_eq]; norm_num

theorem absorbs {e v : Fl Binary64.rounding} (he : e = Fl.of _ (1 / 10 ^ 10)) (hv : 2 ^ 21 ≤ |v.val|) : v + e = v ∧ v - e = v := by
  obtain ⟨e0, e1⟩ := margin_small he
  have h21 : Binary64.pow2 21 ≤ |v.val| := by
    refine le_of_eq_of_le ?_ hv
    norm_num [Binary64.pow2]
  constructor
  · exact Fl.ext (Binary64.rnd_absorb v.rep h21 (by rw [abs_of_pos e0]; exact e1))
  · refine Fl.ext ?_
    rw [Fl.val_sub, sub_eq_add_neg]
    exact Binary64.rnd_absorb v.rep h21 (by rw [abs_neg, abs_of_pos e0]; exact e1)

/-- C294, false of the code: for a feature with few distinct values, all of magnitude `2^21` or more, the margin `1e-10` is lost in
rounding, and every split found is shifted by one value: its threshold is a value of the data, the split counts the rows below the
threshold, the trainer also sends the rows equal to it left -/
theorem large_values_shift_split (hb : Builder (Fl Binary64.rounding)) (L : Lits (Fl Binary64.rounding)) (hL : L.eps = Fl.of _ (1 / 10 ^ 10))
    (special : Fl Binary64.rounding → Bool) (srt : List (Fl Binary64.rounding) → List (Fl Binary64.rounding)) (hsrt : SortsAsc id srt)
    (maxBin feature : Nat) (x g h : Nat → Fl Binary64.rounding) (indices : List Nat) (hu : (indices.map x).toFinset.card ≤ maxBin)
    (hx : Large x indices) (tg th : Fl Binary64.rounding) (minData : Int) (r : Split (Fl Binary64.rounding))
    (hr : r = hb.findSplit L special (buildContinuous L srt maxBin feature x g h indices) tg th minData) (hpos : 0 < r.gain) :
    r.leftCount = ((indices.filter fun i => x i < r.threshold).length : Int) ∧ (∃ i ∈ indices, x i = r.threshold) ∧
      r.leftCount < ((indices.filter fun i => x i ≤ r.threshold).length : Int) ∧ (∃ i ∈ indices, r.threshold < x i) ∧
      minData ≤ r.leftCount ∧ minData ≤ r.rightCount := by
  by_cases hne : indices = []
  · subst hne
    have : hb.findSplit L special (buildContinuous L srt maxBin feature x g h []) tg th minData = noSplit (feature : Int) 0 := rfl
    rw [hr, this] at hpos
    exact absurd hpos (lt_irrefl _)
  obtain ⟨u, u0, u1, u2, u3⟩ := few_bounds L srt hsrt maxBin x indices hne hu
  have hab : ∀ v ∈ u, v + L.eps = v ∧ v - L.eps = v := fun v hv => by
    obtain ⟨i, hi, rfl⟩ := (u2 v).1 hv
    exact absorbs hL (hx i hi)
  have hul : 0 < u.length := List.length_pos_iff.2 u0
  have hhead : u.getD 0 0 ∈ u := by
    rw [List.getD_eq_getElem _ _ hul]
    exact List.getElem_mem _
  have hmap : u.map (· + L.eps) = u := by
    conv_rhs => rw [← List.map_id u]
    exact List.map_congr_left fun v hv => (hab v hv).1
  rw [(hab _ hhead).2, hmap] at u3
  have hle : ∀ v ∈ u, u.getD 0 0 ≤ v := fun v hv => head_le_of_sorted u u1 v hv
  have hs : (u.getD 0 0 :: u).Pairwise (· ≤ ·) := List.pairwise_cons.2 ⟨hle, u1.imp le_of_lt⟩
  unfold buildContinuous at hr
  dsimp only at hr
  rw [u3] at hr
  obtain ⟨i, hi, ht, c1, c2, c3, c4⟩ := split_counts hb L special _ hs (by simp only [List.length_cons]; omega) feature x g h indices
    (fun k hk => by rw [List.getD_cons_zero]; exact hle _ ((u2 _).2 ⟨k, hk, rfl⟩)) tg th minData r hr hpos
  rw [List.length_cons] at hi
  rw [List.getD_cons_succ, List.getD_eq_getElem _ _ (by omega)] at ht
  obtain ⟨k, hk, hxk⟩ := (u2 r.threshold).1 (by rw [ht]; exact List.getElem_mem _)
  obtain ⟨k', hk', hxk'⟩ := (u2 (u[i + 1]'(by omega))).1 (List.getElem_mem _)
  refine ⟨c1, ⟨k, hk, hxk⟩, ?_, ⟨k', hk', ?_⟩, c3, c4⟩
  · rw [c1]
    have hsub : (indices.filter fun i => x i < r.threshold).length < (indices.filter fun i => x i ≤ r.threshold).length := by
      have e : (indices.filter fun i => x i < r.threshold) =
          (indices.filter fun i => x i ≤ r.threshold).filter fun i => x i < r.threshold := by
        rw [List.filter_filter]
        apply List.filter_congr
        intro j _
        by_cases hj : x j < r.threshold
        · simp [hj, hj.le]
        · simp [hj]
      rw [e]
      refine lt_of_le_of_ne (List.length_filter_le _ _) fun hc => ?_
      have := (List.length_filter_eq_length_iff.1 hc) k (by simp [hk, hxk])
      simp [hxk] at this
    exact_mod_cast hsub
  · rw [hxk', ht]
    exact List.pairwise_iff_getElem.1 u1 i (i + 1) _ _ (by omega)

/-- C294, false of the code: a feature with two distinct values of magnitude `2^21` or more is never split, whatever the gradients and
hessians of the rows -/
theorem large_two_values_no_split (hb : Builder (Fl Binary64.rounding)) (L : Lits (Fl Binary64.rounding)) (hL : L.eps = Fl.of _ (1 / 10 ^ 10))
    (special : Fl Binary64.rounding → Bool) (srt : List (Fl Binary64.rounding) → List (Fl Binary64.rounding)) (hsrt : SortsAsc id srt)
    (maxBin feature : Nat) (hm : 2 ≤ maxBin) (x g h : Nat → Fl Binary64.rounding) (indices : List Nat) (a b : Fl Binary64.rounding)
    (hab : ∀ i ∈ indices, x i = a ∨ x i = b) (hx : Large x indices) (tg th : Fl Binary64.rounding) (minData : Int) (hmd : 1 ≤ minData) :
    hb.findSplit L special (buildContinuous L srt maxBin feature x g h indices) tg th minData = noSplit (feature : Int) 0 := by
  have hcard : (indices.map x).toFinset.card ≤ maxBin := by
    refine le_trans (Finset.card_le_card (t := {a, b}) ?_) (le_trans Finset.card_le_two hm)
    intro v hv
    obtain ⟨i, hi, rfl⟩ := List.mem_map.1 (List.mem_toFinset.1 hv)
    simpa using hab i hi
  have hnot : ¬ 0 < (hb.findSplit L special (buildContinuous L srt maxBin feature x g h indices) tg th minData).gain := by
    intro hpos
    obtain ⟨c1, ⟨i, hi, ei⟩, -, ⟨j, hj, ej⟩, c3, -⟩ := large_values_shift_split hb L hL special srt hsrt maxBin feature x g h indices hcard hx tg th minData _ rfl hpos
    have hpos' : 0 < (indices.filter fun i => x i < (hb.findSplit L special (buildContinuous L srt maxBin feature x g h indices) tg th minData).threshold).length := by
      omega
    obtain ⟨k, hk⟩ := List.exists_mem_of_length_pos hpos'
    obtain ⟨hk1, hk2⟩ := List.mem_filter.1 hk
    have hk2 := of_decide_eq_true hk2
    rw [← ei] at hk2 ej
    rcases hab i hi with e | e <;> rcases hab j hj with e' | e' <;> rcases hab k hk1 with e'' | e'' <;>
      rw [e] at hk2 ej <;> rw [e'] at ej <;> rw [e''] at hk2 <;>
      first
        | exact lt_irrefl _ hk2
        | exact lt_irrefl _ ej
        | exact lt_irrefl _ (hk2.trans ej)
  rcases split_is_best hb L special (buildContinuous L srt maxBin feature x g h indices) tg th minData with ⟨e, -⟩ | ⟨i, _, _, hp, e, _⟩
  · exact e
  · rw [e] at hnot
    exact absurd hp hnot

/-- C294: so a booster trained on such features alone never tells two rows apart: every node is refused or sends all its rows right -/
theorem large_two_values_never_separated (lib : Trainer.Lib (Fl Binary64.rounding)) (hL : lib.lits.eps = Fl.of _ (1 / 10 ^ 10))
    (hsrt : SortsAsc id lib.srt) (hb : Builder (Fl Binary64.rounding)) (hm : 2 ≤ hb.maxBin) (lim : Trainer.Limits (Fl Binary64.rounding))
    (hmd : 1 ≤ lim.minData) (D : Trainer.Data (Fl Binary64.rounding)) (a b : Nat → Fl Binary64.rounding) (indices : List Nat)
    (hab : ∀ j < D.cols, ∀ i ∈ indices, (D.x i j = a j ∨ D.x i j = b j) ∧ 2 ^ 21 ≤ (D.x i j).val) :
    let G := Trainer.grower lib hb lim [] D
    G.refuses (G.find indices) = true ∨ G.leftOf indices (G.find indices) = [] ∧ G.rightOf indices (G.find indices) = indices := by
  intro G
  have hfeat : ∀ j < D.cols, Trainer.featureSplit lib hb [] lim.minData D indices j = noSplit (j : Int) 0 := by
    intro j hj
    unfold Trainer.featureSplit
    rw [if_neg (by simp)]
    exact large_two_values_no_split hb lib.lits hL lib.special lib.srt hsrt hb.maxBin j hm _ D.g D.h indices (a j) (b j)
      (fun i hi => (hab j hj i hi).1) (fun i hi => (hab j hj i hi).2.trans (le_abs_self _)) _ _ lim.minData hmd
  by_cases hc : D.cols = 0
  · left
    have : G.find indices = finish lim.minGain (noSplit (-1) (-1)) := by
      show Trainer.findBestSplit lib hb [] lim.minData lim.minGain D indices = _
      unfold Trainer.findBestSplit
      rw [hc]
      rfl
    have hf : (G.find indices).feature = -1 := by
      rw [this]
      unfold finish noSplit
      split <;> rfl
    unfold Trainer.Grower.refuses
    rw [hf]
    rfl
  · right
    have hpick : ∀ (l : List Nat) (k : Nat), l.foldl (fun (best : Split (Fl Binary64.rounding)) (j : Nat) =>
        if best.gain < (noSplit (j : Int) (0 : Fl Binary64.rounding)).gain then noSplit (j : Int) 0 else best) (noSplit (k : Int) 0) = noSplit (k : Int) 0 := by
      intro l k
      induction l with
      | nil => rfl
      | cons j l ih =>
        rw [List.foldl_cons]
        have : ¬ ((noSplit (k : Int) (0 : Fl Binary64.rounding)).gain < (noSplit (j : Int) (0 : Fl Binary64.rounding)).gain) := lt_irrefl _
        rw [if_neg this]
        exact ih
    have hfind : G.find indices = noSplit ((0 : Nat) : Int) 0 := by
      show Trainer.findBestSplit lib hb [] lim.minData lim.minGain D indices = _
      unfold Trainer.findBestSplit
      have hmap : (List.range D.cols).map (Trainer.featureSplit lib hb [] lim.minData D indices) =
          (List.range D.cols).map fun (j : Nat) => noSplit (j : Int) (0 : Fl Binary64.rounding) :=
        List.map_congr_left fun j hj => hfeat j (List.mem_range.1 hj)
      rw [hmap]
      obtain ⟨n, hn⟩ := Nat.exists_eq_succ_of_ne_zero hc
      rw [hn, List.range_succ_eq_map, List.map_cons]
      unfold pickBest
      rw [List.foldl_cons]
      have hlt : (noSplit (-1) (-1) : Split (Fl Binary64.rounding)).gain < (noSplit ((0 : Nat) : Int) (0 : Fl Binary64.rounding)).gain := by
        show (-1 : Fl Binary64.rounding).val < (0 : Fl Binary64.rounding).val
        show (-1 : ℚ) < 0
        norm_num
      rw [if_pos hlt, List.foldl_map, hpick]
      unfold finish noSplit
      split <;> rfl
    have hside : ∀ i ∈ indices, G.goesLeft indices (G.find indices) i = false := by
      intro i hi
      rw [hfind]
      unfold Trainer.Grower.goesLeft
      rw [if_neg (show ¬ (G.isCat (noSplit ((0 : Nat) : Int) (0 : Fl Binary64.rounding)).feature = true) by
        show ¬ (([] : List Int).contains (0 : Int) = true)
        simp)]
      refine decide_eq_false ?_
      have := (hab 0 (by omega) i hi).2
      show ¬ ((D.x i 0).val ≤ (0 : ℚ))
      have h2 : (0 : ℚ) < 2 ^ 21 := by norm_num
      linarith
    constructor
    · unfold Trainer.Grower.leftOf
      rw [List.filter_eq_nil_iff]
      intro i hi
      simp [hside i hi]
    · unfold Trainer.Grower.rightOf
      rw [List.filter_eq_self]
      intro i hi
      simp [hside i hi]

theorem margin_bounds {e : Fl Binary64.rounding} (he : e = Fl.of _ (1 / 10 ^ 10)) : 13 / 2 ^ 37 ≤ e.val ∧ e.val ≤ 14 / 2 ^ 37 := by
  subst he
  have h1 : Binary64.rounding.rnd ((14 : Int) * Binary64.pow2 (-37)) = (14 : Int) * Binary64.pow2 (-37) :=
    Binary64.rnd_exact 14 (-37) (by norm_num) (by norm_num)
  have h2 : Binary64.rounding.rnd ((13 : Int) * Binary64.pow2 (-37)) = (13 : Int) * Binary64.pow2 (-37) :=
    Binary64.rnd_exact 13 (-37) (by norm_num) (by norm_num)
  have m1 := Binary64.rounding.mono (show (1 / 10 ^ 10 : ℚ) ≤ (14 : Int) * Binary64.pow2 (-37) by rw [Binary64.pow2_eq]; norm_num)
  have m2 := Binary64.rounding.mono (show ((13 : Int) * Binary64.pow2 (-37) : ℚ) ≤ 1 / 10 ^ 10 by rw [Binary64.pow2_eq]; norm_num)
  rw [h1] at m1
  rw [h2] at m2
  constructor
  · refine le_of_eq_of_le ?_ m2
    rw [Binary64.pow2_eq]; norm_num
  · refine le_of_le_of_eq m1 ?_
    rw [Binary64.pow2_eq]; norm_num

/-- at magnitude up to `2^19` the margin is felt, and stays below `2^-32` -/
theorem margin_felt {e v : Fl Binary64.rounding} (he : e = Fl.of _ (1 / 10 ^ 10)) (hv : |v.val| ≤ 2 ^ 19) :
    v < v + e ∧ v - e ≤ v ∧ (v + e).val < v.val + 1 / 2 ^ 32 := by
  obtain ⟨e0, e1⟩ := margin_bounds he
  have hacc := Binary64.add_accurate v.val e.val v.rep e.rep
  have hq : |v.val + e.val| ≤ 2 ^ 19 + 1 := by
    have := abs_add_le v.val e.val
    have h2 : |e.val| ≤ 1 := by
      rw [abs_le]
      constructor <;> linarith
    linarith
  have herr : (1 / 2 ^ 53 : ℚ) * |v.val + e.val| ≤ 9 / 2 ^ 37 := by
    have := mul_le_mul_of_nonneg_left hq (show (0 : ℚ) ≤ 1 / 2 ^ 53 by norm_num)
    refine this.trans ?_
    norm_num
  have hb := abs_le.1 (hacc.trans herr)
  refine ⟨?_, ?_, ?_⟩
  · rw [Fl.lt_iff, Fl.val_add]
    have : (0 : ℚ) < 13 / 2 ^ 37 - 9 / 2 ^ 37 := by norm_num
    linarith [hb.1]
  · have h0 : (0 : Fl Binary64.rounding) ≤ e := by
      rw [Fl.le_iff]
      exact le_trans (by norm_num [Fl.val_zero]) e0
    have := Fl.sub_le (le_refl v) h0
    rwa [Fl.sub_zero'] at this
  · rw [Fl.val_add]
    have : (14 : ℚ) / 2 ^ 37 + 9 / 2 ^ 37 < 1 / 2 ^ 32 := by norm_num
    linarith [hb.2]

/-- C294, the part that holds: for a feature with at most `maxBin` distinct values, of magnitude at most `2^19 = 524288` and at least
`2^-32` apart, the histogram has one bin for each distinct value, in increasing order, with the count and the sums of the rows of that
value; and a split found with positive gain counts on its two sides the rows that the trainer sends there -/
theorem small_values_split_partial (hb : Builder (Fl Binary64.rounding)) (L : Lits (Fl Binary64.rounding)) (hL : L.eps = Fl.of _ (1 / 10 ^ 10))
    (special : Fl Binary64.rounding → Bool) (srt : List (Fl Binary64.rounding) → List (Fl Binary64.rounding)) (hsrt : SortsAsc id srt)
    (maxBin feature : Nat) (x g h : Nat → Fl Binary64.rounding) (indices : List Nat) (hne : indices ≠ [])
    (hu : (indices.map x).toFinset.card ≤ maxBin) (hx : ∀ i ∈ indices, |(x i).val| ≤ 2 ^ 19)
    (hgap : ∀ i ∈ indices, ∀ j ∈ indices, x i < x j → (x i).val + 1 / 2 ^ 32 ≤ (x j).val) :
    (∃ u : List (Fl Binary64.rounding), u.Pairwise (· < ·) ∧ (∀ v, v ∈ u ↔ ∃ i ∈ indices, x i = v) ∧
      (buildContinuous L srt maxBin feature x g h indices).bins.length = u.length ∧
      ∀ (k : Nat) (v : Fl Binary64.rounding), u[k]? = some v → ∃ lo hi, lo ≤ v ∧ v < hi ∧
        (buildContinuous L srt maxBin feature x g h indices).bins[k]? = some ⟨lo, hi, ((indices.filter fun i => x i = v).length : Int),
          sumOver (indices.filter fun i => x i = v) g, sumOver (indices.filter fun i => x i = v) h⟩) ∧
    ∀ (tg th : Fl Binary64.rounding) (minData : Int) (r : Split (Fl Binary64.rounding)),
      r = hb.findSplit L special (buildContinuous L srt maxBin feature x g h indices) tg th minData → 0 < r.gain →
      r.leftCount = ((indices.filter fun i => x i ≤ r.threshold).length : Int) ∧
      r.rightCount = ((indices.filter fun i => r.threshold < x i).length : Int) ∧ minData ≤ r.leftCount ∧ minData ≤ r.rightCount := by
  obtain ⟨u, u0, u1, u2, u3⟩ := few_bounds L srt hsrt maxBin x indices hne hu
  have hmg : ∀ v ∈ u, v < v + L.eps ∧ v - L.eps ≤ v ∧ ∀ w ∈ u, v < w → v + L.eps < w := by
    intro v hv
    obtain ⟨i, hi, rfl⟩ := (u2 v).1 hv
    obtain ⟨m1, m2, m3⟩ := margin_felt hL (hx i hi)
    refine ⟨m1, m2, ?_⟩
    intro w hw hlt
    obtain ⟨j, hj, rfl⟩ := (u2 w).1 hw
    exact Fl.lt_iff.2 (lt_of_lt_of_le m3 (hgap i hi j hj hlt))
  have hul : 0 < u.length := List.length_pos_iff.2 u0
  have hhead : u.getD 0 0 ∈ u := by
    rw [List.getD_eq_getElem _ _ hul]
    exact List.getElem_mem _
  have hle : ∀ v ∈ u, u.getD 0 0 ≤ v := fun v hv => head_le_of_sorted u u1 v hv
  set b := (u.getD 0 0 - L.eps) :: u.map (· + L.eps) with hbd
  have hbl : b.length = u.length + 1 := by rw [hbd]; simp
  have hs : b.Pairwise (· < ·) := by
    refine List.pairwise_cons.2 ⟨?_, ?_⟩
    · intro y hy
      obtain ⟨v, hv, rfl⟩ := List.mem_map.1 hy
      exact lt_of_le_of_lt (((hmg _ hhead).2.1).trans (hle v hv)) (hmg v hv).1
    · rw [List.pairwise_map]
      refine u1.imp_of_mem ?_
      intro v w hv hw hlt
      exact ((hmg v hv).2.2 w hw hlt).trans (hmg w hw).1
  have hbs : ∀ k (hk : k < u.length), b.getD (k + 1) 0 = u[k] + L.eps := by
    intro k hk
    rw [hbd, List.getD_cons_succ, List.getD_eq_getElem _ _ (by simpa using hk), List.getElem_map]
  have hb0 : b.getD 0 0 ≤ u.getD 0 0 := (hmg _ hhead).2.1
  have hcell : ∀ v ∈ u, ∀ k (hk : k < u.length), (b.getD k 0 ≤ v ∧ v < b.getD (k + 1) 0) ↔ v = u[k] := by
    intro v hv k hk
    rw [hbs k hk]
    constructor
    · rintro ⟨g1, g2⟩
      obtain ⟨l, hl, rfl⟩ := List.getElem_of_mem hv
      rcases lt_trichotomy l k with hlk | rfl | hlk
      · obtain ⟨k', rfl⟩ : ∃ k', k = k' + 1 := ⟨k - 1, by omega⟩
        rw [hbs k' (by omega)] at g1
        have h1 : u[l] ≤ u[k'] := by
          rcases Nat.lt_or_ge l k' with h | h
          · exact (List.pairwise_iff_getElem.1 u1 l k' _ _ h).le
          · have : l = k' := by omega
            subst this
            exact le_rfl
        exact absurd (lt_of_le_of_lt h1 (hmg _ (List.getElem_mem (l := u) (n := k') (by omega))).1) (not_lt.2 g1)
      · rfl
      · have := (hmg _ (List.getElem_mem hk)).2.2 _ hv (List.pairwise_iff_getElem.1 u1 k l _ _ hlk)
        exact absurd (this.trans g2) (lt_irrefl _)
    · rintro rfl
      refine ⟨?_, (hmg _ hv).1⟩
      rcases k with _ | k
      · exact hb0.trans (hle _ hv)
      · rw [hbs k (by omega)]
        exact ((hmg _ (List.getElem_mem (by omega))).2.2 _ hv (List.pairwise_iff_getElem.1 u1 k (k + 1) _ _ (by omega))).le
  have hlast : ∀ v ∈ u, v < b.getD (b.length - 1) 0 := by
    intro v hv
    have h1 := le_last_of_sorted u u1 v hv
    rw [List.getD_eq_getElem _ _ (by omega)] at h1
    rw [show b.length - 1 = (u.length - 1) + 1 by omega, hbs (u.length - 1) (by omega)]
    exact lt_of_le_of_lt h1 (hmg _ (List.getElem_mem _)).1
  have hH : buildContinuous L srt maxBin feature x g h indices = ⟨feature, fill findBinIndex b x g h indices, b⟩ := by
    unfold buildContinuous
    dsimp only
    rw [u3]
  have hxu : ∀ i ∈ indices, x i ∈ u := fun i hi => (u2 _).2 ⟨i, hi, rfl⟩
  constructor
  · refine ⟨u, u1, u2, ?_, ?_⟩
    · rw [hH]
      dsimp only
      rw [fill_length]
      omega
    · intro k v hkv
      obtain ⟨hk, rfl⟩ := List.getElem?_eq_some_iff.1 hkv
      have hmem : u[k] ∈ u := List.getElem_mem hk
      obtain ⟨c1, c2⟩ := (hcell _ hmem k hk).2 rfl
      refine ⟨b.getD k 0, b.getD (k + 1) 0, c1, c2, ?_⟩
      rw [hH]
      dsimp only
      rw [fill_get findBinIndex b x g h indices k (by omega)]
      have hrows : rowsIn findBinIndex b x indices k = indices.filter fun i => x i = u[k] := by
        unfold rowsIn
        apply List.filter_congr
        intro i hi
        rw [decide_eq_decide, findBinIndex_iff (x i) b hs (by omega) (hb0.trans (hle _ (hxu i hi))) (hlast _ (hxu i hi)) k (by omega)]
        exact hcell _ (hxu i hi) k hk
      rw [hrows]
  · intro tg th minData r hr hpos
    rw [hH] at hr
    obtain ⟨i, hi, ht, c1, c2, c3, c4⟩ := split_counts hb L special b (hs.imp le_of_lt) (by omega) feature x g h indices
      (fun k hk => hb0.trans (hle _ (hxu k hk))) tg th minData r hr hpos
    rw [hbs i (by omega)] at ht
    have hiff : ∀ k ∈ indices, (x k < r.threshold ↔ x k ≤ r.threshold) := by
      intro k hk
      refine ⟨le_of_lt, fun h => lt_of_le_of_ne h fun hc => ?_⟩
      rw [ht] at hc
      have hm : u[i] < x k := by
        rw [hc]
        exact (hmg _ (List.getElem_mem _)).1
      have := (hmg _ (List.getElem_mem (l := u) (n := i) (by omega))).2.2 _ (hxu k hk) hm
      rw [hc] at this
      exact absurd this (lt_irrefl _)
    have hl : (indices.filter fun k => x k < r.threshold) = indices.filter fun k => x k ≤ r.threshold := by
      apply List.filter_congr
      intro k hk
      rw [decide_eq_decide]
      exact hiff k hk
    rw [hl] at c1
    refine ⟨c1, ?_, c3, c4⟩
    have hsum := List.length_eq_length_filter_add (l := indices) (fun k => decide (x k ≤ r.threshold))
    have hneg : (indices.filter fun k => !decide (x k ≤ r.threshold)) = indices.filter fun k => r.threshold < x k := by
      apply List.filter_congr
      intro k _
      by_cases hk : x k ≤ r.threshold
      · simp [hk, not_lt.2 hk]
      · simp [hk, not_le.1 hk]
    rw [hneg] at hsum
    omega

/-- the literals of the split search in float64: sklearn/lightgbm/histogram_optimization.go:232, 424, 434 -/
def lits64 : Lits (Fl Binary64.rounding) := ⟨Fl.of _ (1 / 10 ^ 10), Fl.of _ (1 / 10 ^ 16), Fl.of _ (1 / 2)⟩

/-- three rows with the values 3, 4 and 5 million -/
def millions : Nat → Fl Binary64.rounding := fun i => Fl.of _ ([3000000, 4000000, 5000000].getD i 0)

/-- the same divided by a million -/
def units : Nat → Fl Binary64.rounding := fun i => Fl.of _ ([3, 4, 5].getD i 0)

/-- gradients that ask for a split between the first row and the others -/
def grads : Nat → Fl Binary64.rounding := fun i => Fl.of _ ([-1, 1, 1].getD i 0)

/-- in millions the split counts one row on the left and the trainer sends two there -/
example :
    let r := Builder.findSplit ⟨255, 0, 0⟩ lits64 (fun _ => false)
      (buildContinuous lits64 (stableAsc id) 255 0 millions grads (fun _ => 1) [0, 1, 2]) (Fl.of _ 1) (Fl.of _ 3) 1
    0 < r.gain ∧ r.leftCount = 1 ∧ ([0, 1, 2].filter fun i => millions i ≤ r.threshold) = [0, 1] := by
  decide +kernel

/-- the hypotheses of `large_values_shift_split` -/
example : Large millions [0, 1, 2] ∧ ([0, 1, 2].map millions).toFinset.card ≤ 255 := by
  unfold Large
  decide +kernel

/-- in units the counts are those of the trainer -/
example :
    let r := Builder.findSplit ⟨255, 0, 0⟩ lits64 (fun _ => false)
      (buildContinuous lits64 (stableAsc id) 255 0 units grads (fun _ => 1) [0, 1, 2]) (Fl.of _ 1) (Fl.of _ 3) 1
    0 < r.gain ∧ r.leftCount = 1 ∧ ([0, 1, 2].filter fun i => units i ≤ r.threshold) = [0] := by
  decide +kernel

/-- the hypotheses of `small_values_split_partial` -/
example : (∀ i ∈ [0, 1, 2], |(units i).val| ≤ 2 ^ 19) ∧ ([0, 1, 2].map units).toFinset.card ≤ 255 ∧
    ∀ i ∈ [0, 1, 2], ∀ j ∈ [0, 1, 2], units i < units j → (units i).val + 1 / 2 ^ 32 ≤ (units j).val := by
  decide +kernel

/-- two rows with 3 and 4 million and opposite gradients are not split -/
example : Builder.findSplit ⟨255, 0, 0⟩ lits64 (fun _ => false)
      (buildContinuous lits64 (stableAsc id) 255 0 millions grads (fun _ => 1) [0, 1]) (Fl.of _ 0) (Fl.of _ 2) 1 = noSplit 0 0 ∧
    0 < (Builder.findSplit ⟨255, 0, 0⟩ lits64 (fun _ => false)
      (buildContinuous lits64 (stableAsc id) 255 0 units grads (fun _ => 1) [0, 1]) (Fl.of _ 0) (Fl.of _ 2) 1).gain :=
  ⟨large_two_values_no_split _ lits64 rfl _ _ (stableAsc_sorts id) 255 0 (by norm_num) millions grads _ [0, 1] (millions 0) (millions 1)
    (by decide +kernel) (by unfold Large; decide +kernel) _ _ 1 le_rfl, by decide +kernel⟩

/-- a booster with one feature, in millions: the root is refused or sends both rows right -/
example : let lib : Trainer.Lib (Fl Binary64.rounding) := ⟨lits64, 0, fun _ => false, stableAsc id, id, id, id, id, fun _ => 0, fun _ => 0, fun n _ => n⟩
    let G := Trainer.grower lib ⟨255, 0, 0⟩ ⟨-1, 31, 1, 0, none⟩ [] ⟨1, fun i _ => millions i, grads, fun _ => 1⟩
    G.refuses (G.find [0, 1]) = true ∨ G.leftOf [0, 1] (G.find [0, 1]) = [] ∧ G.rightOf [0, 1] (G.find [0, 1]) = [0, 1] :=
  large_two_values_never_separated _ rfl (stableAsc_sorts id) ⟨255, 0, 0⟩ (by decide) ⟨-1, 31, 1, 0, none⟩ (by decide)
    ⟨1, fun i _ => millions i, grads, fun _ => 1⟩ (fun _ => millions 0) (fun _ => millions 1) [0, 1] (by
      intro j _ i hi
      have h : ∀ i ∈ [0, 1], (millions i = millions 0 ∨ millions i = millions 1) ∧ 2 ^ 21 ≤ (millions i).val := by decide +kernel
      exact h i hi)

end Scigo.Round
