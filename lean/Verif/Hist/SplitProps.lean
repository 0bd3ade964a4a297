import Verif.Hist.SplitLemmas
import Verif.Hist.Props
import Mathlib.Tactic.Ring
import Mathlib.Tactic.FieldSimp
import Mathlib.Tactic.Linarith
import Mathlib.Tactic.Positivity

/-!
# The best split is best (C64, C118)

`IsBest`, `gainAt`, `Admissible` and `splitAt` (`Hist/SplitLemmas.lean`) are the specification of the scan over a list of bins.
-/

set_option linter.unusedSectionVars false

namespace Scigo.Hist

variable {α : Type}

/-! ### Maximality over the bin boundaries, for every arithmetic -/

section scan
variable [LinearOrder α] [Zero α] [One α] [Add α] [Sub α] [Neg α] [Mul α] [Div α]

/-- C64: `FindBestSplitFromHistogram` returns the first boundary of maximal gain among those leaving enough rows on both sides, with
the counts and sums of its two sides and the upper bound of its last left bin as threshold; if no such boundary has a positive gain
it returns a split of gain zero. Whatever addition, multiplication and division do. -/
theorem split_is_best (hb : Builder α) (L : Lits α) (special : α → Bool) (h : Hist α) (tg th : α) (minData : Int) :
    IsBest hb L special h.bins tg th h.feature (fun i => (h.bins[i]?.map (·.hi)).getD 0) (fun _ => []) minData (h.bins.length - 1)
      (hb.findSplit L special h tg th minData) := by
  unfold Builder.findSplit
  refine scan_best hb L special h.bins _ h.feature tg th minData _ _ (fun s => s.leftCategories = []) rfl (fun i _ => rfl) ?_
  intro i hi s hs g a b c d e f
  rw [List.getElem?_eq_getElem hi]
  cases s
  simp only at hs
  subst hs
  rfl

/-- C64: `FindBestCategoricalSplitFromHistogram` does the same for the prefixes of the categories in order of their ratio; the
left categories are those of the prefix -/
theorem categorical_split_is_best (hb : Builder α) (L : Lits α) (special : α → Bool) (toInt : α → Int) (ofNat : Nat → α)
    (srt : List (Bin α) → List (Bin α)) (h : Hist α) (hsrt : (srt h.bins).length = h.bins.length) (tg th : α) (minData : Int) :
    IsBest hb L special (srt h.bins) tg th h.feature (fun i => ofNat (i + 1))
      (fun i => ((srt h.bins).take (i + 1)).map fun b => toInt b.lo) minData (h.bins.length - 1)
      (hb.findCategorical L special toInt ofNat srt h tg th minData) := by
  unfold Builder.findCategorical
  by_cases hl : h.bins.length ≤ 1
  · rw [if_pos hl]
    exact Or.inl ⟨rfl, fun i hi => by omega⟩
  · rw [if_neg hl, ← hsrt]
    exact scan_best hb L special (srt h.bins) _ h.feature tg th minData _ _ (fun _ => True) trivial (fun _ _ => trivial)
      (fun _ _ _ _ _ _ _ _ _ _ _ => rfl)

/-- C64: over several features the first split of maximal gain wins, when some split has a gain above the starting value `-1` -/
theorem pick_is_best (minusOne : α) (splits : List (Split α)) (hex : ∃ s ∈ splits, minusOne < s.gain) :
    ∃ (i : Nat) (s : Split α), splits[i]? = some s ∧ pickBest minusOne splits = s ∧ (∀ t ∈ splits, t.gain ≤ s.gain) ∧
      ∀ (j : Nat) (t : Split α), j < i → splits[j]? = some t → t.gain < s.gain := by
  unfold pickBest
  have key : ∀ l : List (Split α),
      (l.foldl (fun best s => if best.gain < s.gain then s else best) (noSplit (-1) minusOne) = noSplit (-1) minusOne ∧
        ∀ t ∈ l, t.gain ≤ minusOne) ∨
      ∃ (i : Nat) (s : Split α), l[i]? = some s ∧ l.foldl (fun best s => if best.gain < s.gain then s else best) (noSplit (-1) minusOne) = s ∧
        minusOne < s.gain ∧ (∀ t ∈ l, t.gain ≤ s.gain) ∧ ∀ (j : Nat) (t : Split α), j < i → l[j]? = some t → t.gain < s.gain := by
    intro l
    induction l using List.reverseRecOn with
    | nil => exact Or.inl ⟨rfl, by simp⟩
    | append_singleton l a ih =>
      rw [List.foldl_append, List.foldl_cons, List.foldl_nil]
      rcases ih with ⟨h1, h2⟩ | ⟨i, s, hi, h1, h0, h2, h3⟩
      · rw [h1]
        by_cases ha : (noSplit (-1) minusOne : Split α).gain < a.gain
        · rw [if_pos ha]
          refine Or.inr ⟨l.length, a, by simp, rfl, ha, ?_, ?_⟩
          · intro t ht
            rcases List.mem_append.1 ht with h | h
            · exact (h2 t h).trans ha.le
            · rw [List.mem_singleton.1 h]
          · intro j t hj ht
            rw [List.getElem?_append_left hj] at ht
            exact lt_of_le_of_lt (h2 t (List.mem_of_getElem? ht)) ha
        · rw [if_neg ha]
          refine Or.inl ⟨rfl, ?_⟩
          intro t ht
          rcases List.mem_append.1 ht with h | h
          · exact h2 t h
          · rw [List.mem_singleton.1 h]; exact not_lt.1 ha
      · rw [h1]
        have hil : i < l.length := (List.getElem?_eq_some_iff.1 hi).1
        by_cases ha : s.gain < a.gain
        · rw [if_pos ha]
          refine Or.inr ⟨l.length, a, by simp, rfl, h0.trans ha, ?_, ?_⟩
          · intro t ht
            rcases List.mem_append.1 ht with h | h
            · exact (h2 t h).trans ha.le
            · rw [List.mem_singleton.1 h]
          · intro j t hj ht
            rw [List.getElem?_append_left hj] at ht
            exact lt_of_le_of_lt (h2 t (List.mem_of_getElem? ht)) ha
        · rw [if_neg ha]
          refine Or.inr ⟨i, s, by rw [List.getElem?_append_left hil]; exact hi, rfl, h0, ?_, ?_⟩
          · intro t ht
            rcases List.mem_append.1 ht with h | h
            · exact h2 t h
            · rw [List.mem_singleton.1 h]; exact not_lt.1 ha
          · intro j t hj ht
            rw [List.getElem?_append_left (hj.trans hil)] at ht
            exact h3 j t hj ht
  rcases key splits with ⟨-, h⟩ | ⟨i, s, h1, h2, -, h3, h4⟩
  · obtain ⟨s, hs, hs'⟩ := hex
    exact absurd (h s hs) (not_le.2 hs')
  · exact ⟨i, s, h1, h2, h3, h4⟩

end scan

/-! ### Gain as decrease of the regularised objective -/

section objective
variable [Field α] [LinearOrder α] [IsStrictOrderedRing α]

/-- second-order objective of a leaf with gradient sum `G`, hessian sum `H`, L2 strength `lambda`, L1 strength `a` and value `w` -/
def leafObjective (lambda a G H w : α) : α := G * w + (H + lambda) * w ^ 2 / 2 + a * |w|

/-- `m` is the least value of the objective of the leaf -/
def IsOptimum (lambda a G H m : α) : Prop := (∃ w, leafObjective lambda a G H w = m) ∧ ∀ w, m ≤ leafObjective lambda a G H w

theorem optimum_l2 (lambda G H : α) (hp : 0 < H + lambda) : IsOptimum lambda 0 G H (-(G ^ 2 / (H + lambda) / 2)) := by
  have hne := hp.ne'
  constructor
  · refine ⟨-(G / (H + lambda)), ?_⟩
    unfold leafObjective
    field_simp
    ring
  · intro w
    unfold leafObjective
    have : G * w + (H + lambda) * w ^ 2 / 2 + 0 * |w| - -(G ^ 2 / (H + lambda) / 2) = ((H + lambda) * w + G) ^ 2 / (H + lambda) / 2 := by
      field_simp
      ring
    have h2 : 0 ≤ ((H + lambda) * w + G) ^ 2 / (H + lambda) / 2 := by positivity
    linarith

/-- C64: without L1 regularisation the gain is the decrease of the regularised objective when the node is split and every leaf takes
its best value -/
theorem gain_is_decrease (hb : Builder α) (L : Lits α) (hhalf : L.half = 1 / 2) (hmin : 0 < L.minHess) (special : α → Bool)
    (hs : ∀ v, special v = false) (ha : hb.alpha ≤ 0) (lg lh rg rh : α) (hl : L.minHess ≤ lh + hb.lambda)
    (hr : L.minHess ≤ rh + hb.lambda) (ht : L.minHess ≤ lh + rh + hb.lambda) (ml mr mt : α)
    (hml : IsOptimum hb.lambda 0 lg lh ml) (hmr : IsOptimum hb.lambda 0 rg rh mr) (hmt : IsOptimum hb.lambda 0 (lg + rg) (lh + rh) mt) :
    hb.gain L special lg lh rg rh (lg + rg) (lh + rh) = mt - (ml + mr) := by
  have uniq : ∀ {G H m m' : α}, IsOptimum hb.lambda 0 G H m → IsOptimum hb.lambda 0 G H m' → m = m' := by
    rintro G H m m' ⟨⟨w, hw⟩, h1⟩ ⟨⟨w', hw'⟩, h2⟩
    exact le_antisymm (hw' ▸ h1 w') (hw ▸ h2 w)
  have e1 := uniq hml (optimum_l2 hb.lambda lg lh (hmin.trans_le hl))
  have e2 := uniq hmr (optimum_l2 hb.lambda rg rh (hmin.trans_le hr))
  have e3 := uniq hmt (optimum_l2 hb.lambda (lg + rg) (lh + rh) (hmin.trans_le ht))
  unfold Builder.gain
  simp only [hs, hhalf]
  rw [if_neg (by rintro (h | h | h) <;> linarith), if_neg (by simp), if_neg (not_lt.2 ha), e1, e2, e3]
  ring

/-- C119: with L1 regularisation it is not: for the sides `G = 1, H = 1` twice and `reg_alpha = 1` the objective grows by `1/4` when
the node is split, and the gain reported is `-2` -/
theorem gain_l1_not_decrease (minHess : α) (h0 : 0 < minHess) (h1 : minHess ≤ 1) :
    ∃ (hb : Builder α) (L : Lits α) (ml mr mt : α), hb.alpha = 1 ∧ hb.lambda = 0 ∧ L.half = 1 / 2 ∧ L.minHess = minHess ∧
      IsOptimum hb.lambda hb.alpha 1 1 ml ∧ IsOptimum hb.lambda hb.alpha 1 1 mr ∧ IsOptimum hb.lambda hb.alpha (1 + 1) (1 + 1) mt ∧
      mt - (ml + mr) = -(1 / 4) ∧ hb.gain L (fun _ => false) 1 1 1 1 (1 + 1) (1 + 1) = -2 := by
  have hzero : IsOptimum (0 : α) 1 1 1 0 := by
    refine ⟨⟨0, by simp [leafObjective]⟩, fun w => ?_⟩
    unfold leafObjective
    nlinarith [neg_abs_le w, sq_nonneg w]
  refine ⟨⟨255, 0, 1⟩, ⟨1, minHess, 1 / 2⟩, 0, 0, -(1 / 4), rfl, rfl, rfl, rfl, hzero, hzero, ?_, by ring, ?_⟩
  · refine ⟨⟨-(1 / 2), ?_⟩, fun w => ?_⟩
    · unfold leafObjective
      rw [abs_neg, abs_of_pos (by positivity)]
      ring
    · unfold leafObjective
      simp only
      nlinarith [neg_abs_le w, sq_nonneg (w + 1 / 2)]
  · unfold Builder.gain abs'
    simp only [add_zero]
    have h2 : ¬ ((1 : α) + 1 < minHess) := by linarith [(zero_lt_one : (0 : α) < 1)]
    rw [if_neg (by rintro (h | h | h) <;> linarith [(zero_lt_one : (0 : α) < 1)]), if_neg (by simp), if_pos zero_lt_one]
    norm_num

/-! ### Splits and rows -/

/-- sums over the first bins of a histogram are sums over the rows below their upper bound -/
theorem take_sum_rows (x f : Nat → α) (indices : List Nat) (bins : List (Bin α)) (hlt : ∀ b ∈ bins, b.lo < b.hi)
    (hadj : ∀ (k : Nat) (b c : Bin α), bins[k]? = some b → bins[k + 1]? = some c → b.hi = c.lo)
    (hcov : ∀ i ∈ indices, ∃ b ∈ bins, b.lo ≤ x i ∧ x i < b.hi) (k : Nat) (b : Bin α) (hk : bins[k]? = some b) :
    ((bins.take (k + 1)).map fun b => ((rowsBetween x indices b.lo b.hi).map f).sum).sum =
        ((indices.filter fun i => x i < b.hi).map f).sum ∧
      ((bins.drop (k + 1)).map fun b => ((rowsBetween x indices b.lo b.hi).map f).sum).sum =
        ((indices.filter fun i => b.hi ≤ x i).map f).sum := by
  classical
  -- bins before `k` end at or below `b.hi`, bins after start at or above it
  have hstep : ∀ d j c, bins[j]? = some c → ∀ e, bins[j + d + 1]? = some e → c.hi ≤ e.lo := by
    intro d
    induction d with
    | zero => intro j c hc e he; exact (hadj j c e hc he).le
    | succ d ih =>
      intro j c hc e he
      have hlen : j + d + 1 < bins.length := by have := (List.getElem?_eq_some_iff.1 he).1; omega
      have hm := List.getElem?_eq_getElem hlen
      have h1 := ih j c hc _ hm
      have h2 := hlt _ (List.mem_of_getElem? hm)
      have h3 := hadj (j + d + 1) _ e hm he
      rw [← h3]
      exact h1.trans h2.le
  have hbefore : ∀ c ∈ bins.take (k + 1), c.hi ≤ b.hi := by
    intro c hc
    obtain ⟨j, hj, hjc⟩ := List.getElem_of_mem hc
    rw [List.length_take] at hj
    have hcj : bins[j]? = some c := by
      rw [List.getElem_take] at hjc
      exact List.getElem?_eq_some_iff.2 ⟨by omega, hjc⟩
    rcases Nat.lt_or_ge j k with hjk | hjk
    · have := hstep (k - j - 1) j c hcj b (by rw [show j + (k - j - 1) + 1 = k by omega]; exact hk)
      exact this.trans (hlt b (List.mem_of_getElem? hk)).le
    · have : j = k := by omega
      rw [this, hk] at hcj
      rw [Option.some.inj hcj]
  have hafter : ∀ c ∈ bins.drop (k + 1), b.hi ≤ c.lo := by
    intro c hc
    obtain ⟨j, hj, hjc⟩ := List.getElem_of_mem hc
    rw [List.getElem_drop] at hjc
    rw [List.length_drop] at hj
    exact hstep j k b hk c (List.getElem?_eq_some_iff.2 ⟨by omega, by rw [← hjc]; congr 1; omega⟩)
  have hsplit : ∀ i ∈ indices, (∃ c ∈ bins.take (k + 1), c.lo ≤ x i ∧ x i < c.hi) ∨ ∃ c ∈ bins.drop (k + 1), c.lo ≤ x i ∧ x i < c.hi := by
    intro i hi
    obtain ⟨c, hc, h1⟩ := hcov i hi
    rw [← List.take_append_drop (k + 1) bins, List.mem_append] at hc
    rcases hc with h | h
    · exact Or.inl ⟨c, h, h1⟩
    · exact Or.inr ⟨c, h, h1⟩
  constructor
  · rw [sum_over_bins x f indices (bins.take (k + 1)) (fun c hc => hlt c (List.mem_of_mem_take hc))
      (fun j c d hc hd => hadj j c d (by rw [List.getElem?_take] at hc; split_ifs at hc; exact hc)
        (by rw [List.getElem?_take] at hd; split_ifs at hd; exact hd))]
    congr 2
    apply List.filter_congr
    intro i hi
    rw [decide_eq_decide]
    constructor
    · rintro ⟨c, hc, -, h⟩
      exact lt_of_lt_of_le h (hbefore c hc)
    · intro h
      rcases hsplit i hi with h' | ⟨c, hc, h1, -⟩
      · exact h'
      · exact absurd (lt_of_lt_of_le h ((hafter c hc).trans h1)) (lt_irrefl _)
  · rw [sum_over_bins x f indices (bins.drop (k + 1)) (fun c hc => hlt c (List.mem_of_mem_drop hc))
      (fun j c d hc hd => hadj (k + 1 + j) c d (by rw [List.getElem?_drop] at hc; exact hc)
        (by rw [List.getElem?_drop] at hd; exact hd))]
    congr 2
    apply List.filter_congr
    intro i hi
    rw [decide_eq_decide]
    constructor
    · rintro ⟨c, hc, h, -⟩
      exact (hafter c hc).trans h
    · intro h
      rcases hsplit i hi with ⟨c, hc, -, h1⟩ | h'
      · exact absurd (lt_of_lt_of_le h1 ((hbefore c hc).trans h)) (lt_irrefl _)
      · exact h'

/-- the rows below `t`, and the others -/
def below (x : Nat → α) (indices : List Nat) (t : α) : List Nat := indices.filter fun i => x i < t
/-- the rows whose value is above the threshold -/
def above (x : Nat → α) (indices : List Nat) (t : α) : List Nat := indices.filter fun i => t ≤ x i

theorem sum_below_above (x f : Nat → α) (indices : List Nat) (t : α) :
    (indices.map f).sum - ((below x indices t).map f).sum = ((above x indices t).map f).sum := by
  unfold below above
  induction indices with
  | nil => simp
  | cons i l ih =>
    by_cases h : x i < t
    · rw [List.filter_cons_of_pos (by simpa using h), List.filter_cons_of_neg (by simpa using h), ← ih]
      simp only [List.map_cons, List.sum_cons]
      ring
    · rw [List.filter_cons_of_neg (by simpa using h), List.filter_cons_of_pos (by simpa using h), List.map_cons, List.sum_cons,
        List.map_cons, List.sum_cons, ← ih]
      ring

theorem countOf_rows (x : Nat → α) (indices : List Nat) (l : List (Bin α))
    (hl : ∀ b ∈ l, b.count = (rowsBetween x indices b.lo b.hi).length) (r : List Nat)
    (hr : (l.map fun b => ((rowsBetween x indices b.lo b.hi).map fun _ => (1 : α)).sum).sum = (r.map fun _ => (1 : α)).sum) :
    countOf l = r.length := by
  have e1 : ∀ l : List Nat, (l.map (fun _ => (1 : α))).sum = (l.length : α) := by
    intro l; induction l with
    | nil => simp
    | cons a l ih => simp [ih, add_comm]
  rw [e1] at hr
  have hh : ∀ m : List (Bin α), (∀ b ∈ m, b.count = (rowsBetween x indices b.lo b.hi).length) →
      (countOf m : α) = (m.map fun b => ((rowsBetween x indices b.lo b.hi).map fun _ => (1 : α)).sum).sum := by
    intro m hm
    unfold countOf
    induction m with
    | nil => simp
    | cons c m ihm =>
      rw [List.map_cons, List.sum_cons, Int.cast_add, ihm (fun b hb => hm b (List.mem_cons_of_mem _ hb)), hm c (by simp), List.map_cons,
        List.sum_cons, e1]
      simp
  have h2 : (countOf l : α) = (r.length : α) := by rw [← hr]; exact hh l hl
  exact_mod_cast h2

/-- what `splitAt` holds, in terms of rows -/
theorem splitAt_rows (x g h : Nat → α) (indices : List Nat) (H : Hist α)
    (hH : IsHistogram x g h indices H) (i : Nat) (b : Bin α) (hi : H.bins[i]? = some b) :
    countOf (H.bins.take (i + 1)) = (below x indices b.hi).length ∧ countOf (H.bins.drop (i + 1)) = (above x indices b.hi).length ∧
      sumOver (H.bins.take (i + 1)) (·.grad) = ((below x indices b.hi).map g).sum ∧
      sumOver (H.bins.take (i + 1)) (·.hess) = ((below x indices b.hi).map h).sum := by
  have key := fun f => take_sum_rows x f indices H.bins (fun b hb => (hH.bin b hb).1) hH.adjacent hH.covers i b hi
  refine ⟨?_, ?_, ?_, ?_⟩
  · exact countOf_rows x indices _ (fun c hc => (hH.bin c (List.mem_of_mem_take hc)).2.1) _ (key _).1
  · exact countOf_rows x indices _ (fun c hc => (hH.bin c (List.mem_of_mem_drop hc)).2.1) _ (key _).2
  · rw [sumOver_eq]
    unfold below
    rw [← (key g).1]
    congr 1
    apply List.map_congr_left
    intro c hc
    rw [(hH.bin c (List.mem_of_mem_take hc)).2.2.1, sumOver_eq]
  · rw [sumOver_eq]
    unfold below
    rw [← (key h).1]
    congr 1
    apply List.map_congr_left
    intro c hc
    rw [(hH.bin c (List.mem_of_mem_take hc)).2.2.2, sumOver_eq]

/-- gain of dividing the rows at `t`: those below `t` go left -/
def rowGain (hb : Builder α) (L : Lits α) (special : α → Bool) (x g h : Nat → α) (indices : List Nat) (t : α) : α :=
  hb.gain L special ((below x indices t).map g).sum ((below x indices t).map h).sum ((above x indices t).map g).sum
    ((above x indices t).map h).sum (indices.map g).sum (indices.map h).sum

theorem gainAt_rows (hb : Builder α) (L : Lits α) (special : α → Bool) (x g h : Nat → α) (indices : List Nat) (H : Hist α)
    (hH : IsHistogram x g h indices H) (i : Nat) (b : Bin α) (hi : H.bins[i]? = some b) :
    gainAt hb L special H.bins (indices.map g).sum (indices.map h).sum i = rowGain hb L special x g h indices b.hi := by
  obtain ⟨-, -, e3, e4⟩ := splitAt_rows x g h indices H hH i b hi
  unfold gainAt rowGain
  rw [e3, e4, sum_below_above, sum_below_above]

/-- C64: no bin boundary leaving enough rows on both sides gives more than the split found, whether or not it has a positive gain -/
theorem split_maximal (hb : Builder α) (L : Lits α) (special : α → Bool) (x g h : Nat → α) (indices : List Nat) (H : Hist α)
    (hH : IsHistogram x g h indices H) (minData : Int) (b : Bin α) (hbin : b ∈ H.bins.dropLast)
    (h1 : minData ≤ (below x indices b.hi).length) (h2 : minData ≤ (above x indices b.hi).length) :
    rowGain hb L special x g h indices b.hi ≤ (hb.findSplit L special H (indices.map g).sum (indices.map h).sum minData).gain := by
  obtain ⟨j, hj, hjc⟩ := List.getElem_of_mem hbin
  rw [List.length_dropLast] at hj
  rw [List.getElem_dropLast] at hjc
  have hjb : H.bins[j]? = some b := List.getElem?_eq_some_iff.2 ⟨by omega, hjc⟩
  obtain ⟨c1, c2, -, -⟩ := splitAt_rows x g h indices H hH j b hjb
  have hadm : Admissible H.bins minData j := ⟨by rw [c1]; exact h1, by rw [c2]; exact h2⟩
  rw [← gainAt_rows hb L special x g h indices H hH j b hjb]
  rcases split_is_best hb L special H (indices.map g).sum (indices.map h).sum minData with ⟨e, hmax⟩ | ⟨i, -, -, -, e, hmax, -⟩
  · rw [e]; exact hmax j hj hadm
  · rw [e]; exact hmax j hj hadm

/-- C64: the split found in the histogram of a node, with the node's totals, describes a division of the node's rows: the rows below
the threshold and the others, each with at least `min_data_in_leaf` rows, and no other bin boundary gives more -/
theorem split_divides_rows (hb : Builder α) (L : Lits α) (special : α → Bool) (x g h : Nat → α) (indices : List Nat) (H : Hist α)
    (hH : IsHistogram x g h indices H) (minData : Int) (r : Split α)
    (hr : r = hb.findSplit L special H (indices.map g).sum (indices.map h).sum minData) (hpos : 0 < r.gain) :
    r.leftCount = (below x indices r.threshold).length ∧ r.rightCount = (above x indices r.threshold).length ∧
      r.leftGrad = ((below x indices r.threshold).map g).sum ∧ r.rightGrad = ((above x indices r.threshold).map g).sum ∧
      r.leftHess = ((below x indices r.threshold).map h).sum ∧ r.rightHess = ((above x indices r.threshold).map h).sum ∧
      minData ≤ r.leftCount ∧ minData ≤ r.rightCount ∧ r.gain = rowGain hb L special x g h indices r.threshold ∧
      ∀ b ∈ H.bins.dropLast, minData ≤ (below x indices b.hi).length → minData ≤ (above x indices b.hi).length →
        rowGain hb L special x g h indices b.hi ≤ r.gain := by
  have hbest := split_is_best hb L special H (indices.map g).sum (indices.map h).sum minData
  rw [← hr] at hbest
  rcases hbest with ⟨e, -⟩ | ⟨i, hi, hadm, h0, e, hmax, -⟩
  · rw [e] at hpos; exact absurd hpos (lt_irrefl _)
  · have hib : H.bins[i]? = some (H.bins[i]'(by omega)) := List.getElem?_eq_getElem (by omega)
    set b := H.bins[i]'(by omega) with hbdef
    obtain ⟨e1, e2, e3, e4⟩ := splitAt_rows x g h indices H hH i b hib
    have ethr : r.threshold = b.hi := by rw [e]; show (Option.map (·.hi) H.bins[i]?).getD 0 = b.hi; rw [hib]; rfl
    rw [ethr]
    refine ⟨?_, ?_, ?_, ?_, ?_, ?_, ?_, ?_, ?_, ?_⟩
    · rw [e, ← e1]; rfl
    · rw [e, ← e2]; rfl
    · rw [e, ← e3]; rfl
    · rw [e, ← sum_below_above, ← e3]; rfl
    · rw [e, ← e4]; rfl
    · rw [e, ← sum_below_above, ← e4]; rfl
    · rw [e]; exact hadm.1
    · rw [e]; exact hadm.2
    · rw [← gainAt_rows hb L special x g h indices H hH i b hib, e]; rfl
    · intro c hc h1 h2
      rw [hr]
      exact split_maximal hb L special x g h indices H hH minData c hc h1 h2

end objective

end Scigo.Hist
