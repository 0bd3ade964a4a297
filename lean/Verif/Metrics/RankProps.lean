import Verif.Metrics.RankLemmas
import Verif.Metrics.Spec

/-!
# Properties of the ranking metrics (C15, C16)

`srtP` sorts (score, relevance) pairs by descending score, `srtR` sorts relevances in
descending order; both are arbitrary functions meeting the `sort.Slice` contract.
-/

set_option linter.unusedSectionVars false

namespace Scigo.Metrics

variable {α K : Type _}

/-! ## C15 -/

/-- **C15** (law-free). `NDCG` succeeds exactly on non-nil, non-empty vectors of equal length,
with `k = -1` or `k > 0` and no negative relevance; every rejection is an error. -/
theorem ndcg_ok_iff [LinearOrder α] [Add α] [Sub α] [Div α] [Zero α] [One α]
    (pow2 : α → α) (log2 : Nat → α) (srtP : List (α × α) → List (α × α))
    (srtR : List α → List α) (t p : Vec α) (k : Int) :
    ((∃ v, ndcg pow2 log2 srtP srtR t p k = .ok v) ↔
      ∃ a b, t = some a ∧ p = some b ∧ a ≠ [] ∧ a.length = b.length ∧
        (k = -1 ∨ 0 < k) ∧ ∀ r ∈ a, 0 ≤ r) ∧
    ∀ m, ndcg pow2 log2 srtP srtR t p k ≠ .panic m := by
  constructor
  · unfold ndcg
    rw [clsGuard_ok_iff]
    constructor
    · rintro ⟨a, b, rfl, rfl, ha, hl, v, h⟩
      refine ⟨a, b, rfl, rfl, ha, hl, ?_⟩
      split at h
      · simp at h
      · next hk =>
        dsimp only at h
        split at h
        · simp at h
        · next hn =>
          refine ⟨by omega, fun r hr => ?_⟩
          by_contra hc
          rw [← List.map_fst_zip hl.le] at hr
          obtain ⟨x, hx, rfl⟩ := List.mem_map.1 hr
          exact hn (List.any_eq_true.2 ⟨x, hx, by simpa using hc⟩)
    · rintro ⟨a, b, rfl, rfl, ha, hl, hk, hr⟩
      refine ⟨a, b, rfl, rfl, ha, hl, ?_⟩
      rw [if_neg (by omega)]
      dsimp only
      rw [if_neg]
      · generalize (if k = -1 ∨ k > ↑(a.zip b).length then (a.zip b).length else k.toNat) = k'
        split
        · exact ⟨_, rfl⟩
        · exact ⟨_, rfl⟩
      · rw [List.any_eq_true]
        rintro ⟨x, hx, hb⟩
        exact absurd (hr x.1 (List.of_mem_zip hx).1) (by simpa using hb)
  · intro m
    unfold ndcg clsGuard
    split
    · split
      · simp
      · split
        · simp
        · dsimp only
          split
          · simp
          · split
            · simp
            · repeat' split
              all_goals simp
    · simp

/-- **C15**. The value of `NDCG`: with `ranked` the relevances in predicted order and `ideal`
the relevances in descending order, it is `DCG(ranked)/DCG(ideal)` at the effective cutoff
(`0` if the ideal DCG is `0`). -/
theorem ndcg_formula (srtP : List (ℝ × ℝ) → List (ℝ × ℝ)) (hP : SortsDesc Prod.fst srtP)
    (srtR : List ℝ → List ℝ) (hR : SortsDesc id srtR)
    (a b : List ℝ) (ha : a ≠ []) (hl : a.length = b.length) (k : Int) (hk : k = -1 ∨ 0 < k)
    (hr : ∀ r ∈ a, 0 ≤ r) :
    ∃ pairs ideal : List _, ∃ k' : Nat,
      pairs.Perm (b.zip a) ∧ pairs.Pairwise (fun x y => y.1 ≤ x.1) ∧
      ideal.Perm a ∧ ideal.Pairwise (fun x y => y ≤ x) ∧
      k' = (if k = -1 then a.length else min k.toNat a.length) ∧
      ndcg rpow2 rlog2 srtP srtR (some a) (some b) k
        = .ok (if dcgAt k' ideal = 0 then 0 else dcgAt k' (pairs.map Prod.snd) / dcgAt k' ideal) := by
  have hn : 0 < a.length := List.length_pos_of_ne_nil ha
  obtain ⟨hk1, hk2⟩ := effectiveK_spec hn hk
  obtain ⟨p1, s1⟩ := hP ((a.zip b).map (fun x => (x.2, x.1)))
  obtain ⟨p2, s2⟩ := hR a
  refine ⟨srtP ((a.zip b).map (fun x => (x.2, x.1))), srtR a, effectiveK a.length k, ?_, ?_, p2, ?_,
    ?_, ?_⟩
  · refine p1.trans (List.Perm.of_eq ?_)
    rw [← List.zip_swap a b]; rfl
  · exact s1.imp (fun h => not_lt.1 h)
  · exact s2.imp (fun h => not_lt.1 h)
  · unfold effectiveK
    rcases hk with rfl | hk
    · simp
    · have : ¬ k = -1 := by omega
      simp only [this, false_or, if_false]
      split_ifs with h
      · rw [min_eq_right]; omega
      · rw [min_eq_left]; omega
  · rw [ndcg_eq srtP srtR a b ha hl k hk hr, dcg_eq_sum _ _ (by rw [p2.length_eq]; exact hk2),
      dcg_eq_sum _ _ (by rw [(ranked_perm srtP hP a b hl).length_eq]; exact hk2)]
    unfold dcgAt
    split <;> rfl

/-- **C15**. `NDCG` lies in `[0,1]`. -/
theorem ndcg_range (srtP : List (ℝ × ℝ) → List (ℝ × ℝ)) (hP : SortsDesc Prod.fst srtP)
    (srtR : List ℝ → List ℝ) (hR : SortsDesc id srtR)
    (a b : List ℝ) (ha : a ≠ []) (hl : a.length = b.length) (k : Int) (hk : k = -1 ∨ 0 < k)
    (hr : ∀ r ∈ a, 0 ≤ r) :
    ∃ v, ndcg rpow2 rlog2 srtP srtR (some a) (some b) k = .ok v ∧ 0 ≤ v ∧ v ≤ 1 := by
  rw [ndcg_eq srtP srtR a b ha hl k hk hr]
  split
  · exact ⟨0, rfl, le_refl _, zero_le_one⟩
  · next h0 =>
    obtain ⟨p2, s2⟩ := hR a
    have p1 := ranked_perm srtP hP a b hl
    have hg : ∀ l : List ℝ, l.Perm a → 0 ≤ dcg rpow2 rlog2 l (effectiveK a.length k) := by
      intro l hp
      rw [dcg_eq]
      apply wsum_nonneg _ (ndcgW_nonneg _)
      intro x hx
      obtain ⟨r, hr', rfl⟩ := List.mem_map.1 hx
      exact gain_nonneg (hr r (hp.mem_iff.1 hr'))
    have hpos := lt_of_le_of_ne (hg _ p2) (Ne.symm h0)
    refine ⟨_, rfl, div_nonneg (hg _ p1) hpos.le, ?_⟩
    rw [div_le_one hpos, dcg_eq, dcg_eq]
    apply wsum_le_sorted _ (ndcgW_anti _)
    · exact (p1.trans p2.symm).map _
    · rw [List.pairwise_map]
      exact s2.imp (fun h => not_lt.2 (gain_mono (not_lt.1 h)))

/-- **C15**. `NDCG` is `1` when some relevance is positive and higher relevance always means
higher score. -/
theorem ndcg_perfect (srtP : List (ℝ × ℝ) → List (ℝ × ℝ)) (hP : SortsDesc Prod.fst srtP)
    (srtR : List ℝ → List ℝ) (hR : SortsDesc id srtR)
    (a b : List ℝ) (hl : a.length = b.length) (k : Int) (hk : k = -1 ∨ 0 < k)
    (hr : ∀ r ∈ a, 0 ≤ r) (hpos : ∃ r ∈ a, 0 < r)
    (hord : ∀ x ∈ a.zip b, ∀ y ∈ a.zip b, y.1 < x.1 → y.2 < x.2) :
    ndcg rpow2 rlog2 srtP srtR (some a) (some b) k = .ok 1 := by
  obtain ⟨r0, hr0, hr0p⟩ := hpos
  have ha : a ≠ [] := List.ne_nil_of_mem hr0
  have hn : 0 < a.length := List.length_pos_of_ne_nil ha
  obtain ⟨hk1, hk2⟩ := effectiveK_spec hn hk
  obtain ⟨p2, s2⟩ := hR a
  have p1 := ranked_perm srtP hP a b hl
  have s1 : ((srtP ((a.zip b).map (fun x => (x.2, x.1)))).map Prod.snd).Pairwise
      (fun x y => ¬ x < y) := by
    rw [List.pairwise_map]
    obtain ⟨q1, q2⟩ := hP ((a.zip b).map (fun x => (x.2, x.1)))
    refine List.Pairwise.imp_of_mem ?_ q2
    intro x y hx hy h hlt
    have hx' := q1.mem_iff.1 hx
    have hy' := q1.mem_iff.1 hy
    obtain ⟨x', hx1, rfl⟩ := List.mem_map.1 hx'
    obtain ⟨y', hy1, rfl⟩ := List.mem_map.1 hy'
    exact h (hord y' hy1 x' hx1 hlt)
  have heq : (srtP ((a.zip b).map (fun x => (x.2, x.1)))).map Prod.snd = srtR a := by
    refine List.Perm.eq_of_pairwise (le := fun x y : ℝ => ¬ x < y) ?_ s1 s2 (p1.trans p2.symm)
    intro x y _ _ h1 h2
    exact le_antisymm (not_lt.1 h2) (not_lt.1 h1)
  rw [ndcg_eq srtP srtR a b ha hl k hk hr, heq]
  have hne : dcg rpow2 rlog2 (srtR a) (effectiveK a.length k) ≠ 0 := by
    rw [dcg_eq]
    cases hL : srtR a with
    | nil => rw [hL] at p2; exact absurd p2.nil_eq.symm ha
    | cons m l =>
      rw [hL] at p2 s2
      have hm : r0 ≤ m := by
        rcases List.mem_cons.1 (p2.mem_iff.2 hr0) with e | e
        · exact e.le
        · exact not_lt.1 ((List.pairwise_cons.1 s2).1 _ e)
      rw [List.map_cons, wsum]
      have h1 : 0 < ndcgW (effectiveK a.length k) 0 := by
        unfold ndcgW; rw [if_pos hk1]; exact inv_pos.2 (rlog2_pos 0)
      have h2 : 0 < rpow2 m - 1 := gain_pos (lt_of_lt_of_le hr0p hm)
      have h3 : 0 ≤ wsum (fun i => ndcgW (effectiveK a.length k) (i + 1))
          (l.map (fun r => rpow2 r - 1)) := by
        apply wsum_nonneg _ (fun i => ndcgW_nonneg _ _)
        intro x hx
        obtain ⟨r, hr', rfl⟩ := List.mem_map.1 hx
        exact gain_nonneg (hr r (p2.mem_iff.1 (List.mem_cons_of_mem _ hr')))
      have := mul_pos h1 h2
      linarith
  rw [if_neg hne, div_self hne]

/-- **C15**. `NDCG` is `0` when all relevances are `0`. -/
theorem ndcg_all_zero (srtP : List (ℝ × ℝ) → List (ℝ × ℝ))
    (srtR : List ℝ → List ℝ) (hR : SortsDesc id srtR)
    (a b : List ℝ) (ha : a ≠ []) (hl : a.length = b.length) (k : Int) (hk : k = -1 ∨ 0 < k)
    (hz : ∀ r ∈ a, r = 0) :
    ndcg rpow2 rlog2 srtP srtR (some a) (some b) k = .ok 0 := by
  rw [ndcg_eq srtP srtR a b ha hl k hk (fun r hr => (hz r hr).ge), if_pos]
  rw [dcg_eq]
  apply wsum_zero
  intro x hx
  obtain ⟨r, hr', rfl⟩ := List.mem_map.1 hx
  rw [hz r ((hR a).1.mem_iff.1 hr')]
  simp [rpow2]

example : ∃ v, ndcg rpow2 rlog2 (stableDesc Prod.fst) (stableDesc id) (some [0, 2, 1])
    (some [0.5, 0.4, 0.9]) 2 = .ok v ∧ 0 ≤ v ∧ v ≤ 1 :=
  ndcg_range _ (stableDesc_sorts _) _ (stableDesc_sorts _) [0, 2, 1] [0.5, 0.4, 0.9]
    (by simp) rfl 2 (Or.inr (by norm_num))
    (by simp)

example : ndcg rpow2 rlog2 (stableDesc Prod.fst) (stableDesc id) (some [0, 2, 1])
    (some [0.1, 0.9, 0.4]) (-1) = .ok 1 := by
  refine ndcg_perfect _ (stableDesc_sorts _) _ (stableDesc_sorts _) [0, 2, 1]
    [0.1, 0.9, 0.4] rfl (-1) (Or.inl rfl)
    (by simp) ⟨2, by simp, by norm_num⟩ ?_
  simp only [List.zip_cons_cons, List.mem_cons, List.zip_nil_right, List.not_mem_nil, or_false]
  rintro x (rfl | rfl | rfl) y (rfl | rfl | rfl) h <;> (norm_num at h) <;> norm_num

/-! ## C16 -/

/-- **C16** (law-free). `AveragePrecision` succeeds exactly on non-nil, non-empty vectors of
equal length with binary labels, and never panics. -/
theorem ap_ok_iff [LinearOrder α] [Add α] [Div α] [Zero α] [One α] [NatCast α]
    (srt : List (α × α) → List (α × α)) (t p : Vec α) :
    ((∃ v, averagePrecision srt t p = .ok v) ↔
      ∃ a b, t = some a ∧ p = some b ∧ a ≠ [] ∧ a.length = b.length ∧ ∀ y ∈ a, y = 0 ∨ y = 1) ∧
    ∀ m, averagePrecision srt t p ≠ .panic m := by
  constructor
  · constructor
    · unfold averagePrecision
      rw [clsGuard_ok_iff]
      rintro ⟨a, b, rfl, rfl, ha, hl, v, h⟩
      refine ⟨a, b, rfl, rfl, ha, hl, fun y hy => ?_⟩
      split at h
      · simp at h
      · next hn =>
        rw [← List.map_fst_zip hl.le] at hy
        obtain ⟨x, hx, rfl⟩ := List.mem_map.1 hy
        by_contra hc
        push Not at hc
        exact hn (List.any_eq_true.2 ⟨x, hx, by simp [notBinary, hc.1, hc.2]⟩)
    · rintro ⟨a, b, rfl, rfl, ha, hl, hb⟩
      rw [ap_eq srt a b ha hl hb]
      split <;> exact ⟨_, rfl⟩
  · intro m
    unfold averagePrecision clsGuard
    split
    · split
      · simp
      · split
        · simp
        · dsimp only
          split
          · simp
          · split <;> simp
    · simp

section Exact
variable [Field K] [LinearOrder K] [IsStrictOrderedRing K]

/-- **C16**. `AveragePrecision` lies in `[0,1]`; it is `0` when nothing is relevant; and with a
relevant item it is `1` exactly when, in the ranking the sort produced, no irrelevant item
precedes a relevant one. -/
theorem ap_range (srt : List (K × K) → List (K × K)) (hs : SortsDesc Prod.fst srt)
    (a b : List K) (ha : a ≠ []) (hl : a.length = b.length) (hb : ∀ y ∈ a, y = 0 ∨ y = 1) :
    ∃ v, averagePrecision srt (some a) (some b) = .ok v ∧ 0 ≤ v ∧ v ≤ 1 ∧
      (1 ∉ a → v = 0) ∧
      (1 ∈ a → (v = 1 ↔ ∃ ranked : List (K × K), ranked = srt (b.zip a) ∧
        ranked.Pairwise (fun x y => ¬ (x.2 = 0 ∧ y.2 = 1)))) := by
  rw [ap_eq srt a b ha hl hb]
  have hswap : (a.zip b).map (fun x => (x.2, x.1)) = b.zip a := by rw [← List.zip_swap a b]; rfl
  have hperm := (hs (b.zip a)).1
  have hcount : ((srt (b.zip a)).map Prod.snd).countP (· == 1) = a.countP (· == 1) := by
    rw [(hperm.map Prod.snd).countP_eq, List.map_snd_zip hl.le]
  have hbin : ∀ x ∈ srt (b.zip a), x.2 = 0 ∨ x.2 = 1 :=
    fun x hx => hb _ (List.of_mem_zip (hperm.mem_iff.1 hx)).2
  rw [hswap]
  split
  · next h0 =>
    refine ⟨0, rfl, le_refl _, zero_le_one, fun _ => rfl, fun h1 => ?_⟩
    rw [List.countP_eq_zero] at h0
    exact absurd (by simp) (h0 1 h1)
  · next h0 =>
    have hpos : (0 : K) < ((a.countP (· == 1) : Nat) : K) := by
      exact_mod_cast Nat.pos_of_ne_zero h0
    obtain ⟨h1, h2⟩ := apLoop_bounds ((srt (b.zip a)).map Prod.snd) 0 0 0 (le_refl _)
    rw [hcount, zero_add] at h2
    refine ⟨_, rfl, div_nonneg h1 hpos.le, by rw [div_le_one hpos]; exact h2, ?_, ?_⟩
    · intro hn
      exfalso
      apply h0
      rw [List.countP_eq_zero]
      intro x hx
      simp only [beq_iff_eq]
      rintro rfl; exact hn hx
    · intro _
      have hf := apLoop_full ((srt (b.zip a)).map Prod.snd) 0 (0 : K)
      rw [hcount, zero_add] at hf
      rw [div_eq_one_iff_eq hpos.ne', hf, List.pairwise_map]
      constructor
      · intro h
        refine ⟨_, rfl, h.imp ?_⟩
        rintro x y hxy ⟨e0, e1⟩
        have := hxy e1
        rw [e0] at this
        exact zero_ne_one this
      · rintro ⟨_, rfl, h⟩
        refine List.Pairwise.imp_of_mem ?_ h
        intro x y hx hy hxy e1
        rcases hbin x hx with e | e
        · exact absurd ⟨e, e1⟩ hxy
        · exact e

/-- **C16**. In terms of scores: `1` if every relevant item outscores every irrelevant one;
less than `1` if some irrelevant item outscores some relevant one. -/
theorem ap_one_by_scores (srt : List (K × K) → List (K × K)) (hs : SortsDesc Prod.fst srt)
    (a b : List K) (hl : a.length = b.length) (hb : ∀ y ∈ a, y = 0 ∨ y = 1) (h1 : 1 ∈ a) :
    ∃ v, averagePrecision srt (some a) (some b) = .ok v ∧
      ((∀ x ∈ a.zip b, ∀ y ∈ a.zip b, x.1 = 1 → y.1 = 0 → y.2 < x.2) → v = 1) ∧
      ((∃ x ∈ a.zip b, ∃ y ∈ a.zip b, x.1 = 1 ∧ y.1 = 0 ∧ x.2 < y.2) → v < 1) := by
  have ha : a ≠ [] := List.ne_nil_of_mem h1
  obtain ⟨v, hv, h0, hle, -, hiff⟩ := ap_range srt hs a b ha hl hb
  obtain ⟨hperm, hsort⟩ := hs (b.zip a)
  have hmem : ∀ x, x ∈ srt (b.zip a) ↔ (x.2, x.1) ∈ a.zip b := by
    intro x
    rw [hperm.mem_iff, ← List.zip_swap a b, List.mem_map]
    constructor
    · rintro ⟨y, hy, rfl⟩; exact hy
    · intro h; exact ⟨_, h, rfl⟩
  refine ⟨v, hv, ?_, ?_⟩
  · intro h
    rw [hiff h1]
    refine ⟨_, rfl, List.Pairwise.imp_of_mem ?_ hsort⟩
    rintro x y hx hy hxy ⟨e0, e1⟩
    exact hxy (h _ ((hmem y).1 hy) _ ((hmem x).1 hx) e1 e0)
  · rintro ⟨x, hx, y, hy, hx1, hy0, hlt⟩
    refine lt_of_le_of_ne hle fun e => ?_
    obtain ⟨_, rfl, hpw⟩ := (hiff h1).1 e
    -- locate both in the sorted list: the irrelevant one comes first
    have hx' : (x.2, x.1) ∈ srt (b.zip a) := (hmem _).2 hx
    have hy' : (y.2, y.1) ∈ srt (b.zip a) := (hmem _).2 hy
    have hboth := hpw.and hsort
    have key : ∀ (l : List (K × K)), l.Pairwise (fun x y => ¬ (x.2 = 0 ∧ y.2 = 1) ∧ ¬ x.1 < y.1) →
        (x.2, x.1) ∈ l → (y.2, y.1) ∈ l → False := by
      intro l hl' hxl hyl
      induction l with
      | nil => simp at hxl
      | cons z l ih =>
        rw [List.pairwise_cons] at hl'
        rcases List.mem_cons.1 hxl with e | hxl'
        · rcases List.mem_cons.1 hyl with e' | hyl'
          · rw [← e'] at e
            have := congrArg Prod.fst e
            exact hlt.ne this
          · exact (hl'.1 _ hyl').2 (by rw [← e]; exact hlt)
        · rcases List.mem_cons.1 hyl with e' | hyl'
          · exact (hl'.1 _ hxl').1 ⟨by rw [← e']; exact hy0, hx1⟩
          · exact ih hl'.2 hxl' hyl'
    exact key _ hboth hx' hy'

example : ∃ v, averagePrecision (stableDesc Prod.fst) (some [1, 0, 1])
    (some [(3 : ℚ), 1, 2]) = .ok v ∧ v = 1 := ⟨1, by decide +kernel, rfl⟩

example : ∃ x ∈ ([1, 0, 1] : List ℚ).zip [3, 4, 2], ∃ y ∈ ([1, 0, 1] : List ℚ).zip [3, 4, 2],
    x.1 = 1 ∧ y.1 = 0 ∧ x.2 < y.2 := by decide +kernel

end Exact

/-- **C16** (law-free). Without tied scores `AveragePrecision` depends neither on the order of
the samples nor on the sorting algorithm. -/
theorem ap_perm_no_ties [LinearOrder α] [Add α] [Div α] [Zero α] [One α] [NatCast α]
    (srt srt' : List (α × α) → List (α × α)) (hs : SortsDesc Prod.fst srt)
    (hs' : SortsDesc Prod.fst srt') (a b a' b' : List α) (hl : a.length = b.length)
    (hl' : a'.length = b'.length) (hp : (a.zip b).Perm (a'.zip b')) (hnd : b.Nodup) :
    averagePrecision srt (some a) (some b) = averagePrecision srt' (some a') (some b') := by
  have hlen : (a.zip b).length = (a'.zip b').length := hp.length_eq
  have haa : a.length = a'.length := by simpa [hl, hl'] using hlen
  by_cases ha : a = []
  · subst ha
    have ha' : a' = [] := by simpa using haa.symm
    subst ha'; rfl
  have ha' : a' ≠ [] := by rintro rfl; exact ha (by simpa using haa)
  unfold averagePrecision
  rw [clsGuard_some ha hl, clsGuard_some ha' hl']
  have hany : (a.zip b).any (fun x => notBinary x.1) = (a'.zip b').any (fun x => notBinary x.1) := by
    rw [Bool.eq_iff_iff, List.any_eq_true, List.any_eq_true]
    simp only [hp.mem_iff]
  have hsw := hp.map (fun x : α × α => (x.2, x.1))
  obtain ⟨p1, s1⟩ := hs ((a.zip b).map (fun x => (x.2, x.1)))
  obtain ⟨p2, s2⟩ := hs' ((a'.zip b').map (fun x => (x.2, x.1)))
  have hnd' : ((srt ((a.zip b).map (fun x => (x.2, x.1)))).map Prod.fst).Nodup := by
    refine (p1.map Prod.fst).nodup_iff.2 ?_
    rw [List.map_map]
    have : (a.zip b).map (Prod.fst ∘ fun x => (x.2, x.1)) = b := List.map_snd_zip hl.ge
    rw [this]; exact hnd
  have heq : srt ((a.zip b).map (fun x => (x.2, x.1))) = srt' ((a'.zip b').map (fun x => (x.2, x.1))) := by
    refine List.Perm.eq_of_pairwise (le := fun x y : α × α => ¬ x.1 < y.1) ?_ s1 s2
      (p1.trans (hsw.trans p2.symm))
    intro x y hx hy h1 h2
    have e : x.1 = y.1 := le_antisymm (not_lt.1 h2) (not_lt.1 h1)
    have hy' := (p1.trans (hsw.trans p2.symm)).mem_iff.2 hy
    exact List.inj_on_of_nodup_map hnd' hx hy' e
  rw [hany, heq]
  have hcnt : ((a.zip b).map Prod.fst).foldl (fun s y => if y == 1 then s + 1 else s) 0
      = ((a'.zip b').map Prod.fst).foldl (fun s y => if y == 1 then s + 1 else s) 0 := by
    rw [countRel_eq, countRel_eq, (hp.map Prod.fst).countP_eq]
  dsimp only
  rw [hcnt]

example : (([1, 0, 1] : List ℚ).zip [3, 1, 2]).Perm ([0, 1, 1].zip [1, 2, 3]) ∧
    ([3, 1, 2] : List ℚ).Nodup := by decide +kernel

/-- **C16** (limit). With tied scores the value does depend on the order of the samples: the
same two samples in the two orders, equal scores, stable sort: `1` against `1/2`. -/
theorem ap_ties_order_dependent :
    (([1, 0] : List ℚ).zip [1, 1]).Perm ([0, 1].zip [1, 1]) ∧
    averagePrecision (stableDesc Prod.fst) (some [(1 : ℚ), 0]) (some [1, 1]) = .ok 1 ∧
    averagePrecision (stableDesc Prod.fst) (some [(0 : ℚ), 1]) (some [1, 1]) = .ok (1 / 2) := by
  refine ⟨?_, ?_, ?_⟩ <;> decide +kernel

/-- **C16**. `MeanAveragePrecision` of queries whose average precisions are `vs` is their
arithmetic mean. -/
theorem map_is_mean [Field K] [LinearOrder K] [IsStrictOrderedRing K]
    (srt : List (K × K) → List (K × K)) (ts ps : List (Vec K)) (vs : List K)
    (hne : ts ≠ []) (hl : ts.length = ps.length) (hv : vs.length = ts.length)
    (h : ∀ i (hi : i < ts.length) (hp : i < ps.length) (hvi : i < vs.length),
      averagePrecision srt ts[i] ps[i] = .ok vs[i]) :
    meanAveragePrecision srt ts ps = .ok (vs.sum / vs.length) := by
  unfold meanAveragePrecision
  have h0 : ts.length ≠ 0 := by simpa using hne
  rw [if_neg (by omega), if_neg (by omega), mapLoop_ok srt _ vs (forall₂_zip ts ps vs hl hv h),
    Outcome.bind_ok, hv]
  have : vs.foldl (· + ·) (0 : K) = vs.sum := List.sum_eq_foldl.symm
  rw [this]

/-- **C16** (law-free). A query that fails makes `MeanAveragePrecision` return that query's
error (the first one). -/
theorem map_first_error [LinearOrder α] [Add α] [Div α] [Zero α] [One α] [NatCast α]
    (srt : List (α × α) → List (α × α)) (ts1 ts2 ps1 ps2 : List (Vec α)) (t p : Vec α)
    (e : GoErr) (hl1 : ts1.length = ps1.length) (hl2 : ts2.length = ps2.length)
    (hok : ∀ i (hi : i < ts1.length) (hp : i < ps1.length), ∃ v,
      averagePrecision srt ts1[i] ps1[i] = .ok v)
    (hbad : averagePrecision srt t p = .err e) :
    meanAveragePrecision srt (ts1 ++ t :: ts2) (ps1 ++ p :: ps2) = .err e := by
  unfold meanAveragePrecision
  rw [if_neg (by simp), if_neg (by simp; omega), List.zip_append hl1]
  have : ∀ (ts1 ps1 : List (Vec α)), ts1.length = ps1.length →
      (∀ i (hi : i < ts1.length) (hp : i < ps1.length), ∃ v,
        averagePrecision srt ts1[i] ps1[i] = .ok v) → ∀ s,
      mapLoop srt (ts1.zip ps1 ++ (t :: ts2).zip (p :: ps2)) s = .err e := by
    intro ts1
    induction ts1 with
    | nil => intro ps1 _ _ s; simp [mapLoop, hbad]
    | cons x ts1 ih =>
      intro ps1 hl hok s
      cases ps1 with
      | nil => simp at hl
      | cons y ps1 =>
        obtain ⟨v, hv⟩ := hok 0 (by simp) (by simp)
        simp only [List.getElem_cons_zero] at hv
        rw [List.zip_cons_cons, List.cons_append, mapLoop, hv, Outcome.bind_ok]
        refine ih ps1 (by simpa using hl) (fun i hi hp => ?_) _
        have := hok (i + 1) (by simp; omega) (by simp; omega)
        simpa using this
  rw [this ts1 ps1 hl1 hok]
  rfl

example : meanAveragePrecision (stableDesc Prod.fst) [some [(1 : ℚ), 0], some [0, 1]]
    [some [2, 1], some [2, 1]] = .ok (3 / 4) := by decide +kernel

end Scigo.Metrics
