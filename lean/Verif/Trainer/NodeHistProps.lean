import Verif.Trainer.NodeHist
import Verif.Hist.Props
import Mathlib.Tactic.Ring
import Mathlib.Tactic.Linarith
import Mathlib.Tactic.FieldSimp

/-!
# The trainer's own histograms (C250)
-/

set_option linter.unusedSectionVars false

namespace Scigo.Trainer

variable {α : Type}

/-! ## When binning panics, for every carrier -/

section
variable [DecidableEq α] [LT α] [DecidableLT α] [LE α] [DecidableLE α] [Zero α] [One α] [Add α] [Sub α] [Div α]

theorem uniq_ne_nil {l : List α} (h : l ≠ []) : 0 < (Hist.uniq l).length := by
  cases l with
  | nil => exact absurd rfl h
  | cons a l => simp [Hist.uniq]

theorem featureBins_cases (eps two : α) (srt : List α → List α) (hsrt : ∀ l, (srt l).length = l.length) (maxBin : Int) (values : List α) :
    (values ≠ [] ∧ 0 ≤ maxBin → ∃ t, featureBins eps two srt maxBin values = .ok t) ∧
    (values = [] ∨ maxBin < 0 → ∃ s, featureBins eps two srt maxBin values = .panic s) := by
  constructor
  · rintro ⟨hv, hm⟩
    unfold featureBins binBoundaries
    rw [if_neg (by simpa using hv)]
    dsimp only
    split
    · exact ⟨_, rfl⟩
    · rw [if_neg (by omega), if_neg (by omega)]
      split
      · exact ⟨_, rfl⟩
      · exact ⟨_, rfl⟩
  · rintro h
    unfold featureBins binBoundaries
    by_cases hv : values = []
    · rw [if_pos (by simpa using hv)]; exact ⟨_, rfl⟩
    · rw [if_neg (by simpa using hv)]
      have hm : maxBin < 0 := by rcases h with h | h; exact absurd h hv; exact h
      dsimp only
      rw [if_neg (by omega)]
      split
      · exact ⟨_, rfl⟩
      · rw [if_pos (by omega)]; exact ⟨_, rfl⟩

/-- **C250** (law-free). Binning the training data succeeds exactly when there is nothing to bin or there is at least one row and `max_bin` is not
negative; otherwise it panics — training with a negative `max_bin` crashes instead of reporting an error. -/
theorem binning_panics_iff (eps two : α) (srt : List α → List α) (hsrt : ∀ l, (srt l).length = l.length) (maxBin : Int) (rows cols : Nat)
    (x : Nat → Nat → α) :
    ((∃ T, buildHistograms eps two srt maxBin rows cols x = .ok T) ↔ cols = 0 ∨ (0 < rows ∧ 0 ≤ maxBin)) ∧
    ((∃ s, buildHistograms eps two srt maxBin rows cols x = .panic s) ↔ ¬ (cols = 0 ∨ (0 < rows ∧ 0 ≤ maxBin))) := by
  have main : ∀ k j, ((0 < rows ∧ 0 ≤ maxBin) ∨ k = 0 → ∃ T, binsFrom eps two srt maxBin rows x j k = .ok T) ∧
      (¬ ((0 < rows ∧ 0 ≤ maxBin) ∨ k = 0) → ∃ s, binsFrom eps two srt maxBin rows x j k = .panic s) := by
    intro k
    induction k with
    | zero => intro j; exact ⟨fun _ => ⟨_, rfl⟩, fun h => absurd (Or.inr rfl) h⟩
    | succ k ih =>
      intro j
      obtain ⟨h1, h2⟩ := featureBins_cases eps two srt hsrt maxBin ((List.range rows).map fun i => x i j)
      constructor
      · rintro (h | h)
        · obtain ⟨t, ht⟩ := h1 ⟨by simp; omega, h.2⟩
          obtain ⟨T, hT⟩ := (ih (j + 1)).1 (.inl h)
          exact ⟨t :: T, by unfold binsFrom; rw [ht, hT]; rfl⟩
        · exact absurd h (by omega)
      · intro h
        obtain ⟨s, hs⟩ := h2 (by
          by_contra hc
          apply h
          left
          rw [not_or] at hc
          have h3 := hc.1
          simp at h3
          omega)
        exact ⟨s, by unfold binsFrom; rw [hs]; rfl⟩
  obtain ⟨h1, h2⟩ := main cols 0
  unfold buildHistograms
  by_cases h : (0 < rows ∧ 0 ≤ maxBin) ∨ cols = 0
  · obtain ⟨T, hT⟩ := h1 h
    rw [hT]
    exact ⟨⟨fun _ => h.symm, fun _ => ⟨T, rfl⟩⟩, ⟨fun ⟨s, hs⟩ => (nomatch hs), fun hn => absurd h.symm hn⟩⟩
  · obtain ⟨s, hs⟩ := h2 h
    rw [hs]
    exact ⟨⟨fun ⟨T, hT⟩ => (nomatch hT), fun hn => absurd hn.symm h⟩, ⟨fun _ hn => h hn.symm, fun _ => ⟨s, rfl⟩⟩⟩

/-- **C250** (law-free): the upper end of the last bin belongs to it — so the largest value is binned also where adding 1e-10 to it changes
nothing. -/
theorem findBin_upper (T : List (Hist.Bin α)) (b : Hist.Bin α) (hT : T.getLast? = some b) (hn : ∀ c ∈ T, ¬ (c.lo ≤ b.hi ∧ b.hi < c.hi)) :
    findBin b.hi T = (T.length : Int) - 1 := by
  unfold findBin
  have : T.findIdx? (fun c => decide (c.lo ≤ b.hi ∧ b.hi < c.hi)) = none := by
    rw [List.findIdx?_eq_none_iff]
    intro c hc
    exact decide_eq_false (hn c hc)
  rw [this, hT]
  exact if_pos rfl

end

/-! ## Exact arithmetic -/

section
variable [Field α] [LinearOrder α] [IsStrictOrderedRing α]

theorem pairwise_ends {k : Nat} (f : Nat → α) (a z : α) (hf : ∀ i j, i < j → j < k → f i < f j) (ha : ∀ i < k, a < f i) (hz : ∀ i < k, f i < z)
    (haz : a < z) : (a :: ((List.range k).map f ++ [z])).Pairwise (· < ·) := by
  rw [List.pairwise_cons, List.pairwise_append]
  refine ⟨?_, ?_, List.pairwise_singleton _ _, ?_⟩
  · intro y hy
    rcases List.mem_append.1 hy with h | h
    · obtain ⟨i, hi, rfl⟩ := List.mem_map.1 h
      exact ha i (List.mem_range.1 hi)
    · rw [List.mem_singleton.1 h]; exact haz
  · rw [List.pairwise_map, List.pairwise_iff_getElem]
    intro i j hi hj hij
    rw [List.getElem_range, List.getElem_range]
    exact hf i j hij (by simpa using hj)
  · intro y hy w hw
    obtain ⟨i, hi, rfl⟩ := List.mem_map.1 hy
    rw [List.mem_singleton.1 hw]
    exact hz i (List.mem_range.1 hi)

theorem midBound_between (u : List α) (hu : u.Pairwise (· < ·)) (q : Nat) (hq : q + 1 < u.length) :
    u.getD q 0 < midBound 2 u q ∧ midBound 2 u q < u.getD (q + 1) 0 := by
  unfold midBound
  rw [if_pos (by omega)]
  have h := Hist.getD_mono u hu (Nat.lt_succ_self q) hq
  constructor
  · rw [lt_div_iff₀ (by norm_num)]; linarith
  · rw [div_lt_iff₀ (by norm_num)]; linarith

/-- bounds at increasing places: increasing, around all values, no inner bound is a value -/
theorem boundsAt_spec (eps : α) (he : 0 < eps) (u : List α) (hu : u.Pairwise (· < ·)) (hne : 0 < u.length) (k : Nat) (q : Nat → Nat)
    (hq : ∀ i j, i < j → j < k → q i < q j) (hk : ∀ i < k, q i + 1 < u.length) :
    (boundsAt eps 2 u ((List.range k).map q)).length = k + 2 ∧
    (boundsAt eps 2 u ((List.range k).map q)).Pairwise (· < ·) ∧
    (∀ v ∈ u, (boundsAt eps 2 u ((List.range k).map q)).getD 0 0 ≤ v ∧ v < (boundsAt eps 2 u ((List.range k).map q)).getD (k + 1) 0) ∧
    ∀ i < k, ∀ v ∈ u, (boundsAt eps 2 u ((List.range k).map q)).getD (i + 1) 0 ≠ v := by
  have hlen : (boundsAt eps 2 u ((List.range k).map q)).length = k + 2 := by simp [boundsAt]
  have hfirst : ∀ v ∈ u, u.getD 0 0 ≤ v := Hist.head_le_of_sorted u hu
  have hlast : ∀ v ∈ u, v ≤ u.getD (u.length - 1) 0 := Hist.le_last_of_sorted u hu
  have hmem : ∀ i, i < u.length → u.getD i 0 ∈ u := fun i hi => by rw [List.getD_eq_getElem _ _ hi]; exact List.getElem_mem hi
  have hz : (boundsAt eps 2 u ((List.range k).map q)).getD (k + 1) 0 = u.getD (u.length - 1) 0 + eps := by
    unfold boundsAt
    rw [List.getD_cons_succ, List.getD_eq_getElem _ _ (by simp), List.getElem_append_right (by simp)]
    simp
  refine ⟨hlen, ?_, ?_, ?_⟩
  · unfold boundsAt
    rw [List.map_map]
    refine pairwise_ends _ _ _ ?_ ?_ ?_ ?_
    · intro i j hij hj
      have h1 := midBound_between u hu (q i) (hk i (by omega))
      have h2 := midBound_between u hu (q j) (hk j hj)
      have h3 := Hist.getD_mono_le u hu (show q i + 1 ≤ q j from hq i j hij hj) (by have := hk j hj; omega)
      exact lt_of_lt_of_le h1.2 (h3.trans h2.1.le)
    · intro i hi
      have h1 := midBound_between u hu (q i) (hk i hi)
      have h2 := hfirst _ (hmem (q i) (by have := hk i hi; omega))
      show u.getD 0 0 - eps < midBound 2 u (q i)
      linarith [h1.1]
    · intro i hi
      have h1 := midBound_between u hu (q i) (hk i hi)
      have h2 := hlast _ (hmem (q i + 1) (hk i hi))
      show midBound 2 u (q i) < u.getD (u.length - 1) 0 + eps
      linarith [h1.2]
    · have := hlast _ (hmem 0 hne)
      linarith
  · intro v hv
    rw [hz]
    have h1 := hfirst v hv
    have h2 := hlast v hv
    show u.getD 0 0 - eps ≤ v ∧ _
    constructor <;> linarith
  · intro i hi v hv
    have e : (boundsAt eps 2 u ((List.range k).map q)).getD (i + 1) 0 = midBound 2 u (q i) := by
      unfold boundsAt
      rw [List.getD_cons_succ, List.getD_eq_getElem _ _ (by simp; omega), List.getElem_append_left (by simpa using hi)]
      simp
    rw [e]
    have h1 := midBound_between u hu (q i) (hk i hi)
    obtain ⟨j, hj, rfl⟩ := List.getElem_of_mem hv
    rw [← List.getD_eq_getElem u 0 hj]
    rcases Nat.lt_or_ge (q i) j with h | h
    · exact ne_of_lt (lt_of_lt_of_le h1.2 (Hist.getD_mono_le u hu h hj))
    · exact ne_of_gt (lt_of_le_of_lt (Hist.getD_mono_le u hu h (by have := hk i hi; omega)) h1.1)

/-- what binning one feature gives -/
theorem featureBins_spec (eps : α) (he : 0 < eps) (srt : List α → List α) (hsrt : SortsAsc id srt) (maxBin : Int) (hm : 0 < maxBin)
    (values : List α) (hv : values ≠ []) :
    ∃ b : List α, featureBins eps 2 srt maxBin values = .ok (Hist.emptyBins b) ∧ b.Pairwise (· < ·) ∧
      (b.length : Int) = min (values.toFinset.card : Int) maxBin + 1 ∧ 2 ≤ b.length ∧
      (∀ v ∈ values, b.getD 0 0 ≤ v ∧ v < b.getD (b.length - 1) 0) ∧
      ∀ i, i + 2 < b.length → ∀ v ∈ values, b.getD (i + 1) 0 ≠ v := by
  obtain ⟨hu, hmem⟩ := Hist.uniq_spec (srt values) (Hist.sorted_le srt hsrt values)
  have hmem' : ∀ v ∈ values, v ∈ Hist.uniq (srt values) := fun v h => (hmem v).2 ((hsrt values).1.mem_iff.2 h)
  have hcard : (Hist.uniq (srt values)).length = values.toFinset.card := by
    rw [← List.toFinset_card_of_nodup (hu.imp fun h => ne_of_lt h)]
    congr 1
    ext v
    rw [List.mem_toFinset, List.mem_toFinset, hmem, (hsrt values).1.mem_iff]
  have hne : 0 < (Hist.uniq (srt values)).length := by
    apply uniq_ne_nil
    intro e
    have := (hsrt values).1.length_eq
    rw [e] at this
    exact hv (List.length_eq_zero_iff.1 this.symm)
  unfold featureBins binBoundaries
  rw [if_neg (by simpa using hv)]
  dsimp only
  generalize Hist.uniq (srt values) = u at *
  by_cases hc : (u.length : Int) ≤ maxBin
  · rw [if_pos hc]
    obtain ⟨s1, s2, s3, s4⟩ := boundsAt_spec eps he u hu hne (u.length - 1) id (fun i j h _ => h) (fun i hi => by simp only [id]; omega)
    rw [List.map_id] at s1 s2 s3 s4
    refine ⟨boundsAt eps 2 u (List.range (u.length - 1)), ?_, s2, ?_, by omega, ?_, ?_⟩
    · show Outcome.ok (List.take _ _) = _
      rw [List.take_of_length_le (by rw [Hist.emptyBins_length, s1]; omega)]
    · rw [s1, ← hcard, min_eq_left hc]; omega
    · intro v h
      rw [s1]
      exact s3 v (hmem' v h)
    · intro i hi v h
      exact s4 i (by omega) v (hmem' v h)
  · rw [if_neg hc, if_neg (by omega), if_neg (by omega), if_neg (by omega)]
    have hM : 0 < maxBin.toNat := by omega
    have hlt : ∀ i < maxBin.toNat - 1, (u.length - 1) * (i + 1) / maxBin.toNat + 1 < u.length := by
      intro i hi
      have : (u.length - 1) * (i + 1) / maxBin.toNat < u.length - 1 := by
        rw [Nat.div_lt_iff_lt_mul hM]
        exact Nat.mul_lt_mul_of_pos_left (by omega) (by omega)
      omega
    have hinc : ∀ i j, i < j → j < maxBin.toNat - 1 → (u.length - 1) * (i + 1) / maxBin.toNat < (u.length - 1) * (j + 1) / maxBin.toNat := by
      intro i j hij _
      have h1 : (u.length - 1) * (i + 1) + maxBin.toNat ≤ (u.length - 1) * (j + 1) := by
        have : (u.length - 1) * (i + 1) + (u.length - 1) = (u.length - 1) * (i + 1 + 1) := by ring
        calc _ ≤ (u.length - 1) * (i + 1) + (u.length - 1) := by omega
          _ = (u.length - 1) * (i + 1 + 1) := this
          _ ≤ _ := Nat.mul_le_mul_left _ (by omega)
      calc _ < (u.length - 1) * (i + 1) / maxBin.toNat + 1 := Nat.lt_succ_self _
        _ = ((u.length - 1) * (i + 1) + maxBin.toNat) / maxBin.toNat := by rw [Nat.add_div_right _ hM]
        _ ≤ _ := Nat.div_le_div_right h1
    obtain ⟨s1, s2, s3, s4⟩ := boundsAt_spec eps he u hu hne (maxBin.toNat - 1) _ hinc hlt
    refine ⟨_, ?_, s2, ?_, by omega, ?_, ?_⟩
    · show Outcome.ok (List.take _ _) = _
      rw [List.take_of_length_le (by rw [Hist.emptyBins_length, s1]; omega)]
    · rw [s1, ← hcard, min_eq_right (by omega)]; omega
    · intro v h
      rw [s1]
      exact s3 v (hmem' v h)
    · intro i hi v h
      exact s4 i (by omega) v (hmem' v h)

/-- the trainer's search in terms of bounds -/
def findIn (v : α) (b : List α) : Int := findBin v (Hist.emptyBins b)

theorem findIn_spec (v : α) (b : List α) (hs : b.Pairwise (· < ·)) (hb : 2 ≤ b.length) (h1 : b.getD 0 0 ≤ v)
    (h2 : v < b.getD (b.length - 1) 0) :
    (∀ k, k < b.length - 1 → (findIn v b = (k : Int) ↔ b.getD k 0 ≤ v ∧ v < b.getD (k + 1) 0)) ∧
      ∃ k : Nat, k < b.length - 1 ∧ findIn v b = (k : Int) := by
  have uniq : ∀ k m, k < b.length - 1 → m < b.length - 1 → b.getD k 0 ≤ v → v < b.getD (k + 1) 0 → b.getD m 0 ≤ v → v < b.getD (m + 1) 0 → k = m := by
    intro k m hk hm a1 a2 b1 b2
    rcases Nat.lt_trichotomy k m with h | h | h
    · exact absurd (lt_of_lt_of_le a2 ((Hist.getD_mono_le b hs h (by omega)).trans b1)) (lt_irrefl _)
    · exact h
    · exact absurd (lt_of_lt_of_le b2 ((Hist.getD_mono_le b hs h (by omega)).trans a1)) (lt_irrefl _)
  obtain ⟨r1, r2⟩ := Hist.findBinIndex_range v b hb
  obtain ⟨m, hm⟩ : ∃ m : Nat, Hist.findBinIndex v b = m := ⟨(Hist.findBinIndex v b).toNat, by omega⟩
  have hmb : m < b.length - 1 := by omega
  obtain ⟨g1, g2⟩ := (Hist.findBinIndex_iff v b hs hb h1 h2 m hmb).1 hm
  have hf : findIn v b = m := by
    unfold findIn findBin
    have : (Hist.emptyBins b).findIdx? (fun c => decide (c.lo ≤ v ∧ v < c.hi)) = some m := by
      rw [List.findIdx?_eq_some_iff_getElem]
      refine ⟨by rw [Hist.emptyBins_length]; exact hmb, ?_, ?_⟩
      · simp only [Hist.emptyBins, List.getElem_map, List.getElem_range]
        exact decide_eq_true ⟨g1, g2⟩
      · intro j hj
        simp only [Hist.emptyBins, List.getElem_map, List.getElem_range, decide_eq_true_eq]
        rintro ⟨a1, a2⟩
        exact absurd (uniq j m (by omega) hmb a1 a2 g1 g2) (by omega)
    rw [this]
  refine ⟨fun k hk => ?_, m, hmb, hf⟩
  rw [hf]
  constructor
  · intro e
    obtain rfl : m = k := by omega
    exact ⟨g1, g2⟩
  · rintro ⟨a1, a2⟩
    rw [uniq k m hk hmb a1 a2 g1 g2]

theorem addKahan_eq (g h : α) : addKahan g h = Hist.Bin.add (α := α) g h := by
  funext b; simp [addKahan, Hist.Bin.add, Hist.kahan]

theorem fold_eq_fill (b : List α) (x g h : Nat → α) (indices : List Nat) :
    indices.foldl (fun bins i => addToBins (Hist.emptyBins b) (x i) (g i) (h i) bins) (Hist.emptyBins b) =
      Hist.fill findIn b x g h indices := by
  unfold Hist.fill
  congr 1
  funext bins i
  unfold addToBins Hist.addRow findIn
  rw [addKahan_eq]

/-- the bins come from bounds -/
theorem buildHistograms_get (eps : α) (he : 0 < eps) (srt : List α → List α) (hsrt : SortsAsc id srt) (maxBin : Int) (hm : 0 < maxBin)
    (rows cols : Nat) (hr : 0 < rows) (x : Nat → Nat → α) (T : List (List (Hist.Bin α)))
    (hT : buildHistograms eps 2 srt maxBin rows cols x = .ok T) : T.length = cols ∧
      ∀ j < cols, ∃ b : List α, T[j]? = some (Hist.emptyBins b) ∧ b.Pairwise (· < ·) ∧
        (b.length : Int) = min (((List.range rows).map fun i => x i j).toFinset.card : Int) maxBin + 1 ∧ 2 ≤ b.length ∧
        (∀ i < rows, b.getD 0 0 ≤ x i j ∧ x i j < b.getD (b.length - 1) 0) ∧
        ∀ k, k + 2 < b.length → ∀ i < rows, b.getD (k + 1) 0 ≠ x i j := by
  have main : ∀ k c T, binsFrom eps 2 srt maxBin rows x c k = .ok T → T.length = k ∧
      ∀ j < k, ∃ b : List α, T[j]? = some (Hist.emptyBins b) ∧ b.Pairwise (· < ·) ∧
        (b.length : Int) = min (((List.range rows).map fun i => x i (c + j)).toFinset.card : Int) maxBin + 1 ∧ 2 ≤ b.length ∧
        (∀ i < rows, b.getD 0 0 ≤ x i (c + j) ∧ x i (c + j) < b.getD (b.length - 1) 0) ∧
        ∀ k, k + 2 < b.length → ∀ i < rows, b.getD (k + 1) 0 ≠ x i (c + j) := by
    intro k
    induction k with
    | zero => intro c T hT; unfold binsFrom at hT; cases hT; exact ⟨rfl, fun j hj => absurd hj (by omega)⟩
    | succ k ih =>
      intro c T hT
      obtain ⟨b, hb, p1, p2, p3, p4, p5⟩ := featureBins_spec eps he srt hsrt maxBin hm ((List.range rows).map fun i => x i c) (by simp; omega)
      unfold binsFrom at hT
      rw [hb] at hT
      cases hT' : binsFrom eps 2 srt maxBin rows x (c + 1) k with
      | err e => rw [hT'] at hT; exact nomatch hT
      | panic e => rw [hT'] at hT; exact nomatch hT
      | ok T' =>
        rw [hT'] at hT
        obtain rfl : Hist.emptyBins b :: T' = T := Outcome.ok.inj hT
        obtain ⟨i1, i2⟩ := ih (c + 1) T' hT'
        refine ⟨by simp [i1], fun j hj => ?_⟩
        cases j with
        | zero =>
          exact ⟨b, rfl, p1, p2, p3, fun i hi => p4 _ (List.mem_map_of_mem (List.mem_range.2 hi)),
            fun k hk i hi => p5 k hk _ (List.mem_map_of_mem (List.mem_range.2 hi))⟩
        | succ j =>
          have := i2 j (by omega)
          rw [show c + 1 + j = c + (j + 1) by omega] at this
          simpa using this
  have := main cols 0 T hT
  simpa using this

theorem foldl_kahan (f : Nat → α) (l : List Nat) : l.foldl (fun s i => Hist.kahan s (f i) 0) 0 = (l.map f).sum := by
  rw [← sumOver_eq]
  unfold sumOver
  congr 1
  funext s i
  simp [Hist.kahan]

/-- **C250** For at least one row and a positive `max_bin`, the histograms of a node are those of its rows: as many bins per feature as it has
distinct values, `max_bin` at most; adjacent half-open bins that cover every row, each with the count and the sums of exactly the rows in it,
adding up to the totals of the node; and no training value sits on an inner bound, so that `x ≤ bound` and `x < bound` select the same rows. -/
theorem node_histogram (eps : α) (he : 0 < eps) (srt : List α → List α) (hsrt : SortsAsc id srt) (maxBin : Int) (hm : 0 < maxBin)
    (rows cols : Nat) (hr : 0 < rows) (x : Nat → Nat → α) (g h : Nat → α) (indices : List Nat) (hi : ∀ i ∈ indices, i < rows) :
    ∃ T, buildHistograms eps 2 srt maxBin rows cols x = .ok T ∧ T.length = cols ∧
      (nodeHistogram T x g h indices).count = indices.length ∧
      (nodeHistogram T x g h indices).totalGrad = (indices.map g).sum ∧
      (nodeHistogram T x g h indices).totalHess = (indices.map h).sum ∧
      (nodeHistogram T x g h indices).feats.length = cols ∧
      ∀ j < cols, ∃ (bins : List (Hist.Bin α)) (b : List α), (nodeHistogram T x g h indices).feats[j]? = some bins ∧
        Hist.IsHistogram (fun i => x i j) g h indices ⟨j, bins, b⟩ ∧
        (bins.length : Int) = min (((List.range rows).map fun i => x i j).toFinset.card : Int) maxBin ∧
        (bins.map (·.count)).sum = indices.length ∧ (bins.map (·.grad)).sum = (indices.map g).sum ∧
        (bins.map (·.hess)).sum = (indices.map h).sum ∧
        ∀ (k : Nat) (c : Hist.Bin α), k + 1 < bins.length → bins[k]? = some c → ∀ i < rows, x i j ≤ c.hi ↔ x i j < c.hi := by
  obtain ⟨T, hT⟩ := (binning_panics_iff eps 2 srt (fun l => (hsrt l).1.length_eq) maxBin rows cols x).1.2 (.inr ⟨hr, by omega⟩)
  obtain ⟨hl, hj⟩ := buildHistograms_get eps he srt hsrt maxBin hm rows cols hr x T hT
  refine ⟨T, hT, hl, rfl, foldl_kahan g indices, foldl_kahan h indices, by simp [nodeHistogram, hl], fun j hjc => ?_⟩
  obtain ⟨b, hb, p1, p2, p3, p4, p5⟩ := hj j hjc
  have hget : (nodeHistogram T x g h indices).feats[j]? = some (Hist.fill findIn b (fun i => x i j) g h indices) := by
    simp only [nodeHistogram, List.getElem?_mapIdx, hb, Option.map_some]
    rw [fold_eq_fill b (fun i => x i j) g h indices]
  have hH : Hist.IsHistogram (fun i => x i j) g h indices ⟨j, Hist.fill findIn b (fun i => x i j) g h indices, b⟩ :=
    Hist.isHistogram_of_bounds findIn b p1 p3 j _ g h indices (fun i h => p4 i (hi i h))
      (fun v h1 h2 k hk => (findIn_spec v b p1 p3 h1 h2).1 k hk) (fun v h1 h2 => (findIn_spec v b p1 p3 h1 h2).2)
  obtain ⟨c1, c2, c3⟩ := Hist.histogram_conserves _ g h indices _ hH
  have hlen := Hist.fill_length findIn b (fun i => x i j) g h indices
  refine ⟨_, b, hget, hH, by rw [hlen]; omega, c1, c2, c3, fun k c hk hc i hir => ?_⟩
  rw [hlen] at hk
  rw [Hist.fill_get findIn b _ g h indices k (by omega)] at hc
  obtain rfl := Option.some.inj hc
  have hne := p5 k (by omega) i hir
  constructor
  · intro h; exact lt_of_le_of_ne h (Ne.symm hne)
  · exact le_of_lt

/-- **C250** Histogram subtraction: the histogram of a parent minus that of one child is the histogram of the other child, bin by bin. -/
theorem subtract_sibling (eps : α) (he : 0 < eps) (srt : List α → List α) (hsrt : SortsAsc id srt) (maxBin : Int) (hm : 0 < maxBin)
    (rows cols : Nat) (hr : 0 < rows) (x : Nat → Nat → α) (g h : Nat → α) (T : List (List (Hist.Bin α)))
    (hT : buildHistograms eps 2 srt maxBin rows cols x = .ok T) (P S R : List Nat) (hP : P.Perm (S ++ R)) :
    (nodeHistogram T x g h P).sub (nodeHistogram T x g h S) = .ok (nodeHistogram T x g h R) := by
  obtain ⟨hl, hj⟩ := buildHistograms_get eps he srt hsrt maxBin hm rows cols hr x T hT
  have hget : ∀ I : List Nat, ∀ j < cols, ∃ b : List α, T[j]? = some (Hist.emptyBins b) := fun I j hjc => by
    obtain ⟨b, hb, -⟩ := hj j hjc; exact ⟨b, hb⟩
  have hfeat : ∀ (I : List Nat) (j : Nat) (b : List α), T[j]? = some (Hist.emptyBins b) →
      (nodeHistogram T x g h I).feats[j]? = some (Hist.fill findIn b (fun i => x i j) g h I) := by
    intro I j b hb
    simp only [nodeHistogram, List.getElem?_mapIdx, hb, Option.map_some]
    rw [fold_eq_fill b (fun i => x i j) g h I]
  have hflen : ∀ I : List Nat, (nodeHistogram T x g h I).feats.length = cols := fun I => by simp [nodeHistogram, hl]
  have hsum : ∀ f : Nat → α, (P.map f).sum - (S.map f).sum = (R.map f).sum := by
    intro f
    rw [(hP.map f).sum_eq, List.map_append, List.sum_append, add_sub_cancel_left]
  unfold NodeHist.sub
  rw [if_neg]
  · congr 1
    have e1 : List.zipWith (List.zipWith subBin) (nodeHistogram T x g h P).feats (nodeHistogram T x g h S).feats
        = (nodeHistogram T x g h R).feats := by
      apply List.ext_getElem?
      intro j
      rw [List.getElem?_zipWith]
      by_cases hjc : j < cols
      · obtain ⟨b, hb, -⟩ := hj j hjc
        rw [hfeat P j b hb, hfeat S j b hb, hfeat R j b hb]
        simp only [Option.some.injEq]
        apply List.ext_getElem?
        intro k
        rw [List.getElem?_zipWith]
        by_cases hk : k < b.length - 1
        · rw [Hist.fill_get findIn b _ g h P k hk, Hist.fill_get findIn b _ g h S k hk, Hist.fill_get findIn b _ g h R k hk]
          have hp : (Hist.rowsIn findIn b (fun i => x i j) P k).Perm
              (Hist.rowsIn findIn b (fun i => x i j) S k ++ Hist.rowsIn findIn b (fun i => x i j) R k) := by
            unfold Hist.rowsIn
            rw [← List.filter_append]
            exact hP.filter _
          simp only [subBin, Option.some.injEq, Hist.Bin.mk.injEq, true_and]
          refine ⟨?_, ?_, ?_⟩
          · have := hp.length_eq
            rw [List.length_append] at this
            omega
          · rw [sumOver_eq, sumOver_eq, sumOver_eq, (hp.map g).sum_eq, List.map_append, List.sum_append, add_sub_cancel_left]
          · rw [sumOver_eq, sumOver_eq, sumOver_eq, (hp.map h).sum_eq, List.map_append, List.sum_append, add_sub_cancel_left]
        · rw [List.getElem?_eq_none (by rw [Hist.fill_length]; omega), List.getElem?_eq_none (l := Hist.fill findIn b _ g h R) (by rw [Hist.fill_length]; omega)]
      · rw [List.getElem?_eq_none (by rw [hflen]; omega), List.getElem?_eq_none (l := (nodeHistogram T x g h R).feats) (by rw [hflen]; omega)]
    rw [e1]
    have c1 : (nodeHistogram T x g h P).totalGrad - (nodeHistogram T x g h S).totalGrad = (nodeHistogram T x g h R).totalGrad := by
      show P.foldl _ 0 - S.foldl _ 0 = R.foldl _ 0
      rw [foldl_kahan, foldl_kahan, foldl_kahan, hsum]
    have c2 : (nodeHistogram T x g h P).totalHess - (nodeHistogram T x g h S).totalHess = (nodeHistogram T x g h R).totalHess := by
      show P.foldl _ 0 - S.foldl _ 0 = R.foldl _ 0
      rw [foldl_kahan, foldl_kahan, foldl_kahan, hsum]
    have c3 : (nodeHistogram T x g h P).count - (nodeHistogram T x g h S).count = (nodeHistogram T x g h R).count := by
      show (P.length : Int) - S.length = R.length
      have := hP.length_eq
      rw [List.length_append] at this
      omega
    rw [c1, c2, c3]
  · rintro (hc | ⟨j, hjm, hc⟩)
    · rw [hflen, hflen] at hc; omega
    · rw [List.mem_range, hflen] at hjm
      obtain ⟨b, hb, -⟩ := hj j hjm
      rw [List.getD_eq_getElem?_getD, List.getD_eq_getElem?_getD, hfeat P j b hb, hfeat S j b hb] at hc
      simp only [Option.getD_some, Hist.fill_length, lt_self_iff_false] at hc

end

/-! ### A concrete case -/

/-- four rows, two features, three bins at most -/
def exX : Nat → Nat → ℚ := fun i j => if j = 0 then [1, 2, 3, 4].getD i 0 else [5, 5, 7, 5].getD i 0

example : (buildHistograms (1 / 100) 2 exchangeSort 3 4 2 exX).map (·.map (·.map fun b => (b.lo, b.hi))) =
    .ok [[(99 / 100, 5 / 2), (5 / 2, 7 / 2), (7 / 2, 401 / 100)], [(499 / 100, 6), (6, 701 / 100)]] := by decide +kernel

example : (buildHistograms (1 / 100) 2 exchangeSort 3 4 2 exX).bind (fun T =>
      (nodeHistogram T exX (fun i => (i : ℚ)) (fun _ => 1) [0, 1, 2, 3]).sub (nodeHistogram T exX (fun i => (i : ℚ)) (fun _ => 1) [0, 3])) =
    (buildHistograms (1 / 100) 2 exchangeSort 3 4 2 exX).map (fun T => nodeHistogram T exX (fun i => (i : ℚ)) (fun _ => 1) [1, 2]) := by
  decide +kernel

example : ∃ s, buildHistograms (1 / 100) 2 (stableAsc id) (-1) 4 2 exX = .panic s :=
  (binning_panics_iff _ _ _ (fun l => (stableAsc_sorts (id : ℚ → ℚ) l).1.length_eq) _ _ _ _).2.2 (by omega)

end Scigo.Trainer
