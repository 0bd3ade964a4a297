import Verif.Metrics.AucLemmas

/-!
# Properties of `AUC` (C11, C12 and part of C10)

`auc (1/2) 2 srt` is the model with the literals `0.5`, `2`; `srt` is any function meeting
the `sort.Slice` contract for descending scores.
-/

set_option linter.unusedSectionVars false

namespace Scigo.Metrics

variable {α K : Type _}

section LawFree
variable [LinearOrder α] [Add α] [Sub α] [Mul α] [Div α] [Zero α] [One α]

/-- **C10, C11** (law-free: no arithmetic law is used, so it holds bit for bit in floating
point without NaN). The result of `AUC` depends neither on the order of the samples nor on
how the unstable sort arranges tied scores — including which error is returned. -/
theorem auc_order_independent (half two : α) (srt srt' : List (α × α) → List (α × α))
    (hs : SortsDesc Prod.fst srt) (hs' : SortsDesc Prod.fst srt')
    (a b a' b' : List α) (hl : a.length = b.length) (hl' : a'.length = b'.length)
    (hp : (a.zip b).Perm (a'.zip b')) :
    auc half two srt (some a) (some b) = auc half two srt' (some a') (some b') := by
  have hlen : (a.zip b).length = (a'.zip b').length := hp.length_eq
  have haa : a.length = a'.length := by simpa [hl, hl'] using hlen
  by_cases ha : a = []
  · subst ha
    have ha' : a' = [] := by simpa using haa.symm
    subst ha'; rfl
  have ha' : a' ≠ [] := by rintro rfl; exact ha (by simpa using haa)
  unfold auc
  rw [clsGuard_some ha hl, clsGuard_some ha' hl']
  have hany : (a.zip b).any (fun x => notBinary x.1) = (a'.zip b').any (fun x => notBinary x.1) := by
    rw [Bool.eq_iff_iff, List.any_eq_true, List.any_eq_true]
    simp only [hp.mem_iff]
  have hcnt : ∀ o, countLabels o ((a.zip b).map Prod.fst) = countLabels o ((a'.zip b').map Prod.fst) := by
    intro o
    rw [countLabels_eq, countLabels_eq, (hp.map Prod.fst).countP_eq]
  rw [hany]
  simp only [hcnt]
  have hsw := hp.map (fun x : α × α => (x.2, x.1))
  obtain ⟨hp1, hsort1⟩ := hs ((a.zip b).map (fun x => (x.2, x.1)))
  obtain ⟨hp2, hsort2⟩ := hs' ((a'.zip b').map (fun x => (x.2, x.1)))
  have hpp := hp1.trans (hsw.trans hp2.symm)
  generalize srt ((a.zip b).map (fun x => (x.2, x.1))) = L at *
  generalize srt' ((a'.zip b').map (fun x => (x.2, x.1))) = L' at *
  cases L with
  | nil => rw [← hpp.nil_eq]
  | cons q l =>
    cases L' with
    | nil => simp at hpp
    | cons q' l' =>
      simp only
      rw [heads_eq hsort1 hsort2 hpp, sweep_perm _ _ _ _ _ (le_refl _) hpp hsort1 hsort2]

/-- **C11** (law-free). `AUC` rejects nil or empty input, mismatched lengths and non-binary
labels with an error, and never panics. -/
theorem auc_errors (half two : α) (srt : List (α × α) → List (α × α))
    (hs : SortsDesc Prod.fst srt) (t p : Vec α) :
    (∃ v, auc half two srt t p = .ok v) ↔
      ∃ a b, t = some a ∧ p = some b ∧ a ≠ [] ∧ a.length = b.length ∧ ∀ y ∈ a, y = 0 ∨ y = 1 := by
  unfold auc
  rw [clsGuard_ok_iff]
  constructor
  · rintro ⟨a, b, rfl, rfl, ha, hl, v, h⟩
    refine ⟨a, b, rfl, rfl, ha, hl, fun y hy => ?_⟩
    split at h
    · simp at h
    · next hn =>
      rw [← List.map_fst_zip hl.le] at hy
      obtain ⟨x, hx, rfl⟩ := List.mem_map.1 hy
      by_contra hc
      push Not at hc
      exact hn (List.any_eq_true.2 ⟨x, hx, by simp [notBinary, hc.1, hc.2]⟩)
  · rintro ⟨a, b, rfl, rfl, ha, hl, hy⟩
    refine ⟨a, b, rfl, rfl, ha, hl, ?_⟩
    have hn : ¬ ((a.zip b).any (fun x => notBinary x.1) = true) := by
      rw [List.any_eq_true]
      rintro ⟨x, hx, hb⟩
      have := hy x.1 (List.of_mem_zip hx).1
      rcases this with h | h <;> simp [notBinary, h] at hb
    rw [if_neg hn]
    dsimp only
    split
    · exact ⟨_, rfl⟩
    · have hne : srt ((a.zip b).map (fun x => (x.2, x.1))) ≠ [] := by
        intro h
        have := (hs ((a.zip b).map (fun x => (x.2, x.1)))).1
        rw [h] at this
        have := this.nil_eq
        exact zip_ne_nil ha hl (by simpa using this.symm)
      cases hL : srt ((a.zip b).map (fun x => (x.2, x.1))) with
      | nil => exact absurd hL hne
      | cons q l => exact ⟨_, rfl⟩

/-- **C11** (law-free). `AUC` never panics. -/
theorem auc_no_panic (half two : α) (srt : List (α × α) → List (α × α))
    (hs : SortsDesc Prod.fst srt) (t p : Vec α) (m : String) :
    auc half two srt t p ≠ .panic m := by
  unfold auc clsGuard
  split
  · next a b =>
    split
    · simp
    · next h0 =>
      split
      · simp
      · next hl =>
        dsimp only
        split
        · simp
        · split
          · simp
          · have ha : a ≠ [] := by simpa using h0
            have hl : a.length = b.length := by simpa using hl
            cases hL : srt ((a.zip b).map (fun x => (x.2, x.1))) with
            | nil =>
              have := (hs ((a.zip b).map (fun x => (x.2, x.1)))).1
              rw [hL] at this
              have := this.nil_eq
              exact absurd (by simpa using this.symm) (zip_ne_nil ha hl)
            | cons q l => simp
  · simp

end LawFree

section Exact
variable [Field K] [LinearOrder K] [IsStrictOrderedRing K]

/-- **C11**. On binary labels with both classes present `AUC` is the Mann-Whitney statistic:
the fraction of (positive, negative) pairs the positive wins, a tie counting one half. -/
theorem auc_mann_whitney (srt : List (K × K) → List (K × K)) (hs : SortsDesc Prod.fst srt)
    (a b : List K) (hl : a.length = b.length) (hbin : ∀ y ∈ a, y = 0 ∨ y = 1)
    (h1 : 1 ∈ a) (h0 : 0 ∈ a) :
    auc (1 / 2) 2 srt (some a) (some b) = .ok
      (mannWhitney (scoresOf 1 a b) (scoresOf 0 a b)
        / (((scoresOf 1 a b).length : K) * ((scoresOf 0 a b).length : K))) := by
  have ha : a ≠ [] := List.ne_nil_of_mem h1
  unfold auc
  rw [clsGuard_some ha hl]
  have hn : ¬ ((a.zip b).any (fun x => notBinary x.1) = true) := by
    rw [List.any_eq_true]
    rintro ⟨x, hx, hb⟩
    have := hbin x.1 (List.of_mem_zip hx).1
    rcases this with h | h <;> simp [notBinary, h] at hb
  rw [if_neg hn]
  dsimp only
  have hbz : ∀ x ∈ a.zip b, x.1 = 0 ∨ x.1 = 1 := by
    intro x hx
    exact hbin x.1 (List.of_mem_zip hx).1
  have hposlen : (scoresOf 1 a b).length = (a.zip b).countP (fun x => decide (x.1 = 1)) := by
    simp [scoresOf, List.countP_eq_length_filter]
  have hneglen : (scoresOf 0 a b).length = (a.zip b).countP (fun x => decide (x.1 = 0)) := by
    simp [scoresOf, List.countP_eq_length_filter]
  have hP : countLabels true ((a.zip b).map Prod.fst) = ((scoresOf 1 a b).length : K) := by
    rw [countLabels_eq, incs_eq, hposlen, zero_add, List.countP_map]
    congr 2
    funext x
    simp [Function.comp, Bool.beq_eq_decide_eq]
  have hN : countLabels false ((a.zip b).map Prod.fst) = ((scoresOf 0 a b).length : K) := by
    rw [countLabels_eq, incs_eq, hneglen, zero_add, List.countP_map]
    congr 1
    apply List.countP_congr
    intro x hx
    rcases hbz x hx with h | h <;> simp [Function.comp, h]
  rw [hP, hN]
  have hmem : ∀ l, l ∈ a → 0 < (a.zip b).countP (fun x => decide (x.1 = l)) := by
    intro l hla
    rw [List.countP_pos_iff]
    rw [← map_fst_zip' hl] at hla
    obtain ⟨x, hx, rfl⟩ := List.mem_map.1 hla
    exact ⟨x, hx, by simp⟩
  have hP0 : ((scoresOf 1 a b).length : K) ≠ 0 := by
    rw [hposlen]; exact_mod_cast (hmem 1 h1).ne'
  have hN0 : ((scoresOf 0 a b).length : K) ≠ 0 := by
    rw [hneglen]; exact_mod_cast (hmem 0 h0).ne'
  have hif : ¬ ((((scoresOf 1 a b).length : K) == 0 || ((scoresOf 0 a b).length : K) == 0) = true) := by
    simp only [Bool.or_eq_true, beq_iff_eq, not_or]; exact ⟨hP0, hN0⟩
  rw [if_neg hif]
  obtain ⟨hperm, hsort⟩ := hs ((a.zip b).map (fun x => (x.2, x.1)))
  cases hL : srt ((a.zip b).map (fun x => (x.2, x.1))) with
  | nil =>
    rw [hL] at hperm
    have := hperm.nil_eq
    exact absurd (by simpa using this.symm) (zip_ne_nil ha hl)
  | cons q l =>
    rw [hL] at hperm hsort
    simp only
    have hcp : ((q :: l).countP isPos : K) = ((scoresOf 1 a b).length : K) := by
      rw [hperm.countP_eq, List.countP_map, hposlen]
      congr 2
    have hcn : ((q :: l).countP (fun q => !isPos q) : K) = ((scoresOf 0 a b).length : K) := by
      rw [hperm.countP_eq, List.countP_map, hneglen]
      congr 1
      apply List.countP_congr
      intro x hx
      rcases hbz x hx with h | h <;> simp [Function.comp, h, isPos]
    have key := area_main ((scoresOf 1 a b).length : K) ((scoresOf 0 a b).length : K) hP0 hN0
      (q :: l).length (q :: l) (le_refl _) hsort 0 0 (q.1 + 1)
      (by rw [zero_add]; exact hcp.symm) (by rw [zero_add]; exact hcn.symm)
      (by
        intro x hx
        have := head_max hsort x hx
        exact (lt_of_le_of_lt this (by linarith)).ne)
    obtain ⟨⟨tl, htl⟩, harea⟩ := key
    have harea0 := harea 0
    rw [htl] at harea0 ⊢
    rw [trapezoid]
    simp only [zero_div, sub_zero, zero_mul, add_zero, zero_add] at harea0 ⊢
    rw [harea0, mwAux_eq]
    congr 2
    apply mannWhitney_perm
    · have := (hperm.filter isPos).map Prod.fst
      refine this.trans (List.Perm.of_eq ?_)
      simp only [scoresOf, List.filter_map, List.map_map]
      rfl
    · have := (hperm.filter (fun q => !isPos q)).map Prod.fst
      refine this.trans (List.Perm.of_eq ?_)
      simp only [scoresOf, List.filter_map, List.map_map]
      have : (a.zip b).filter ((fun q : K × K => !isPos q) ∘ fun x : K × K => (x.2, x.1))
          = (a.zip b).filter (fun x => decide (x.1 = 0)) := by
        apply List.filter_congr
        intro x hx
        rcases hbz x hx with h | h <;> simp [Function.comp, h, isPos]
      rw [this]
      rfl

example : auc (1 / 2) 2 (stableDesc Prod.fst) (some [1, 0, 1, 0, 1])
    (some [(3 : ℚ), 2, 2, 1, 1]) = .ok (2 / 3) := by
  rw [auc_mann_whitney _ (stableDesc_sorts _) [1, 0, 1, 0, 1] [3, 2, 2, 1, 1] rfl (by decide +kernel) (by decide +kernel)
    (by decide +kernel)]
  decide +kernel

/-- **C11**. With a single class `AUC` returns `0.5`. -/
theorem auc_one_class (srt : List (K × K) → List (K × K))
    (a b : List K) (ha : a ≠ []) (hl : a.length = b.length)
    (h : (∀ y ∈ a, y = 1) ∨ (∀ y ∈ a, y = 0)) :
    auc (1 / 2) 2 srt (some a) (some b) = .ok (1 / 2) := by
  unfold auc
  rw [clsGuard_some ha hl]
  have hbin : ∀ y ∈ a, y = 0 ∨ y = 1 := by
    rcases h with h | h
    · exact fun y hy => Or.inr (h y hy)
    · exact fun y hy => Or.inl (h y hy)
  have hn : ¬ ((a.zip b).any (fun x => notBinary x.1) = true) := by
    rw [List.any_eq_true]
    rintro ⟨x, hx, hb⟩
    rcases hbin x.1 (List.of_mem_zip hx).1 with h | h <;> simp [notBinary, h] at hb
  rw [if_neg hn]
  dsimp only
  rw [if_pos]
  rw [map_fst_zip' hl, Bool.or_eq_true, countLabels_eq, countLabels_eq, incs_eq, incs_eq]
  rcases h with h | h
  · right
    have : a.countP (fun y => (y == 1) == false) = 0 := by
      rw [List.countP_eq_zero]
      intro y hy; simp [h y hy]
    rw [this]; simp
  · left
    have : a.countP (fun y => (y == 1) == true) = 0 := by
      rw [List.countP_eq_zero]
      intro y hy; simp [h y hy]
    rw [this]; simp

example : auc (1 / 2) 2 (stableDesc Prod.fst) (some [1, 1]) (some [(3 : ℚ), 2]) = .ok (1 / 2) :=
  auc_one_class _ _ _ (by simp) rfl (Or.inl (by simp))

/-- **C11**. `AUC` lies in `[0,1]` and is `1` exactly when every positive outscores every
negative. -/
theorem auc_range (srt : List (K × K) → List (K × K)) (hs : SortsDesc Prod.fst srt)
    (a b : List K) (hl : a.length = b.length) (hbin : ∀ y ∈ a, y = 0 ∨ y = 1)
    (h1 : 1 ∈ a) (h0 : 0 ∈ a) :
    ∃ v, auc (1 / 2) 2 srt (some a) (some b) = .ok v ∧ 0 ≤ v ∧ v ≤ 1 ∧
      (v = 1 ↔ ∀ x ∈ a.zip b, ∀ y ∈ a.zip b, x.1 = 1 → y.1 = 0 → y.2 < x.2) := by
  have hp := scoresOf_length_pos hl h1
  have hn := scoresOf_length_pos hl h0
  have hpk : (0 : K) < ((scoresOf 1 a b).length : K) := by exact_mod_cast hp
  have hnk : (0 : K) < ((scoresOf 0 a b).length : K) := by exact_mod_cast hn
  have hb := mannWhitney_bounds (scoresOf 1 a b) (scoresOf 0 a b)
  refine ⟨_, auc_mann_whitney srt hs a b hl hbin h1 h0, ?_, ?_, ?_⟩
  · exact div_nonneg hb.1 (mul_pos hpk hnk).le
  · rw [div_le_one (mul_pos hpk hnk)]; exact hb.2.1
  · rw [div_eq_one_iff_eq (mul_pos hpk hnk).ne', hb.2.2]
    simp only [mem_scoresOf]
    constructor
    · intro h x hx y hy hx1 hy0
      exact h x.2 ⟨x, hx, hx1, rfl⟩ y.2 ⟨y, hy, hy0, rfl⟩
    · rintro h _ ⟨x, hx, hx1, rfl⟩ _ ⟨y, hy, hy0, rfl⟩
      exact h x hx y hy hx1 hy0

example : ∃ v, auc (1 / 2) 2 (stableDesc Prod.fst) (some [1, 0, 1]) (some [(3 : ℚ), 1, 2]) = .ok v ∧
    0 ≤ v ∧ v ≤ 1 := by
  obtain ⟨v, h, h0, h1, -⟩ := auc_range _ (stableDesc_sorts _) [(1 : ℚ), 0, 1] [3, 1, 2] rfl
    (by decide +kernel) (by decide +kernel) (by decide +kernel)
  exact ⟨v, h, h0, h1⟩

/-! ## C12 -/

/-- **C12**. Mapping all scores through a strictly increasing function leaves `AUC` (value or
error) unchanged. -/
theorem auc_monotone_invariant (srt srt' : List (K × K) → List (K × K))
    (hs : SortsDesc Prod.fst srt) (hs' : SortsDesc Prod.fst srt')
    (f : K → K) (hf : StrictMono f) (a b : List K) (hl : a.length = b.length)
    (hbin : ∀ y ∈ a, y = 0 ∨ y = 1) :
    auc (1 / 2) 2 srt (some a) (some (b.map f)) = auc (1 / 2) 2 srt' (some a) (some b) := by
  by_cases ha : a = []
  · subst ha; rfl
  by_cases h1 : 1 ∈ a
  · by_cases h0 : 0 ∈ a
    · rw [auc_mann_whitney srt hs a _ (by simpa using hl) hbin h1 h0,
        auc_mann_whitney srt' hs' a b hl hbin h1 h0]
      simp only [scoresOf_map, List.length_map]
      rw [mannWhitney_map f hf]
    · have h : ∀ y ∈ a, y = 1 := fun y hy => (hbin y hy).resolve_left (fun e => h0 (e ▸ hy))
      rw [auc_one_class srt a _ ha (by simpa using hl) (Or.inl h),
        auc_one_class srt' a _ ha hl (Or.inl h)]
  · have h : ∀ y ∈ a, y = 0 := fun y hy => (hbin y hy).resolve_right (fun e => h1 (e ▸ hy))
    rw [auc_one_class srt a _ ha (by simpa using hl) (Or.inr h),
      auc_one_class srt' a _ ha hl (Or.inr h)]

example : StrictMono (fun x : ℚ => 2 * x + 1) := fun a b h => by simp only; linarith

/-- **C12**. Negating every score turns `AUC` into `1 - AUC`. -/
theorem auc_negate_scores (srt srt' : List (K × K) → List (K × K))
    (hs : SortsDesc Prod.fst srt) (hs' : SortsDesc Prod.fst srt')
    (a b : List K) (hl : a.length = b.length) (hbin : ∀ y ∈ a, y = 0 ∨ y = 1)
    (h1 : 1 ∈ a) (h0 : 0 ∈ a) :
    ∃ v, auc (1 / 2) 2 srt (some a) (some b) = .ok v ∧
      auc (1 / 2) 2 srt' (some a) (some (b.map (fun x => -x))) = .ok (1 - v) := by
  refine ⟨_, auc_mann_whitney srt hs a b hl hbin h1 h0, ?_⟩
  rw [auc_mann_whitney srt' hs' a _ (by simpa using hl) hbin h1 h0]
  have hp : ((scoresOf 1 a b).length : K) ≠ 0 := by exact_mod_cast (scoresOf_length_pos hl h1).ne'
  have hn : ((scoresOf 0 a b).length : K) ≠ 0 := by exact_mod_cast (scoresOf_length_pos hl h0).ne'
  simp only [scoresOf_map, List.length_map]
  have := mannWhitney_neg (scoresOf 1 a b) (scoresOf 0 a b)
  rw [this]
  congr 1
  field_simp

/-- **C12**. Flipping every label turns `AUC` into `1 - AUC`. -/
theorem auc_flip_labels (srt srt' : List (K × K) → List (K × K))
    (hs : SortsDesc Prod.fst srt) (hs' : SortsDesc Prod.fst srt')
    (a b : List K) (hl : a.length = b.length) (hbin : ∀ y ∈ a, y = 0 ∨ y = 1)
    (h1 : 1 ∈ a) (h0 : 0 ∈ a) :
    ∃ v, auc (1 / 2) 2 srt (some a) (some b) = .ok v ∧
      auc (1 / 2) 2 srt' (some (a.map (fun y => 1 - y))) (some b) = .ok (1 - v) := by
  refine ⟨_, auc_mann_whitney srt hs a b hl hbin h1 h0, ?_⟩
  rw [auc_mann_whitney srt' hs' (a.map (fun y => 1 - y)) b (by simpa using hl)
    (by
      intro y hy
      obtain ⟨x, hx, rfl⟩ := List.mem_map.1 hy
      rcases hbin x hx with h | h <;> simp [h])
    (List.mem_map.2 ⟨0, h0, by simp⟩) (List.mem_map.2 ⟨1, h1, by simp⟩)]
  have hp : ((scoresOf 1 a b).length : K) ≠ 0 := by exact_mod_cast (scoresOf_length_pos hl h1).ne'
  have hn : ((scoresOf 0 a b).length : K) ≠ 0 := by exact_mod_cast (scoresOf_length_pos hl h0).ne'
  have e1 : scoresOf 1 (a.map (fun y => 1 - y)) b = scoresOf 0 a b := by
    rw [scoresOf_map_fst]; apply scoresOf_congr; intro x; rw [sub_eq_self]
  have e0 : scoresOf 0 (a.map (fun y => 1 - y)) b = scoresOf 1 a b := by
    rw [scoresOf_map_fst]; apply scoresOf_congr; intro x
    rw [sub_eq_zero, eq_comm]
  rw [e1, e0, mannWhitney_swap]
  congr 1
  field_simp

example : ∃ v, auc (1 / 2) 2 (stableDesc Prod.fst) (some [1, 0, 1]) (some [(3 : ℚ), 1, 2]) = .ok v ∧
    auc (1 / 2) 2 (stableDesc Prod.fst) (some ([1, 0, 1].map (fun y => 1 - y)))
      (some [(3 : ℚ), 1, 2]) = .ok (1 - v) :=
  auc_flip_labels _ _ (stableDesc_sorts _) (stableDesc_sorts _) [(1 : ℚ), 0, 1] [3, 1, 2] rfl (by decide +kernel)
    (by decide +kernel) (by decide +kernel)

/-- **C11** (law-free). `AUCMatrix` is `AUC` of the first columns whenever both matrices have
at least one row and one column. -/
theorem aucMatrix_eq [LinearOrder α] [Add α] [Sub α] [Mul α] [Div α] [Zero α] [One α]
    (half two : α) (srt : List (α × α) → List (α × α)) (t p : Mat α)
    (h1 : 0 < t.r) (h2 : 0 < t.c) (h3 : 0 < p.r) (h4 : 0 < p.c) :
    aucMatrix half two srt (some t) (some p)
      = auc half two srt (some ((List.range t.r).map (fun i => t.at' i 0)))
          (some ((List.range p.r).map (fun i => p.at' i 0))) := by
  simp only [aucMatrix]
  rw [if_neg (by omega), if_neg (by omega)]
  rfl

/-- **C11** (law-free). `AUCMatrix` is an error if a matrix is missing or has no rows, and panics if both have rows and one has no column. -/
theorem aucMatrix_rejects [LinearOrder α] [Add α] [Sub α] [Mul α] [Div α] [Zero α] [One α]
    (half two : α) (srt : List (α × α) → List (α × α)) (t p : Option (Mat α)) :
    ((∀ a ∈ t, ∀ b ∈ p, a.r = 0 ∨ b.r = 0) → aucMatrix half two srt t p = .err .value) ∧
    (∀ a b, t = some a → p = some b → 0 < a.r → 0 < b.r → (a.c = 0 ∨ b.c = 0) → ∃ v, aucMatrix half two srt t p = .panic v) := by
  constructor
  · intro h
    cases t with
    | none => rfl
    | some a =>
      cases p with
      | none => rfl
      | some b =>
        simp only [aucMatrix]
        rw [if_pos (h a rfl b rfl)]
  · rintro a b rfl rfl h1 h2 h3
    refine ⟨"column index out of range", ?_⟩
    simp only [aucMatrix]
    rw [if_neg (by omega), if_pos h3]

end Exact

end Scigo.Metrics
