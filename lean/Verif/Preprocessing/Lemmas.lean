import Verif.Preprocessing.Spec
import Mathlib.Algebra.Order.Field.Basic
import Mathlib.Algebra.Order.Ring.Abs
import Mathlib.Data.Real.Sqrt
import Mathlib.Tactic.Ring
import Mathlib.Tactic.FieldSimp
import Mathlib.Tactic.Linarith
import Mathlib.Tactic.Positivity

set_option linter.unusedSectionVars false

namespace Scigo.Preprocessing

variable {α K κ : Type _}

theorem getD_map_range {β : Type _} (n j : Nat) (f : Nat → β) (d : β) (h : j < n) :
    ((List.range n).map f).getD j d = f j := by
  simp [List.getD_eq_getElem?_getD, h]

/-! ### StandardScaler -/

section Std
variable [Add α] [Sub α] [Mul α] [Div α] [Zero α] [One α] [NatCast α] [LT α] [DecidableLT α]

/-- the invariant of a scaler: it holds the statistics of the last data it was fitted on -/
structure StdInv (sqrt abs : α → α) (eps : α) (wm ws : Bool) (s : StdScaler α)
    (last : Option (Mat α)) : Prop where
  hm : s.withMean = wm
  hs : s.withStd = ws
  hf : s.fitted = last.isSome
  hx : ∀ X0, last = some X0 → 0 < X0.r ∧ 0 < X0.c ∧ s.nFeatures = X0.c ∧
    s.mean = fitMean wm X0 ∧ s.scale = fitScale sqrt abs eps ws X0 (fitMean wm X0)

theorem std_fit_inv (sqrt abs : α → α) (eps : α) (wm ws : Bool) (s : StdScaler α)
    (last : Option (Mat α)) (h : StdInv sqrt abs eps wm ws s last) (X : Mat α) :
    StdInv sqrt abs eps wm ws (s.fit sqrt abs eps X).1 (if nonEmpty X then some X else last) := by
  unfold StdScaler.fit
  by_cases hX : X.r = 0 ∨ X.c = 0
  · rw [if_pos hX, if_neg (by simp [nonEmpty]; omega)]; exact h
  · rw [if_neg hX, if_pos (by simp [nonEmpty]; omega)]
    refine ⟨h.hm, h.hs, rfl, ?_⟩
    rintro X0 e
    cases e
    refine ⟨by omega, by omega, rfl, ?_, ?_⟩
    · simp only [h.hm]
    · simp only [h.hm, h.hs]

theorem std_run_inv (sqrt abs : α → α) (eps : α) (wm ws : Bool) (hist : List (Call (Mat α)))
    (s : StdScaler α) (last : Option (Mat α)) (h : StdInv sqrt abs eps wm ws s last) :
    StdInv sqrt abs eps wm ws (runStd sqrt abs eps hist s) (lastFit nonEmpty hist last) := by
  induction hist generalizing s last with
  | nil => exact h
  | cons c hist ih =>
    cases c with
    | fit X => exact ih _ _ (std_fit_inv sqrt abs eps wm ws s last h X)
    | fitTransform X => exact ih _ _ (std_fit_inv sqrt abs eps wm ws s last h X)
    | transform X => exact ih _ _ h
    | inverse X => exact ih _ _ h
    | reset => exact ih _ _ ⟨h.hm, h.hs, rfl, by simp⟩

theorem std_new_inv (sqrt abs : α → α) (eps : α) (wm ws : Bool) :
    StdInv sqrt abs eps wm ws (StdScaler.new wm ws) none := ⟨rfl, rfl, rfl, by simp⟩

@[simp] theorem fitMean_length (wm : Bool) (X : Mat α) : (fitMean wm X).length = X.c := by
  simp [fitMean]

@[simp] theorem fitScale_length (sqrt abs : α → α) (eps : α) (ws : Bool) (X : Mat α) (m : List α) :
    (fitScale sqrt abs eps ws X m).length = X.c := by
  simp [fitScale]

theorem fitMean_getD (wm : Bool) (X : Mat α) (j : Nat) (hj : j < X.c) :
    (fitMean wm X).getD j 0 = if wm then colMean X j else 0 := by
  unfold fitMean; rw [getD_map_range _ _ _ _ hj]

theorem fitScale_getD (sqrt abs : α → α) (eps : α) (ws : Bool) (X : Mat α) (m : List α) (j : Nat)
    (hj : j < X.c) : (fitScale sqrt abs eps ws X m).getD j 0
      = if ws then colScale sqrt abs eps X j (m.getD j 0) else 1 := by
  unfold fitScale; rw [getD_map_range _ _ _ _ hj]

end Std

/-! ### MinMaxScaler -/

section MM
variable [Add α] [Sub α] [Mul α] [Div α] [Zero α] [One α] [LT α] [DecidableLT α]

/-- the invariant of a min-max scaler: it holds the range of the last data it was fitted on -/
structure MMInv (abs : α → α) (eps lo hi : α) (s : MinMax α) (last : Option (Mat α)) : Prop where
  hl : s.lo = lo
  hh : s.hi = hi
  hf : s.fitted = last.isSome
  hx : ∀ X0, last = some X0 → 0 < X0.r ∧ 0 < X0.c ∧ s.nFeatures = X0.c ∧
    s.dataMin = (List.range X0.c).map (fun j => (colMinMax X0 j).1) ∧
    s.scale = (List.range X0.c).map
      (fun j => rangeScale abs eps (colMinMax X0 j).1 (colMinMax X0 j).2)

theorem mm_fit_inv (abs : α → α) (eps lo hi : α) (s : MinMax α) (last : Option (Mat α))
    (h : MMInv abs eps lo hi s last) (X : Mat α) :
    MMInv abs eps lo hi (s.fit abs eps X).1 (if nonEmpty X then some X else last) := by
  unfold MinMax.fit
  by_cases hX : X.r = 0 ∨ X.c = 0
  · rw [if_pos hX, if_neg (by simp [nonEmpty]; omega)]; exact h
  · rw [if_neg hX, if_pos (by simp [nonEmpty]; omega)]
    refine ⟨h.hl, h.hh, rfl, ?_⟩
    rintro X0 e
    cases e
    refine ⟨by omega, by omega, rfl, ?_, ?_⟩
    · simp only [List.map_map]; rfl
    · simp only [List.map_map]; rfl

theorem mm_run_inv (abs : α → α) (eps lo hi : α) (hist : List (Call (Mat α)))
    (s : MinMax α) (last : Option (Mat α)) (h : MMInv abs eps lo hi s last) :
    MMInv abs eps lo hi (runMinMax abs eps hist s) (lastFit nonEmpty hist last) := by
  induction hist generalizing s last with
  | nil => exact h
  | cons c hist ih =>
    cases c with
    | fit X => exact ih _ _ (mm_fit_inv abs eps lo hi s last h X)
    | fitTransform X => exact ih _ _ (mm_fit_inv abs eps lo hi s last h X)
    | transform X => exact ih _ _ h
    | inverse X => exact ih _ _ h
    | reset => exact ih _ _ ⟨h.hl, h.hh, rfl, by simp⟩

theorem mm_new_inv (abs : α → α) (eps lo hi : α) :
    MMInv abs eps lo hi (MinMax.new lo hi) none := ⟨rfl, rfl, rfl, by simp⟩

end MM

section MMOrder
variable [LinearOrder α]

theorem minMaxFold_spec (f : Nat → α) (n : Nat) (a : α) :
    let s := (List.range n).foldl (fun s i =>
      (if f i < s.1 then f i else s.1, if s.2 < f i then f i else s.2)) (a, a)
    (s.1 ≤ a ∧ a ≤ s.2) ∧ (∀ i < n, s.1 ≤ f i ∧ f i ≤ s.2) ∧
      (s.1 = a ∨ ∃ i < n, s.1 = f i) ∧ (s.2 = a ∨ ∃ i < n, s.2 = f i) := by
  induction n with
  | zero => simp
  | succ n ih =>
    simp only [List.range_succ, List.foldl_append, List.foldl_cons, List.foldl_nil] at ih ⊢
    generalize (List.range n).foldl (fun s i =>
      (if f i < s.1 then f i else s.1, if s.2 < f i then f i else s.2)) (a, a) = s at *
    obtain ⟨⟨h1, h2⟩, h3, h4, h5⟩ := ih
    have m1 : (if f n < s.1 then f n else s.1) = min s.1 (f n) := by
      split_ifs with h
      · exact (min_eq_right h.le).symm
      · exact (min_eq_left (not_lt.1 h)).symm
    have m2 : (if s.2 < f n then f n else s.2) = max s.2 (f n) := by
      split_ifs with h
      · exact (max_eq_right h.le).symm
      · exact (max_eq_left (not_lt.1 h)).symm
    simp only [m1, m2]
    refine ⟨⟨(min_le_left _ _).trans h1, h2.trans (le_max_left _ _)⟩, ?_, ?_, ?_⟩
    · intro i hi
      rcases Nat.lt_succ_iff_lt_or_eq.1 hi with hi | rfl
      · exact ⟨(min_le_left _ _).trans (h3 i hi).1, (h3 i hi).2.trans (le_max_left _ _)⟩
      · exact ⟨min_le_right _ _, le_max_right _ _⟩
    · rcases le_total s.1 (f n) with h | h
      · rw [min_eq_left h]
        rcases h4 with h4 | ⟨i, hi, h4⟩
        · exact Or.inl h4
        · exact Or.inr ⟨i, by omega, h4⟩
      · rw [min_eq_right h]; exact Or.inr ⟨n, by omega, rfl⟩
    · rcases le_total (f n) s.2 with h | h
      · rw [max_eq_left h]
        rcases h5 with h5 | ⟨i, hi, h5⟩
        · exact Or.inl h5
        · exact Or.inr ⟨i, by omega, h5⟩
      · rw [max_eq_right h]; exact Or.inr ⟨n, by omega, rfl⟩

theorem colMinMax_spec (X : Mat α) (j : Nat) (hr : 0 < X.r) :
    (∀ i < X.r, (colMinMax X j).1 ≤ X.at' i j ∧ X.at' i j ≤ (colMinMax X j).2) ∧
    (∃ i < X.r, X.at' i j = (colMinMax X j).1) ∧ (∃ i < X.r, X.at' i j = (colMinMax X j).2) := by
  have h := minMaxFold_spec (fun i => X.at' (i + 1) j) (X.r - 1) (X.at' 0 j)
  have e : (List.range (X.r - 1)).foldl (fun s i =>
      (if X.at' (i + 1) j < s.1 then X.at' (i + 1) j else s.1,
        if s.2 < X.at' (i + 1) j then X.at' (i + 1) j else s.2)) (X.at' 0 j, X.at' 0 j)
      = colMinMax X j := rfl
  simp only [e] at h
  obtain ⟨⟨h1, h2⟩, h3, h4, h5⟩ := h
  refine ⟨?_, ?_, ?_⟩
  · intro i hi
    cases i with
    | zero => exact ⟨h1, h2⟩
    | succ i => exact h3 i (by omega)
  · rcases h4 with h | ⟨i, hi, h⟩
    · exact ⟨0, hr, h.symm⟩
    · exact ⟨i + 1, by omega, h.symm⟩
  · rcases h5 with h | ⟨i, hi, h⟩
    · exact ⟨0, hr, h.symm⟩
    · exact ⟨i + 1, by omega, h.symm⟩

end MMOrder

/-! ### exact arithmetic -/

section K
variable [Field K] [LinearOrder K] [IsStrictOrderedRing K]

theorem colMean_eq (X : Mat K) (j : Nat) : colMean X j = meanOf X j := by
  rw [colMean, sumTo_eq]; rfl

theorem colScale_ne_zero (sqrt : K → K) (eps : K) (he : 0 < eps) (X : Mat K) (j : Nat) (m : K) :
    colScale sqrt abs eps X j m ≠ 0 := by
  unfold colScale
  dsimp only
  split_ifs with h
  · exact one_ne_zero
  · intro h0
    rw [h0, abs_zero] at h
    exact h he

theorem rangeScale_ne_zero (eps : K) (he : 0 < eps) (a b : K) : rangeScale abs eps a b ≠ 0 := by
  unfold rangeScale
  split_ifs with h
  · exact one_ne_zero
  · intro h0
    rw [h0, abs_zero] at h
    exact h he

end K

/-! ### OneHotEncoder -/

section Enc
variable [DecidableEq κ]

theorem buildIndex_aux (cats : List κ) (n : Nat) (m : κ → Option Nat) (hn : cats.Nodup) (x : κ) :
    ((cats.zipIdx n).foldl (fun m x => Function.update m x.1 (some x.2)) m : κ → Option Nat) x
      = if x ∈ cats then some (n + cats.idxOf x) else m x := by
  induction cats generalizing n m with
  | nil => simp
  | cons c cats ih =>
    rw [List.nodup_cons] at hn
    rw [List.zipIdx_cons, List.foldl_cons, ih _ _ hn.2]
    by_cases hx : x ∈ cats
    · have hne : x ≠ c := by rintro rfl; exact hn.1 hx
      rw [if_pos hx, if_pos (by simp [hx]), List.idxOf_cons_ne _ (Ne.symm hne)]
      congr 1; omega
    · rw [if_neg hx]
      by_cases hc : x = c
      · subst hc; simp
      · rw [if_neg (by simp [hx, hc])]; simp [hc]

theorem buildIndex_eq (cats : List κ) (hn : cats.Nodup) (x : κ) :
    buildIndex cats x = if x ∈ cats then some (cats.idxOf x) else none := by
  unfold buildIndex
  rw [buildIndex_aux cats 0 _ hn x]
  simp

variable [One α] [Zero α]

/-- the block written for one feature -/
theorem block_eq (cats : List κ) (hn : cats.Nodup) (x : κ) (hx : x ∈ cats) :
    (List.range cats.length).map (fun k => if k = cats.idxOf x then (1 : α) else 0)
      = cats.map (fun c => if c = x then (1 : α) else 0) := by
  apply List.ext_getElem
  · simp
  · intro k h1 h2
    simp only [List.getElem_map, List.getElem_range]
    have hk : k < cats.length := by simpa using h2
    congr 1
    rw [eq_iff_iff]
    constructor
    · rintro rfl; exact List.getElem_idxOf _
    · intro e
      rw [← e]
      exact (hn.idxOf_getElem k hk).symm

theorem encodeRow_spec (nOut : Nat) (cats : List (List κ)) (hn : ∀ c ∈ cats, c.Nodup) :
    ∀ (row : List κ) (off : Nat) (acc : Nat → α), cats.length ≤ row.length →
      off + (cats.map List.length).sum ≤ nOut → (∀ k, off ≤ k → acc k = 0) →
      ∃ r, encodeRow nOut (cats.zip (cats.map buildIndex)) row off acc = some r ∧
        (∀ k < off, r k = acc k) ∧
        (List.range (cats.map List.length).sum).map (fun k => r (off + k)) = oneHot cats row := by
  induction cats with
  | nil =>
    intro row off acc _ _ _
    exact ⟨acc, by simp [encodeRow], fun _ _ => rfl, by simp [oneHot]⟩
  | cons cs cats ih =>
    intro row off acc hl hle hz
    cases row with
    | nil => simp at hl
    | cons x row =>
      have hcs : cs.Nodup := hn cs (by simp)
      simp only [List.map_cons, List.sum_cons, List.zip_cons_cons] at hle ⊢
      rw [encodeRow, buildIndex_eq cs hcs]
      have ih' := ih (fun c hc => hn c (by simp [hc])) row (off + cs.length)
      by_cases hx : x ∈ cs
      · have hidx : cs.idxOf x < cs.length := List.idxOf_lt_length_of_mem hx
        simp only [if_pos hx]
        rw [if_pos (by omega)]
        obtain ⟨r, hr, hr1, hr2⟩ := ih' (Function.update acc (off + cs.idxOf x) 1)
          (by simpa using hl) (by omega)
          (by
            intro k hk
            rw [Function.update_of_ne (by omega)]
            exact hz k (by omega))
        refine ⟨r, hr, ?_, ?_⟩
        · intro k hk
          rw [hr1 k (by omega), Function.update_of_ne (by omega)]
        · rw [List.range_add, List.map_append, List.map_map]
          unfold oneHot
          rw [List.zipWith_cons_cons, List.flatten_cons]
          congr 1
          · rw [← block_eq cs hcs x hx]
            apply List.map_congr_left
            intro k hk
            have hk : k < cs.length := List.mem_range.1 hk
            rw [hr1 _ (by omega)]
            by_cases e : k = cs.idxOf x
            · subst e; simp
            · rw [Function.update_of_ne (by omega), hz _ (by omega), if_neg e]
          · unfold oneHot at hr2
            rw [← hr2]
            apply List.map_congr_left
            intro k _
            simp only [Function.comp]
            rw [Nat.add_assoc]
      · simp only [if_neg hx]
        obtain ⟨r, hr, hr1, hr2⟩ := ih' acc (by simpa using hl) (by omega)
          (fun k hk => hz k (by omega))
        refine ⟨r, hr, fun k hk => hr1 k (by omega), ?_⟩
        rw [List.range_add, List.map_append, List.map_map]
        unfold oneHot
        rw [List.zipWith_cons_cons, List.flatten_cons]
        congr 1
        · apply List.ext_getElem
          · simp
          · intro k h1 h2
            have hk : k < cs.length := by simpa using h2
            simp only [List.getElem_map, List.getElem_range]
            rw [hr1 _ (by omega), hz _ (by omega), if_neg]
            intro e
            exact hx (e ▸ List.getElem_mem hk)
        · unfold oneHot at hr2
          rw [← hr2]
          apply List.map_congr_left
          intro k _
          simp only [Function.comp]
          rw [Nat.add_assoc]

theorem encodeRows_spec (cats : List (List κ)) (hn : ∀ c ∈ cats, c.Nodup) (rows : List (List κ))
    (hl : ∀ row ∈ rows, cats.length ≤ row.length) :
    ∃ rs : List (Nat → α), encodeRows (cats.map List.length).sum (cats.zip (cats.map buildIndex)) rows
        = some rs ∧ rs.length = rows.length ∧
      ∀ i (hi : i < rows.length), (List.range (cats.map List.length).sum).map
        (fun k => (rs.getD i (fun _ => 0)) k) = oneHot cats rows[i] := by
  induction rows with
  | nil => exact ⟨[], rfl, rfl, by simp⟩
  | cons row rows ih =>
    obtain ⟨r, hr, -, hr2⟩ := encodeRow_spec (α := α) (cats.map List.length).sum cats hn row 0
      (fun _ => 0) (hl row (by simp)) (by omega) (fun _ _ => rfl)
    obtain ⟨rs, h1, h2, h3⟩ := ih (fun x hx => hl x (by simp [hx]))
    refine ⟨r :: rs, ?_, by simp [h2], ?_⟩
    · rw [encodeRows, hr, h1]; rfl
    · intro i hi
      cases i with
      | zero => simpa using hr2
      | succ i =>
        have := h3 i (by simpa using hi)
        simpa using this

/-- a short row makes the whole transform panic -/
theorem encodeRow_short (nOut : Nat) (cats : List (List κ)) (m : List (κ → Option Nat))
    (hm : m.length = cats.length) :
    ∀ (row : List κ) (off : Nat) (acc : Nat → α), row.length < cats.length →
      encodeRow nOut (cats.zip m) row off acc = none := by
  induction cats generalizing m with
  | nil => intro row off acc h; simp at h
  | cons cs cats ih =>
    intro row off acc h
    cases m with
    | nil => simp at hm
    | cons f m =>
      cases row with
      | nil => rfl
      | cons x row =>
        simp only [List.zip_cons_cons]
        rw [encodeRow]
        have := fun off acc => ih m (by simpa using hm) row off acc (by simpa using h)
        split
        · split
          · exact this _ _
          · rfl
        · exact this _ _

theorem encodeRows_short (nOut : Nat) (cats : List (List κ)) (m : List (κ → Option Nat))
    (hm : m.length = cats.length) (rows : List (List κ)) (row : List κ) (hr : row ∈ rows)
    (hs : row.length < cats.length) :
    encodeRows (α := α) nOut (cats.zip m) rows = none := by
  induction rows with
  | nil => simp at hr
  | cons r0 rows ih =>
    rw [encodeRows]
    rcases List.mem_cons.1 hr with rfl | hr
    · rw [encodeRow_short nOut cats m hm _ _ _ hs]
    · rw [ih hr]
      split <;> rfl

end Enc

section Cats
variable [LinearOrder κ]

theorem columnCats_spec (srt iter : List κ → List κ) (hs : SortsAsc id srt) (hi : MapKeys iter)
    (data : List (List κ)) (j : Nat) : IsCategories data j (columnCats srt iter data j) := by
  unfold columnCats
  obtain ⟨hp, hsort⟩ := hs (iter (data.filterMap (fun row => row[j]?)))
  obtain ⟨hnd, hmem⟩ := hi (data.filterMap (fun row => row[j]?))
  constructor
  · have hnd' := hp.nodup_iff.2 hnd
    refine (hsort.and hnd').imp ?_
    rintro a b ⟨h1, h2⟩
    exact lt_of_le_of_ne (not_lt.1 h1) h2
  · intro x
    rw [hp.mem_iff, hmem, List.mem_filterMap]

theorem isCategories_unique {data data' : List (List κ)} {j : Nat} {c c' : List κ}
    (h : IsCategories data j c) (h' : IsCategories data' j c')
    (hd : ∀ x, (∃ row ∈ data, row[j]? = some x) ↔ ∃ row ∈ data', row[j]? = some x) : c = c' := by
  have nd : c.Nodup := h.1.imp (fun h => h.ne)
  have nd' : c'.Nodup := h'.1.imp (fun h => h.ne)
  have hp : c.Perm c' := (List.perm_ext_iff_of_nodup nd nd').2 (fun x => by rw [h.2, h'.2, hd])
  exact List.Perm.eq_of_pairwise (fun a b _ _ h1 h2 => absurd h1 h2.asymm) h.1 h'.1 hp

theorem rectangular_iff (data : List (List κ)) :
    rectangular data = true ↔ data ≠ [] ∧ 0 < width data ∧ ∀ row ∈ data, row.length = width data := by
  cases data with
  | nil => simp [rectangular]
  | cons r0 data =>
    simp [rectangular, width, Nat.pos_iff_ne_zero]

/-- what `Fit` does, by cases -/
theorem enc_fit_cases (srt iter : List κ → List κ) (e : Encoder κ) (data : List (List κ)) :
    (rectangular data = true ∧ e.fit srt iter data =
      ({ fitted := true, nFeatures := width data,
         categories := (List.range (width data)).map (columnCats srt iter data),
         index := ((List.range (width data)).map (columnCats srt iter data)).map buildIndex,
         nOutputs := (((List.range (width data)).map (columnCats srt iter data)).map List.length).sum },
        .ok ())) ∨
    (rectangular data = false ∧ ∃ er, e.fit srt iter data = (e, .err er)) := by
  cases data with
  | nil => right; exact ⟨rfl, _, rfl⟩
  | cons r0 rest =>
    unfold Encoder.fit
    by_cases h0 : r0.length = 0
    · right
      refine ⟨by simp [rectangular, h0], .model, ?_⟩
      simp only [if_pos h0]
    · simp only [if_neg h0]
      cases hf : (r0 :: rest).zipIdx.find? (fun x => decide (x.1.length ≠ r0.length)) with
      | some x =>
        right
        refine ⟨?_, _, rfl⟩
        have hx := List.mem_of_find?_eq_some hf
        have hp := List.find?_some hf
        rw [Bool.eq_false_iff]
        intro hr
        rw [rectangular_iff] at hr
        have hx1 : x.1 ∈ r0 :: rest := by
          have := List.mem_zipIdx' hx
          rw [this.2]; exact List.getElem_mem _
        have := hr.2.2 x.1 hx1
        simp [width] at this hp
        exact hp this
      | none =>
        left
        refine ⟨?_, rfl⟩
        rw [rectangular_iff]
        refine ⟨by simp, by simp [width]; omega, ?_⟩
        intro row hrow
        rw [List.find?_eq_none] at hf
        obtain ⟨i, hi, rfl⟩ := List.mem_iff_getElem.1 hrow
        have := hf ((r0 :: rest)[i], i) (by
          rw [List.mem_zipIdx_iff_getElem?]; simp [hi])
        simpa [width] using this

/-- the invariant of an encoder: it holds the categories of the last data it was fitted on -/
structure EncInv (e : Encoder κ) (last : Option (List (List κ))) : Prop where
  hf : e.fitted = last.isSome
  hx : ∀ d, last = some d → rectangular d = true ∧ e.nFeatures = width d ∧
    e.categories.length = width d ∧
    (∀ j (hj : j < e.categories.length), IsCategories d j e.categories[j]) ∧
    e.index = e.categories.map buildIndex ∧ e.nOutputs = (e.categories.map List.length).sum

theorem enc_fit_inv (srt iter : List κ → List κ) (hs : SortsAsc id srt) (hi : MapKeys iter)
    (e : Encoder κ) (last : Option (List (List κ))) (h : EncInv e last) (data : List (List κ)) :
    EncInv (e.fit srt iter data).1 (if rectangular data then some data else last) := by
  rcases enc_fit_cases srt iter e data with ⟨hr, heq⟩ | ⟨hr, er, heq⟩
  · rw [heq, if_pos hr]
    refine ⟨rfl, ?_⟩
    rintro d e1
    cases e1
    refine ⟨hr, rfl, by simp, ?_, rfl, rfl⟩
    intro j hj
    simp only [List.getElem_map, List.getElem_range]
    exact columnCats_spec srt iter hs hi data j
  · rw [heq, if_neg (by simp [hr])]; exact h

theorem enc_run_inv (srt iter : List κ → List κ) (hs : SortsAsc id srt) (hi : MapKeys iter)
    (hist : List (Call (List (List κ)))) (e : Encoder κ) (last : Option (List (List κ)))
    (h : EncInv e last) :
    EncInv (runEnc srt iter hist e) (lastFit rectangular hist last) := by
  induction hist generalizing e last with
  | nil => exact h
  | cons c hist ih =>
    cases c with
    | fit X => exact ih _ _ (enc_fit_inv srt iter hs hi e last h X)
    | fitTransform X => exact ih _ _ (enc_fit_inv srt iter hs hi e last h X)
    | transform X => exact ih _ _ h
    | inverse X => exact ih _ _ h
    | reset => exact ih _ _ ⟨rfl, by simp⟩

theorem enc_new_inv : EncInv (Encoder.new : Encoder κ) none := ⟨rfl, by simp⟩

end Cats

end Scigo.Preprocessing
