import Verif.Preprocessing.Lemmas
import Mathlib.Algebra.BigOperators.Field

/-!
# Properties of the scalers and the one-hot encoder (C18–C23)

Kind: the call protocol and the encoder are law-free (any carrier, any ordered category
type); C18–C20 are exact arithmetic over an ordered field (ℝ where the square root matters).
`eps` is the literal `1e-8`.
-/

set_option linter.unusedSectionVars false

namespace Scigo.Preprocessing

variable {α K κ : Type _}

/-! ## C21: fit/transform protocol -/

section Protocol
variable [Add α] [Sub α] [Mul α] [Div α] [Zero α] [One α] [NatCast α] [LT α] [DecidableLT α]

/-- **C21** (law-free). Whatever calls were made before, `Transform` answers according to the
last successful fit since the last reset: not-fitted error without one, dimension error
exactly on a different column count, otherwise (given at least one row) a matrix of shape
(rows, fitted columns) with the affine map of that fit. -/
theorem std_transform_protocol (sqrt abs : α → α) (eps : α) (wm ws : Bool)
    (hist : List (Call (Mat α))) (X : Mat α) :
    let s := runStd sqrt abs eps hist (StdScaler.new wm ws)
    (lastFit nonEmpty hist none = none → s.transform X = .err .notFitted) ∧
    ∀ X0, lastFit nonEmpty hist none = some X0 →
      (X.c ≠ X0.c → s.transform X = .err (.dimension X0.c X.c 1)) ∧
      (X.c = X0.c → X.r = 0 → ∃ m, s.transform X = .err (.panicError "StandardScaler.Transform" m)) ∧
      (X.c = X0.c → 0 < X.r → ∃ M, s.transform X = .ok M ∧ M.r = X.r ∧ M.c = X0.c ∧
        ∀ i < X.r, ∀ j < X0.c, M.at' i j
          = (X.at' i j - (if wm then colMean X0 j else 0))
            / (if ws then colScale sqrt abs eps X0 j (if wm then colMean X0 j else 0) else 1)) := by
  intro s
  have inv := std_run_inv sqrt abs eps wm ws hist _ _ (std_new_inv sqrt abs eps wm ws)
  constructor
  · intro h
    have := inv.hf
    rw [h] at this
    simp [s, StdScaler.transform, this]
  · intro X0 h
    have hfit : s.fitted = true := by rw [inv.hf, h]; rfl
    obtain ⟨h1, h2, h3, h4, h5⟩ := inv.hx X0 h
    have h3 : s.nFeatures = X0.c := h3
    have h4 : s.mean = fitMean wm X0 := h4
    have h5 : s.scale = fitScale sqrt abs eps ws X0 (fitMean wm X0) := h5
    unfold StdScaler.transform
    rw [if_neg (by simp [hfit]), h3]
    refine ⟨fun hc => by rw [if_pos hc]; rfl, ?_, ?_⟩
    · intro hc hr
      rw [if_neg (by simp [hc]), h4, h5, if_neg (by simp [hc]), newDense, if_pos (Or.inl hr)]
      exact ⟨_, rfl⟩
    · intro hc hr
      rw [if_neg (by simp [hc]), h4, h5, if_neg (by simp [hc]), newDense, if_neg (by omega)]
      refine ⟨_, rfl, rfl, hc, ?_⟩
      intro i _ j hj
      dsimp only
      rw [fitMean_getD wm X0 j hj, fitScale_getD _ _ _ _ _ _ j hj, fitMean_getD wm X0 j hj]

/-- **C21** (law-free). The same for `InverseTransform`. -/
theorem std_inverse_protocol (sqrt abs : α → α) (eps : α) (wm ws : Bool)
    (hist : List (Call (Mat α))) (X : Mat α) :
    let s := runStd sqrt abs eps hist (StdScaler.new wm ws)
    (lastFit nonEmpty hist none = none → s.inverse X = .err .notFitted) ∧
    ∀ X0, lastFit nonEmpty hist none = some X0 →
      (X.c ≠ X0.c → s.inverse X = .err (.dimension X0.c X.c 1)) ∧
      (X.c = X0.c → X.r = 0 → ∃ m, s.inverse X = .err (.panicError "StandardScaler.InverseTransform" m)) ∧
      (X.c = X0.c → 0 < X.r → ∃ M, s.inverse X = .ok M ∧ M.r = X.r ∧ M.c = X0.c ∧
        ∀ i < X.r, ∀ j < X0.c, M.at' i j
          = X.at' i j
              * (if ws then colScale sqrt abs eps X0 j (if wm then colMean X0 j else 0) else 1)
            + (if wm then colMean X0 j else 0)) := by
  intro s
  have inv := std_run_inv sqrt abs eps wm ws hist _ _ (std_new_inv sqrt abs eps wm ws)
  constructor
  · intro h
    have := inv.hf
    rw [h] at this
    simp [s, StdScaler.inverse, this]
  · intro X0 h
    have hfit : s.fitted = true := by rw [inv.hf, h]; rfl
    obtain ⟨h1, h2, h3, h4, h5⟩ := inv.hx X0 h
    have h3 : s.nFeatures = X0.c := h3
    have h4 : s.mean = fitMean wm X0 := h4
    have h5 : s.scale = fitScale sqrt abs eps ws X0 (fitMean wm X0) := h5
    unfold StdScaler.inverse
    rw [if_neg (by simp [hfit]), h3]
    refine ⟨fun hc => by rw [if_pos hc]; rfl, ?_, ?_⟩
    · intro hc hr
      rw [if_neg (by simp [hc]), h4, h5, if_neg (by simp [hc]), newDense, if_pos (Or.inl hr)]
      exact ⟨_, rfl⟩
    · intro hc hr
      rw [if_neg (by simp [hc]), h4, h5, if_neg (by simp [hc]), newDense, if_neg (by omega)]
      refine ⟨_, rfl, rfl, hc, ?_⟩
      intro i _ j hj
      dsimp only
      rw [fitMean_getD wm X0 j hj, fitScale_getD _ _ _ _ _ _ j hj, fitMean_getD wm X0 j hj]

/-- **C21** (law-free). `FitTransform(X)` is `Fit(X)` followed by `Transform(X)` in result and
effect, and a failing `Fit` (exactly: empty data) changes nothing. Same for both scalers. -/
theorem fitTransform_is_fit_then_transform (sqrt abs : α → α) (eps : α) (s : StdScaler α)
    (m : MinMax α) (X : Mat α) :
    (0 < X.r → 0 < X.c →
      (s.fit sqrt abs eps X).2 = .ok () ∧ (m.fit abs eps X).2 = .ok () ∧
      s.fitTransform sqrt abs eps X
        = ((s.fit sqrt abs eps X).1, (s.fit sqrt abs eps X).1.transform X) ∧
      m.fitTransform abs eps X = ((m.fit abs eps X).1, (m.fit abs eps X).1.transform X)) ∧
    ((X.r = 0 ∨ X.c = 0) →
      s.fit sqrt abs eps X = (s, .err .model) ∧ m.fit abs eps X = (m, .err .model) ∧
      s.fitTransform sqrt abs eps X = (s, .err .model) ∧
      m.fitTransform abs eps X = (m, .err .model)) := by
  constructor
  · intro h1 h2
    have h : ¬ (X.r = 0 ∨ X.c = 0) := by omega
    simp [StdScaler.fitTransform, MinMax.fitTransform, StdScaler.fit, MinMax.fit, h]
  · intro h
    simp [StdScaler.fitTransform, MinMax.fitTransform, StdScaler.fit, MinMax.fit, h]

/-- **C21** (law-free). Protocol of `MinMaxScaler.Transform`. -/
theorem minmax_transform_protocol (abs : α → α) (eps lo hi : α)
    (hist : List (Call (Mat α))) (X : Mat α) :
    let s := runMinMax abs eps hist (MinMax.new lo hi)
    (lastFit nonEmpty hist none = none → s.transform X = .err .notFitted) ∧
    ∀ X0, lastFit nonEmpty hist none = some X0 →
      (X.c ≠ X0.c → s.transform X = .err (.dimension X0.c X.c 1)) ∧
      (X.c = X0.c → X.r = 0 → ∃ m, s.transform X = .err (.panicError "MinMaxScaler.Transform" m)) ∧
      (X.c = X0.c → 0 < X.r → ∃ M, s.transform X = .ok M ∧ M.r = X.r ∧ M.c = X0.c ∧
        ∀ i < X.r, ∀ j < X0.c, M.at' i j
          = (X.at' i j - (colMinMax X0 j).1)
            / rangeScale abs eps (colMinMax X0 j).1 (colMinMax X0 j).2 * (hi - lo) + lo) := by
  intro s
  have inv := mm_run_inv abs eps lo hi hist _ _ (mm_new_inv abs eps lo hi)
  constructor
  · intro h
    have := inv.hf
    rw [h] at this
    simp [s, MinMax.transform, this]
  · intro X0 h
    have hfit : s.fitted = true := by rw [inv.hf, h]; rfl
    obtain ⟨h1, h2, h3, h4, h5⟩ := inv.hx X0 h
    have hlo : s.lo = lo := inv.hl
    have hhi : s.hi = hi := inv.hh
    have h3 : s.nFeatures = X0.c := h3
    have h4 : s.dataMin = (List.range X0.c).map (fun j => (colMinMax X0 j).1) := h4
    have h5 : s.scale = (List.range X0.c).map
      (fun j => rangeScale abs eps (colMinMax X0 j).1 (colMinMax X0 j).2) := h5
    unfold MinMax.transform
    rw [if_neg (by simp [hfit]), h3]
    refine ⟨fun hc => by rw [if_pos hc]; rfl, ?_, ?_⟩
    · intro hc hr
      rw [if_neg (by simp [hc]), h4, h5, if_neg (by simp [hc]), newDense, if_pos (Or.inl hr)]
      exact ⟨_, rfl⟩
    · intro hc hr
      rw [if_neg (by simp [hc]), h4, h5, if_neg (by simp [hc]), newDense, if_neg (by omega)]
      refine ⟨_, rfl, rfl, hc, ?_⟩
      intro i _ j hj
      dsimp only
      rw [getD_map_range _ _ _ _ hj, getD_map_range _ _ _ _ hj, hlo, hhi]

/-- **C21** (law-free). Protocol of `MinMaxScaler.InverseTransform`. -/
theorem minmax_inverse_protocol (abs : α → α) (eps lo hi : α)
    (hist : List (Call (Mat α))) (X : Mat α) :
    let s := runMinMax abs eps hist (MinMax.new lo hi)
    (lastFit nonEmpty hist none = none → s.inverse X = .err .notFitted) ∧
    ∀ X0, lastFit nonEmpty hist none = some X0 →
      (X.c ≠ X0.c → s.inverse X = .err (.dimension X0.c X.c 1)) ∧
      (X.c = X0.c → X.r = 0 → ∃ m, s.inverse X = .err (.panicError "MinMaxScaler.InverseTransform" m)) ∧
      (X.c = X0.c → 0 < X.r → ∃ M, s.inverse X = .ok M ∧ M.r = X.r ∧ M.c = X0.c ∧
        ∀ i < X.r, ∀ j < X0.c, M.at' i j
          = (X.at' i j - lo) / (hi - lo)
              * rangeScale abs eps (colMinMax X0 j).1 (colMinMax X0 j).2 + (colMinMax X0 j).1) := by
  intro s
  have inv := mm_run_inv abs eps lo hi hist _ _ (mm_new_inv abs eps lo hi)
  constructor
  · intro h
    have := inv.hf
    rw [h] at this
    simp [s, MinMax.inverse, this]
  · intro X0 h
    have hfit : s.fitted = true := by rw [inv.hf, h]; rfl
    obtain ⟨h1, h2, h3, h4, h5⟩ := inv.hx X0 h
    have hlo : s.lo = lo := inv.hl
    have hhi : s.hi = hi := inv.hh
    have h3 : s.nFeatures = X0.c := h3
    have h4 : s.dataMin = (List.range X0.c).map (fun j => (colMinMax X0 j).1) := h4
    have h5 : s.scale = (List.range X0.c).map
      (fun j => rangeScale abs eps (colMinMax X0 j).1 (colMinMax X0 j).2) := h5
    unfold MinMax.inverse
    rw [if_neg (by simp [hfit]), h3]
    refine ⟨fun hc => by rw [if_pos hc]; rfl, ?_, ?_⟩
    · intro hc hr
      rw [if_neg (by simp [hc]), h4, h5, if_neg (by simp [hc]), newDense, if_pos (Or.inl hr)]
      exact ⟨_, rfl⟩
    · intro hc hr
      rw [if_neg (by simp [hc]), h4, h5, if_neg (by simp [hc]), newDense, if_neg (by omega)]
      refine ⟨_, rfl, rfl, hc, ?_⟩
      intro i _ j hj
      dsimp only
      rw [getD_map_range _ _ _ _ hj, getD_map_range _ _ _ _ hj, hlo, hhi]

end Protocol

/-- a history with a refit, a failed fit and uses in between -/
example : lastFit nonEmpty
    [.fit (Mat.ofRows [[(1 : ℚ)]] 1 0), .transform (Mat.ofRows [[5]] 1 0), .reset,
      .fitTransform (Mat.ofRows [[1, 2], [3, 4]] 2 0), .fit (Mat.ofRows [] 3 0)] none
    = some (Mat.ofRows [[1, 2], [3, 4]] 2 0) := by
  simp [lastFit, nonEmpty, Mat.ofRows]

/-! ## C19: invertibility -/

section Inv
variable [Field K] [LinearOrder K] [IsStrictOrderedRing K]

/-- **C19**. After any history in which the scaler is fitted, `InverseTransform` undoes
`Transform` and `Transform` undoes `InverseTransform`, for every option combination, also
when training columns were constant. -/
theorem std_roundtrip (sqrt : K → K) (eps : K) (he : 0 < eps) (wm ws : Bool)
    (hist : List (Call (Mat K))) (X0 : Mat K) (hfit : lastFit nonEmpty hist none = some X0)
    (X : Mat K) (hc : X.c = X0.c) (hr : 0 < X.r) :
    let s := runStd sqrt abs eps hist (StdScaler.new wm ws)
    (∃ M M', s.transform X = .ok M ∧ s.inverse M = .ok M' ∧ M'.Eqv X) ∧
    (∃ M M', s.inverse X = .ok M ∧ s.transform M = .ok M' ∧ M'.Eqv X) := by
  intro s
  have hsc : ∀ j, (if ws then colScale sqrt abs eps X0 j (if wm then colMean X0 j else 0) else 1) ≠ 0 := by
    intro j
    split
    · exact colScale_ne_zero sqrt eps he _ _ _
    · exact one_ne_zero
  constructor
  · obtain ⟨M, hM, h1, h2, h3⟩ :=
      ((std_transform_protocol sqrt abs eps wm ws hist X).2 X0 hfit).2.2 hc hr
    obtain ⟨M', hM', g1, g2, g3⟩ :=
      ((std_inverse_protocol sqrt abs eps wm ws hist M).2 X0 hfit).2.2 h2 (by omega)
    refine ⟨M, M', hM, hM', by rw [g1, h1], by rw [g2, hc], ?_⟩
    intro i hi j hj
    rw [g3 i (by omega) j (by omega), h3 i (by omega) j (by omega), div_mul_cancel₀ _ (hsc j)]
    ring
  · obtain ⟨M, hM, h1, h2, h3⟩ :=
      ((std_inverse_protocol sqrt abs eps wm ws hist X).2 X0 hfit).2.2 hc hr
    obtain ⟨M', hM', g1, g2, g3⟩ :=
      ((std_transform_protocol sqrt abs eps wm ws hist M).2 X0 hfit).2.2 h2 (by omega)
    refine ⟨M, M', hM, hM', by rw [g1, h1], by rw [g2, hc], ?_⟩
    intro i hi j hj
    rw [g3 i (by omega) j (by omega), h3 i (by omega) j (by omega), add_sub_cancel_right,
      mul_div_cancel_right₀ _ (hsc j)]

/-- **C19**. The same for `MinMaxScaler` with distinct range ends. -/
theorem minmax_roundtrip (eps : K) (he : 0 < eps) (lo hi : K) (hlh : lo ≠ hi)
    (hist : List (Call (Mat K))) (X0 : Mat K) (hfit : lastFit nonEmpty hist none = some X0)
    (X : Mat K) (hc : X.c = X0.c) (hr : 0 < X.r) :
    let s := runMinMax abs eps hist (MinMax.new lo hi)
    (∃ M M', s.transform X = .ok M ∧ s.inverse M = .ok M' ∧ M'.Eqv X) ∧
    (∃ M M', s.inverse X = .ok M ∧ s.transform M = .ok M' ∧ M'.Eqv X) := by
  intro s
  have hsc : ∀ j, rangeScale abs eps (colMinMax X0 j).1 (colMinMax X0 j).2 ≠ 0 :=
    fun j => rangeScale_ne_zero eps he _ _
  have hd : hi - lo ≠ 0 := sub_ne_zero.2 (Ne.symm hlh)
  constructor
  · obtain ⟨M, hM, h1, h2, h3⟩ :=
      ((minmax_transform_protocol abs eps lo hi hist X).2 X0 hfit).2.2 hc hr
    obtain ⟨M', hM', g1, g2, g3⟩ :=
      ((minmax_inverse_protocol abs eps lo hi hist M).2 X0 hfit).2.2 h2 (by omega)
    refine ⟨M, M', hM, hM', by rw [g1, h1], by rw [g2, hc], ?_⟩
    intro i hi' j hj
    rw [g3 i (by omega) j (by omega), h3 i (by omega) j (by omega), add_sub_cancel_right,
      mul_div_cancel_right₀ _ hd, div_mul_cancel₀ _ (hsc j)]
    ring
  · obtain ⟨M, hM, h1, h2, h3⟩ :=
      ((minmax_inverse_protocol abs eps lo hi hist X).2 X0 hfit).2.2 hc hr
    obtain ⟨M', hM', g1, g2, g3⟩ :=
      ((minmax_transform_protocol abs eps lo hi hist M).2 X0 hfit).2.2 h2 (by omega)
    refine ⟨M, M', hM, hM', by rw [g1, h1], by rw [g2, hc], ?_⟩
    intro i hi' j hj
    rw [g3 i (by omega) j (by omega), h3 i (by omega) j (by omega), add_sub_cancel_right,
      mul_div_cancel_right₀ _ (hsc j), div_mul_cancel₀ _ hd]
    ring

/-- constant training column, new data, both scalers -/
example : ∃ M M', (runMinMax abs (1 / 10 ^ 8) [.fit (Mat.ofRows [[(3 : ℚ)], [3]] 1 0)]
      (MinMax.new 0 1)).transform (Mat.ofRows [[7]] 1 0) = .ok M ∧
    (runMinMax abs (1 / 10 ^ 8) [.fit (Mat.ofRows [[(3 : ℚ)], [3]] 1 0)]
      (MinMax.new 0 1)).inverse M = .ok M' ∧ M'.Eqv (Mat.ofRows [[7]] 1 0) :=
  (minmax_roundtrip (1 / 10 ^ 8 : ℚ) (by norm_num) 0 1 (by norm_num) _
    (Mat.ofRows [[(3 : ℚ)], [3]] 1 0) (by simp [lastFit, nonEmpty, Mat.ofRows])
    (Mat.ofRows [[7]] 1 0) rfl (by decide)).1

/-! ## C20 -/

/-- **C20**. After `Fit(X0)` with range `[lo,hi]`, `lo < hi`: every transformed training value
is in `[lo,hi]`; `lo` is attained in every column, `hi` in every column whose range is at
least `eps = 1e-8`. -/
theorem minmax_range (eps : K) (he : 0 < eps) (he1 : eps ≤ 1) (lo hi : K) (hlh : lo < hi)
    (X0 : Mat K) (hr : 0 < X0.r) (hc : 0 < X0.c) (s : MinMax K) (hlo : s.lo = lo) (hhi : s.hi = hi) :
    ∃ M, (s.fitTransform abs eps X0).2 = .ok M ∧ M.r = X0.r ∧ M.c = X0.c ∧
      ∀ j < X0.c, (∀ i < X0.r, lo ≤ M.at' i j ∧ M.at' i j ≤ hi) ∧
        (∃ i < X0.r, M.at' i j = lo) ∧
        ((∃ i < X0.r, ∃ i' < X0.r, eps ≤ X0.at' i j - X0.at' i' j) → ∃ i < X0.r, M.at' i j = hi) := by
  have hf := (fitTransform_is_fit_then_transform (α := K) id abs eps (StdScaler.new true true) s X0).1
    hr hc
  rw [hf.2.2.2]
  have hne : ¬ (X0.r = 0 ∨ X0.c = 0) := by omega
  have hstate : (s.fit abs eps X0).1 = runMinMax abs eps [.fit X0] (MinMax.new lo hi) := by
    subst hlo hhi
    simp only [runMinMax, MinMax.fit, if_neg hne, MinMax.new]
  have hp := ((minmax_transform_protocol abs eps lo hi [.fit X0] X0).2 X0
    (by simp [lastFit, nonEmpty, hr, hc])).2.2 rfl hr
  rw [← hstate] at hp
  obtain ⟨M, hM, h1, h2, h3⟩ := hp
  refine ⟨M, hM, h1, h2, ?_⟩
  intro j hj
  obtain ⟨hb, ⟨imin, himin, hmin⟩, ⟨imax, himax, hmax⟩⟩ := colMinMax_spec X0 j hr
  have hd : 0 < hi - lo := sub_pos.2 hlh
  have hrange : 0 ≤ (colMinMax X0 j).2 - (colMinMax X0 j).1 := by
    have := hb imin himin; linarith [this.1, this.2]
  have hspos : 0 < rangeScale abs eps (colMinMax X0 j).1 (colMinMax X0 j).2 := by
    refine lt_of_le_of_ne ?_ (Ne.symm (rangeScale_ne_zero eps he _ _))
    unfold rangeScale; split_ifs
    · exact zero_le_one
    · exact hrange
  have hsge : (colMinMax X0 j).2 - (colMinMax X0 j).1
      ≤ rangeScale abs eps (colMinMax X0 j).1 (colMinMax X0 j).2 := by
    unfold rangeScale; split_ifs with h
    · rw [abs_of_nonneg hrange] at h; linarith
    · exact le_refl _
  refine ⟨?_, ⟨imin, himin, ?_⟩, ?_⟩
  · intro i hi'
    rw [h3 i hi' j hj]
    obtain ⟨b1, b2⟩ := hb i hi'
    have q0 : 0 ≤ (X0.at' i j - (colMinMax X0 j).1)
        / rangeScale abs eps (colMinMax X0 j).1 (colMinMax X0 j).2 :=
      div_nonneg (by linarith) hspos.le
    have q1 : (X0.at' i j - (colMinMax X0 j).1)
        / rangeScale abs eps (colMinMax X0 j).1 (colMinMax X0 j).2 ≤ 1 := by
      rw [div_le_one hspos]; linarith
    constructor
    · nlinarith
    · nlinarith
  · rw [h3 imin himin j hj, hmin]; simp
  · rintro ⟨i, hi1, i', hi2, hge⟩
    refine ⟨imax, himax, ?_⟩
    rw [h3 imax himax j hj, hmax]
    have hbig : ¬ |(colMinMax X0 j).2 - (colMinMax X0 j).1| < eps := by
      rw [abs_of_nonneg hrange, not_lt]
      linarith [(hb i hi1).2, (hb i' hi2).1]
    have hs : rangeScale abs eps (colMinMax X0 j).1 (colMinMax X0 j).2
        = (colMinMax X0 j).2 - (colMinMax X0 j).1 := by
      unfold rangeScale; rw [if_neg hbig]
    rw [hs] at hspos ⊢
    rw [div_self hspos.ne']; ring

/-- **C20**. The fitted transformation is increasing in each column. -/
theorem minmax_monotone (eps : K) (he : 0 < eps) (lo hi : K) (hlh : lo < hi)
    (hist : List (Call (Mat K))) (X0 : Mat K) (hfit : lastFit nonEmpty hist none = some X0)
    (X : Mat K) (hc : X.c = X0.c) (hr : 0 < X.r) :
    ∃ M, (runMinMax abs eps hist (MinMax.new lo hi)).transform X = .ok M ∧
      ∀ j < X.c, ∀ i < X.r, ∀ i' < X.r, (X.at' i j < X.at' i' j ↔ M.at' i j < M.at' i' j) := by
  obtain ⟨M, hM, h1, h2, h3⟩ :=
    ((minmax_transform_protocol abs eps lo hi hist X).2 X0 hfit).2.2 hc hr
  obtain ⟨hr0, -⟩ := (mm_run_inv abs eps lo hi hist _ _ (mm_new_inv abs eps lo hi)).hx X0 hfit
  refine ⟨M, hM, ?_⟩
  intro j hj i hi1 i' hi2
  rw [h3 i hi1 j (by omega), h3 i' hi2 j (by omega)]
  have hd : 0 < hi - lo := sub_pos.2 hlh
  obtain ⟨hb, ⟨imin, himin, hmin⟩, -⟩ := colMinMax_spec X0 j hr0
  have hspos : 0 < rangeScale abs eps (colMinMax X0 j).1 (colMinMax X0 j).2 := by
    refine lt_of_le_of_ne ?_ (Ne.symm (rangeScale_ne_zero eps he _ _))
    unfold rangeScale; split_ifs
    · exact zero_le_one
    · have := hb imin himin; linarith [this.1, this.2]
  rw [add_lt_add_iff_right, mul_lt_mul_iff_left₀ hd, div_lt_div_iff_of_pos_right hspos,
    sub_lt_sub_iff_right]

example : ∃ M, ((MinMax.new (0 : ℚ) 1).fitTransform abs (1 / 10 ^ 8)
    (Mat.ofRows [[1, 5], [3, 5]] 2 0)).2 = .ok M ∧ M.at' 0 0 = 0 ∧ M.at' 1 0 = 1 ∧ M.at' 0 1 = 0 := by
  refine ⟨_, rfl, ?_, ?_, ?_⟩ <;> decide +kernel

end Inv

/-! ## C18 -/

/-- **C18**. `FitTransform` with centring and scaling on (from any scaler state, any non-empty
data): every output column has mean 0; its variance is 1 if the input column's standard
deviation is at least `eps`, otherwise the column is only centred. -/
theorem std_standardizes (eps : ℝ) (he : 0 < eps) (X : Mat ℝ) (hr : 0 < X.r) (hc : 0 < X.c)
    (s : StdScaler ℝ) (hm : s.withMean = true) (hs : s.withStd = true) :
    ∃ M, (s.fitTransform Real.sqrt abs eps X).2 = .ok M ∧ M.r = X.r ∧ M.c = X.c ∧
      ∀ j < X.c,
        (∑ i ∈ Finset.range X.r, M.at' i j) / X.r = 0 ∧
        (eps ≤ Real.sqrt ((∑ i ∈ Finset.range X.r, (X.at' i j - meanOf X j) ^ 2) / X.r) →
          (∑ i ∈ Finset.range X.r, M.at' i j ^ 2) / X.r = 1) ∧
        (Real.sqrt ((∑ i ∈ Finset.range X.r, (X.at' i j - meanOf X j) ^ 2) / X.r) < eps →
          ∀ i < X.r, M.at' i j = X.at' i j - meanOf X j) := by
  have hf := (fitTransform_is_fit_then_transform (α := ℝ) Real.sqrt abs eps s (MinMax.new 0 1) X).1
    hr hc
  rw [hf.2.2.1]
  have hne : ¬ (X.r = 0 ∨ X.c = 0) := by omega
  have hstate : (s.fit Real.sqrt abs eps X).1
      = runStd Real.sqrt abs eps [.fit X] (StdScaler.new true true) := by
    simp only [runStd, StdScaler.fit, if_neg hne, StdScaler.new, hm, hs]
  have hp := ((std_transform_protocol Real.sqrt abs eps true true [.fit X] X).2 X
    (by simp [lastFit, nonEmpty, hr, hc])).2.2 rfl hr
  rw [← hstate] at hp
  obtain ⟨M, hM, h1, h2, h3⟩ := hp
  simp only [if_true] at h3
  refine ⟨M, hM, h1, h2, ?_⟩
  intro j hj
  have hrR : (0 : ℝ) < X.r := by exact_mod_cast hr
  set m := meanOf X j with hmdef
  have hcm : colMean X j = m := colMean_eq X j
  have hsumdev : ∑ i ∈ Finset.range X.r, (X.at' i j - m) = 0 := by
    rw [Finset.sum_sub_distrib, Finset.sum_const, Finset.card_range, nsmul_eq_mul, hmdef, meanOf]
    field_simp
    ring
  have hsd : colScale Real.sqrt abs eps X j m
      = if Real.sqrt ((∑ i ∈ Finset.range X.r, (X.at' i j - m) ^ 2) / X.r) < eps then 1
        else Real.sqrt ((∑ i ∈ Finset.range X.r, (X.at' i j - m) ^ 2) / X.r) := by
    unfold colScale
    simp only [sumTo_eq, ← pow_two, abs_of_nonneg (Real.sqrt_nonneg _)]
  have hM' : ∀ i < X.r, M.at' i j = (X.at' i j - m) / colScale Real.sqrt abs eps X j m := by
    intro i hi
    rw [h3 i hi j hj, hcm]
  refine ⟨?_, ?_, ?_⟩
  · rw [Finset.sum_congr rfl (fun i hi => hM' i (Finset.mem_range.1 hi)), ← Finset.sum_div, hsumdev]
    simp
  · intro hge
    rw [if_neg (not_lt.2 hge)] at hsd
    rw [Finset.sum_congr rfl (fun i hi => by rw [hM' i (Finset.mem_range.1 hi)])]
    simp only [div_pow]
    rw [← Finset.sum_div, hsd, Real.sq_sqrt (div_nonneg (Finset.sum_nonneg (fun i _ => sq_nonneg _)) hrR.le)]
    have hpos : 0 < ∑ i ∈ Finset.range X.r, (X.at' i j - m) ^ 2 := by
      have := Real.sqrt_pos.1 (lt_of_lt_of_le he hge)
      rwa [div_pos_iff_of_pos_right hrR] at this
    field_simp
  · intro hlt i hi
    rw [if_pos hlt] at hsd
    rw [hM' i hi, hsd, div_one]

example : ∃ M, ((StdScaler.new true true).fitTransform Real.sqrt abs (1 / 10 ^ 8)
    (Mat.ofRows [[1], [3]] 1 0)).2 = .ok M ∧
    (∑ i ∈ Finset.range 2, M.at' i 0) / ((2 : Nat) : ℝ) = 0 := by
  obtain ⟨M, h, -, -, h4⟩ := std_standardizes (1 / 10 ^ 8) (by norm_num)
    (Mat.ofRows [[(1 : ℝ)], [3]] 1 0) (by decide) (by decide) (StdScaler.new true true) rfl rfl
  exact ⟨M, h, (h4 0 (by decide)).1⟩

/-! ## C22, C23: one-hot encoder -/

section Enc
variable [LinearOrder κ] [One α] [Zero α]

/-- **C21, C22** (law-free). After any history of calls, `Transform` answers according to the
last successful fit `d`: not-fitted error without one; dimension error exactly when the first
row's length differs; an error when there are no rows or some row is too short; otherwise a
matrix whose row `i` is the one-hot code of data row `i` over the sorted distinct training
values of each column. -/
theorem encoder_protocol (srt iter : List κ → List κ) (hs : SortsAsc id srt) (hi : MapKeys iter)
    (hist : List (Call (List (List κ)))) (data : List (List κ)) :
    let e := runEnc srt iter hist Encoder.new
    (lastFit rectangular hist none = none →
      (e.transform data : Outcome (Mat α)) = .err .notFitted) ∧
    ∀ d, lastFit rectangular hist none = some d →
      (data = [] → ∃ m, (e.transform data : Outcome (Mat α))
        = .err (.panicError "OneHotEncoder.Transform" m)) ∧
      (∀ r0 rest, data = r0 :: rest → r0.length ≠ width d →
        (e.transform data : Outcome (Mat α)) = .err (.dimension (width d) r0.length 1)) ∧
      (∀ r0 rest, data = r0 :: rest → r0.length = width d →
        (∃ row ∈ data, row.length < width d) →
        ∃ m, (e.transform data : Outcome (Mat α)) = .err (.panicError "OneHotEncoder.Transform" m)) ∧
      (∀ r0 rest, data = r0 :: rest → r0.length = width d →
        (∀ row ∈ data, width d ≤ row.length) →
        ∃ (cats : List (List κ)) (M : Mat α),
          cats.length = width d ∧ (∀ j (hj : j < cats.length), IsCategories d j cats[j]) ∧
          e.transform data = .ok M ∧ M.r = data.length ∧ M.c = (cats.map List.length).sum ∧
          ∀ i (hi : i < data.length), M.row i = oneHot cats data[i]) := by
  intro e
  have inv := enc_run_inv srt iter hs hi hist _ _ enc_new_inv
  constructor
  · intro h
    have := inv.hf
    rw [h] at this
    simp [e, Encoder.transform, this]
  · intro d h
    have hfit : e.fitted = true := by rw [inv.hf, h]; rfl
    obtain ⟨h1, h2, h3, h4, h5, h6⟩ := inv.hx d h
    change e.nFeatures = _ at h2
    change e.categories.length = _ at h3
    change ∀ j (hj : j < e.categories.length), IsCategories d j e.categories[j] at h4
    change e.index = e.categories.map buildIndex at h5
    change e.nOutputs = (e.categories.map List.length).sum at h6
    have hnd : ∀ c ∈ e.categories, c.Nodup := by
      intro c hc
      obtain ⟨j, hj, rfl⟩ := List.mem_iff_getElem.1 hc
      exact (h4 j hj).1.imp (fun h => h.ne)
    obtain ⟨hd0, hw, hrows⟩ := (rectangular_iff d).1 h1
    have hpos : 0 < e.nOutputs := by
      rw [h6]
      have hj : 0 < e.categories.length := by omega
      have hc := h4 0 hj
      have hmem : e.categories[0] ∈ e.categories := List.getElem_mem hj
      obtain ⟨r0, hr0⟩ := List.exists_mem_of_ne_nil _ hd0
      have h00 : 0 < r0.length := by rw [hrows r0 hr0]; omega
      have hx : r0[0] ∈ e.categories[0] := (hc.2 _).2 ⟨r0, hr0, by simp [h00]⟩
      have hlen : 0 < e.categories[0].length := List.length_pos_of_mem hx
      exact lt_of_lt_of_le hlen (List.le_sum_of_mem (List.mem_map.2 ⟨_, hmem, rfl⟩))
    unfold Encoder.transform
    rw [if_neg (by simp [hfit])]
    refine ⟨?_, ?_, ?_, ?_⟩
    · rintro rfl
      simp only [newDense, true_or, if_true]
      exact ⟨_, rfl⟩
    · rintro r0 rest rfl hne
      simp only [h2, if_pos hne, Outcome.recovered_err]
    · rintro r0 rest rfl heq ⟨row, hrow, hshort⟩
      simp only [h2, heq, ne_eq, not_true_eq_false, if_false, hpos.ne']
      rw [encodeRows_short _ _ _ (by rw [h5]; simp) _ row hrow (by rw [h3]; exact hshort)]
      exact ⟨_, rfl⟩
    · rintro r0 rest rfl heq hall
      refine ⟨e.categories, ?_⟩
      simp only [h2, heq, ne_eq, not_true_eq_false, if_false, hpos.ne']
      obtain ⟨rs, hr1, hr2, hr3⟩ := encodeRows_spec (α := α) e.categories hnd (r0 :: rest)
        (fun row hrow => by rw [h3]; exact hall row hrow)
      rw [h5, h6, hr1]
      simp only [newDense]
      rw [if_neg (by rw [← h6]; simp; omega)]
      refine ⟨_, h3, h4, rfl, rfl, rfl, ?_⟩
      intro i hi
      exact hr3 i hi

/-- **C22** (law-free). The encoding of rows of seen categories is faithful: two such rows
have equal codes iff they are equal. -/
theorem oneHot_injective (cats : List (List κ)) (h01 : (1 : α) ≠ 0) (row row' : List κ)
    (hl : row.length = cats.length) (hl' : row'.length = cats.length)
    (hseen : ∀ j (hj : j < cats.length) (hr : j < row.length), row[j] ∈ cats[j]) :
    (oneHot cats row : List α) = oneHot cats row' ↔ row = row' := by
  constructor
  · intro h
    induction cats generalizing row row' with
    | nil =>
      rw [List.length_nil, List.length_eq_zero_iff] at hl hl'
      rw [hl, hl']
    | cons cs cats ih =>
      cases row with
      | nil => simp at hl
      | cons x row =>
        cases row' with
        | nil => simp at hl'
        | cons y row' =>
          unfold oneHot at h
          rw [List.zipWith_cons_cons, List.zipWith_cons_cons, List.flatten_cons,
            List.flatten_cons] at h
          obtain ⟨h1, h2⟩ := List.append_inj h (by simp)
          have hx : x ∈ cs := by
            have := hseen 0 (by simp) (by simp)
            simpa using this
          have hxy : x = y := by
            have := List.map_inj_left.1 h1 x hx
            simp only [if_true] at this
            by_contra hne
            rw [if_neg hne] at this
            exact h01 this
          have hrest := ih row row' (by simpa using hl) (by simpa using hl')
            (fun j hj hr => by
              have := hseen (j + 1) (by simp; omega) (by simp; omega)
              simpa using this) h2
          rw [hxy, hrest]
  · rintro rfl; rfl

/-- **C22** (law-free). In the code of a row, the block of each feature holds a single `1`, at
the row's category, if that category was seen, and only zeros otherwise. -/
theorem oneHot_block (cats : List (List κ)) (row : List κ) (hl : row.length = cats.length)
    (j p : Nat) (hj : j < cats.length) (hp : p < cats[j].length) :
    (oneHot cats row : List α)[((cats.take j).map List.length).sum + p]?
      = some (if cats[j][p] = row[j] then 1 else 0) := by
  induction cats generalizing row j with
  | nil => simp at hj
  | cons cs cats ih =>
    cases row with
    | nil => simp at hl
    | cons x row =>
      unfold oneHot
      rw [List.zipWith_cons_cons, List.flatten_cons]
      cases j with
      | zero =>
        simp only [List.getElem_cons_zero] at hp ⊢
        simp only [List.take_zero, List.map_nil, List.sum_nil, Nat.zero_add]
        rw [List.getElem?_append_left (by simpa using hp)]
        simp [hp]
      | succ j =>
        simp only [List.getElem_cons_succ] at hp ⊢
        have := ih row (by simpa using hl) j (by simpa using hj) hp
        rw [List.getElem?_append_right (by simp; omega)]
        unfold oneHot at this
        rw [← this]
        congr 1
        simp; omega

/-- **C22** (law-free). Feature names line up with output columns: there are as many names as
output columns, block after block. -/
theorem featureNames_length {ν : Type _} (srt iter : List κ → List κ) (hs : SortsAsc id srt)
    (hi : MapKeys iter) (hist : List (Call (List (List κ)))) (d : List (List κ))
    (h : lastFit rectangular hist none = some d) (nm : Nat → κ → ν) :
    let e := runEnc srt iter hist Encoder.new
    (e.featureNames nm).length = e.nOutputs ∧
    e.featureNames nm = (e.categories.zipIdx.map (fun x => x.1.map (nm x.2))).flatten := by
  intro e
  have inv := enc_run_inv srt iter hs hi hist _ _ enc_new_inv
  have hfit : e.fitted = true := by rw [inv.hf, h]; rfl
  obtain ⟨-, -, -, -, -, h6⟩ := inv.hx d h
  change e.nOutputs = (e.categories.map List.length).sum at h6
  have hname : e.featureNames nm = (e.categories.zipIdx.map (fun x => x.1.map (nm x.2))).flatten := by
    unfold Encoder.featureNames; rw [if_neg (by simp [hfit])]
  refine ⟨?_, hname⟩
  rw [hname, h6, List.length_flatten, List.map_map]
  congr 1
  apply List.ext_getElem
  · simp
  · intro i h1 h2; simp

/-- **C23** (law-free). Two tables with the same set of rows (any order, any repetition)
produce, under any two map iteration orders and sorting algorithms, the identical encoder. -/
theorem encoder_order_independent (srt iter srt' iter' : List κ → List κ)
    (hs : SortsAsc id srt) (hi : MapKeys iter) (hs' : SortsAsc id srt') (hi' : MapKeys iter')
    (e e' : Encoder κ) (data data' : List (List κ)) (hd : ∀ row, row ∈ data ↔ row ∈ data')
    (hok : rectangular data = true) :
    (e.fit srt iter data).2 = .ok () ∧ e.fit srt iter data = e'.fit srt' iter' data' := by
  obtain ⟨hne, hw, hrows⟩ := (rectangular_iff data).1 hok
  have hne' : data' ≠ [] := by
    obtain ⟨r, hr⟩ := List.exists_mem_of_ne_nil _ hne
    exact List.ne_nil_of_mem ((hd r).1 hr)
  have hwid : width data' = width data := by
    cases data' with
    | nil => exact absurd rfl hne'
    | cons r0 rest => exact hrows r0 ((hd r0).2 (by simp))
  have hok' : rectangular data' = true :=
    (rectangular_iff data').2 ⟨hne', by omega, fun row hr => by
      rw [hwid]; exact hrows row ((hd row).2 hr)⟩
  have hcats : (List.range (width data)).map (columnCats srt iter data)
      = (List.range (width data')).map (columnCats srt' iter' data') := by
    rw [hwid]
    apply List.map_congr_left
    intro j _
    exact isCategories_unique (columnCats_spec srt iter hs hi data j)
      (columnCats_spec srt' iter' hs' hi' data' j)
      (fun x => by simp only [hd])
  rcases enc_fit_cases srt iter e data with ⟨-, h1⟩ | ⟨h, -⟩
  · rcases enc_fit_cases srt' iter' e' data' with ⟨-, h2⟩ | ⟨h, -⟩
    · rw [h1, h2, ← hcats, hwid]
      exact ⟨rfl, rfl⟩
    · rw [hok'] at h; cases h
  · rw [hok] at h; cases h

/-- **C22**, for the calls themselves (law-free): after any history, two rows of seen categories get equal rows of `Transform` exactly if they are equal. -/
theorem transform_faithful (srt iter : List κ → List κ) (hs : SortsAsc id srt) (hi : MapKeys iter) (h01 : (1 : α) ≠ 0)
    (hist : List (Call (List (List κ)))) (d data : List (List κ)) (hd : lastFit rectangular hist none = some d) (hne : data ≠ [])
    (hw : ∀ row ∈ data, row.length = width d) (hseen : ∀ row ∈ data, ∀ (j : Nat) (x : κ), row[j]? = some x → ∃ r ∈ d, r[j]? = some x) :
    ∃ M : Mat α, (runEnc srt iter hist Encoder.new).transform data = .ok M ∧ M.r = data.length ∧
      ∀ i k, (hi : i < data.length) → (hk : k < data.length) → (M.row i = M.row k ↔ data[i] = data[k]) := by
  obtain ⟨r0, rest, e⟩ := List.exists_cons_of_ne_nil hne
  obtain ⟨cats, M, hl, hcat, hM, hr, -, hrow⟩ := ((encoder_protocol (α := α) srt iter hs hi hist data).2 d hd).2.2.2 r0 rest e
    (hw r0 (by rw [e]; exact List.mem_cons_self ..)) (fun row h => (hw row h).ge)
  refine ⟨M, hM, hr, fun i k hi hk => ?_⟩
  rw [hrow i hi, hrow k hk]
  refine oneHot_injective cats h01 _ _ ?_ ?_ ?_
  · rw [hl]; exact hw _ (List.getElem_mem hi)
  · rw [hl]; exact hw _ (List.getElem_mem hk)
  · intro j hj hr'
    exact ((hcat j hj).2 _).2 (hseen _ (List.getElem_mem hi) j _ (List.getElem?_eq_getElem hr'))

end Enc

/-- a map iteration order and a sorter meeting the contracts, and a concrete encoding -/
example : MapKeys (List.dedup : List Nat → List Nat) ∧ SortsAsc id (stableAsc (id : Nat → Nat)) :=
  ⟨fun l => ⟨List.nodup_dedup l, fun _ => List.mem_dedup⟩, stableAsc_sorts _⟩

example : ((((Encoder.new : Encoder Nat).fit (stableAsc id) List.dedup [[7, 1], [5, 1], [7, 2]]).1.transform
    [[7, 2], [9, 1]] : Outcome (Mat ℚ)).map (fun M => (M.row 0, M.row 1)))
    = .ok ([0, 1, 0, 1], [0, 0, 1, 0]) := by decide +kernel

end Scigo.Preprocessing
