import Verif.Round.MetricsProps
import Verif.Preprocessing.Props

/-!
# C270, C271: scalers when every operation is rounded
-/

set_option linter.unusedSectionVars false

namespace Scigo.Round

open Scigo.Preprocessing

variable {K : Type _} [Field K] [LinearOrder K] [IsStrictOrderedRing K] {R : Rounding K}

theorem minmax_values (eps : Fl R) (s : MinMax (Fl R)) (X : Mat (Fl R)) (hr : 0 < X.r) (hc : 0 < X.c) :
    ∃ M, (s.fitTransform Fl.abs eps X).2 = .ok M ∧ M.r = X.r ∧ M.c = X.c ∧ ∀ i < X.r, ∀ j < X.c,
      M.at' i j = (X.at' i j - (colMinMax X j).1) / rangeScale Fl.abs eps (colMinMax X j).1 (colMinMax X j).2 * (s.hi - s.lo) + s.lo := by
  have hf := (fitTransform_is_fit_then_transform (α := Fl R) id Fl.abs eps (StdScaler.new true true) s X).1 hr hc
  rw [hf.2.2.2]
  have hne : ¬ (X.r = 0 ∨ X.c = 0) := by omega
  have hstate : (s.fit Fl.abs eps X).1 = runMinMax Fl.abs eps [.fit X] (MinMax.new s.lo s.hi) := by
    simp only [runMinMax, MinMax.fit, if_neg hne, MinMax.new]
  have hp := ((minmax_transform_protocol Fl.abs eps s.lo s.hi [.fit X] X).2 X (by simp [lastFit, nonEmpty, hr, hc])).2.2 rfl hr
  rw [← hstate] at hp
  exact hp

theorem range_nonneg (X : Mat (Fl R)) (j : Nat) (hr : 0 < X.r) : (colMinMax X j).1 ≤ (colMinMax X j).2 := by
  obtain ⟨hb, -⟩ := colMinMax_spec X j hr
  exact le_trans (hb 0 hr).1 (hb 0 hr).2

theorem scale_pos (eps : Fl R) (he : 0 < eps) (a b : Fl R) (h : a ≤ b) : 0 < rangeScale Fl.abs eps a b := by
  unfold rangeScale
  split
  · exact (zero_lt_one : (0 : K) < 1)
  · rename_i hlt
    have h0 : (0 : Fl R) ≤ b - a := Fl.sub_nonneg' h
    refine lt_of_lt_of_le he ?_
    have : Fl.abs (b - a) = b - a := Fl.ext ((Fl.val_abs _).trans (abs_of_nonneg h0))
    rw [this] at hlt
    exact not_lt.1 hlt

theorem range_le_scale (eps : Fl R) (he1 : eps ≤ 1) (a b : Fl R) (h : a ≤ b) : b - a ≤ rangeScale Fl.abs eps a b := by
  unfold rangeScale
  split
  · rename_i hlt
    have h0 : (0 : Fl R) ≤ b - a := Fl.sub_nonneg' h
    have : Fl.abs (b - a) = b - a := Fl.ext ((Fl.val_abs _).trans (abs_of_nonneg h0))
    rw [this] at hlt
    exact hlt.le.trans he1
  · exact le_refl _

/-! ## C270 -/

/-- **C270** (partial): with every operation rounded, `FitTransform` of a `MinMaxScaler` maps the training data into the range from the
lower limit to the rounded sum of the lower limit and the width; the lower limit is attained in every column, and larger values are not
mapped to smaller ones. If the width of the range is representable, as for `[0, 1]`, no value is above the upper limit. Missing: ranges
whose width is not representable (`minmax_exceeds`). -/
theorem rounded_minmax_partial (eps : Fl R) (he : 0 < eps) (he1 : eps ≤ 1) (s : MinMax (Fl R)) (hlh : s.lo ≤ s.hi) (X : Mat (Fl R)) (hr : 0 < X.r)
    (hc : 0 < X.c) :
    ∃ M, (s.fitTransform Fl.abs eps X).2 = .ok M ∧ M.r = X.r ∧ M.c = X.c ∧ ∀ j < X.c,
      (∀ i < X.r, s.lo ≤ M.at' i j ∧ M.at' i j ≤ (s.hi - s.lo) + s.lo) ∧
      (∃ i < X.r, M.at' i j = s.lo) ∧
      (∀ i < X.r, ∀ i' < X.r, X.at' i j ≤ X.at' i' j → M.at' i j ≤ M.at' i' j) ∧
      (R.rnd (s.hi.val - s.lo.val) = s.hi.val - s.lo.val → ∀ i < X.r, M.at' i j ≤ s.hi) := by
  obtain ⟨M, hM, h1, h2, h3⟩ := minmax_values eps s X hr hc
  refine ⟨M, hM, h1, h2, fun j hj => ?_⟩
  obtain ⟨hb, ⟨imin, himin, hmin⟩, -⟩ := colMinMax_spec X j hr
  have hmm := range_nonneg X j hr
  have hsp := scale_pos eps he _ _ hmm
  have hd : (0 : Fl R) ≤ s.hi - s.lo := Fl.sub_nonneg' hlh
  have hnum : ∀ i < X.r, (0 : Fl R) ≤ X.at' i j - (colMinMax X j).1 := fun i hi => Fl.sub_nonneg' (hb i hi).1
  have hq0 : ∀ i < X.r, (0 : Fl R) ≤ (X.at' i j - (colMinMax X j).1) / rangeScale Fl.abs eps (colMinMax X j).1 (colMinMax X j).2 :=
    fun i hi => Fl.div_nonneg' (hnum i hi) hsp.le
  have hq1 : ∀ i < X.r, (X.at' i j - (colMinMax X j).1) / rangeScale Fl.abs eps (colMinMax X j).1 (colMinMax X j).2 ≤ 1 := by
    intro i hi
    exact Fl.div_le_one' (hnum i hi) (le_trans (Fl.sub_le (hb i hi).2 (le_refl _)) (range_le_scale eps he1 _ _ hmm))
  have hup : ∀ i < X.r, M.at' i j ≤ (s.hi - s.lo) + s.lo := by
    intro i hi
    rw [h3 i hi j hj]
    refine Fl.add_le ?_ (le_refl _)
    have := Fl.mul_le (hq1 i hi) (le_refl (s.hi - s.lo)) hd (zero_le_one : (0 : K) ≤ 1)
    rwa [Fl.one_mul'] at this
  refine ⟨fun i hi => ⟨?_, hup i hi⟩, ⟨imin, himin, ?_⟩, ?_, ?_⟩
  · rw [h3 i hi j hj]
    exact Fl.le_add_left' (Fl.mul_nonneg' (hq0 i hi) hd)
  · rw [h3 imin himin j hj, hmin, Fl.sub_self', Fl.zero_div', Fl.zero_mul', Fl.zero_add']
  · intro i hi i' hi' hle
    rw [h3 i hi j hj, h3 i' hi' j hj]
    refine Fl.add_le (Fl.mul_le (Fl.div_le (Fl.sub_le hle (le_refl _)) hsp.le) (le_refl _) hd (hq0 i' hi')) (le_refl _)
  · intro hex i hi
    refine (hup i hi).trans (le_of_eq (Fl.ext ?_))
    rw [Fl.val_add, Fl.val_sub, hex, sub_add_cancel, s.hi.rep]

/-- two rows, one column (the data of a call of preprocessing/scaler.go:518-524) -/
def exCol : Mat (Fl Binary64.rounding) := Mat.ofRows [[Binary64.lit 1], [Binary64.lit 3]] 1 0

/-- **C270** is false: in binary64 and with the range from -0.2 to 0.4 the largest training value is mapped above 0.4 -/
theorem minmax_exceeds : ∃ M, ((MinMax.new (Binary64.lit (-2 / 10)) (Binary64.lit (4 / 10))).fitTransform Fl.abs (Binary64.lit (1 / 10 ^ 8)) exCol).2 = .ok M ∧
    Binary64.lit (4 / 10) < M.at' 1 0 := by
  refine ⟨_, rfl, ?_⟩
  decide +kernel

/-- the range `[0, 1]`: the width is representable -/
example : ∃ M, ((MinMax.new (Binary64.lit 0) (Binary64.lit 1)).fitTransform Fl.abs (Binary64.lit (1 / 10 ^ 8)) exCol).2 = .ok M ∧ ∀ i < 2, M.at' i 0 ≤ Binary64.lit 1 := by
  obtain ⟨M, h, -, -, h3⟩ := rounded_minmax_partial (Binary64.lit (1 / 10 ^ 8)) (by decide +kernel) (by decide +kernel)
    (MinMax.new (Binary64.lit 0) (Binary64.lit 1)) (by decide +kernel) exCol (by decide) (by decide)
  exact ⟨M, h, (h3 0 (by decide)).2.2.2 (by decide +kernel)⟩

/-! ## C271 -/

theorem sumTo_const (n : Nat) (f : Nat → Fl R) (c : Fl R) (hf : ∀ i < n, f i = c) (hrep : ∀ k ≤ n, R.rnd (k * c.val) = k * c.val) :
    (sumTo n f).val = n * c.val := by
  induction n with
  | zero => rw [sumTo_zero, Fl.val_zero, Nat.cast_zero, zero_mul]
  | succ n ih =>
    rw [sumTo_succ, Fl.val_add, ih (fun i hi => hf i (by omega)) (fun k hk => hrep k (by omega)), hf n (by omega)]
    have := hrep (n + 1) (le_refl _)
    push_cast at this ⊢
    rw [add_mul, one_mul] at this ⊢
    exact this

theorem sumTo_zeros (n : Nat) (f : Nat → Fl R) (h : ∀ i < n, f i = 0) : sumTo n f = 0 := by
  induction n with
  | zero => rfl
  | succ n ih => rw [sumTo_succ, ih (fun i hi => h i (by omega)), h n (by omega), Fl.add_zero']

theorem std_values (sqrt : Fl R → Fl R) (eps : Fl R) (s : StdScaler (Fl R)) (hm : s.withMean = true) (hs : s.withStd = true) (X : Mat (Fl R)) (hr : 0 < X.r)
    (hc : 0 < X.c) :
    ∃ M, (s.fitTransform sqrt Fl.abs eps X).2 = .ok M ∧ M.r = X.r ∧ M.c = X.c ∧ ∀ i < X.r, ∀ j < X.c,
      M.at' i j = (X.at' i j - colMean X j) / colScale sqrt Fl.abs eps X j (colMean X j) := by
  have hf := (fitTransform_is_fit_then_transform (α := Fl R) sqrt Fl.abs eps s (MinMax.new 0 1) X).1 hr hc
  rw [hf.2.2.1]
  have hne : ¬ (X.r = 0 ∨ X.c = 0) := by omega
  have hstate : (s.fit sqrt Fl.abs eps X).1 = runStd sqrt Fl.abs eps [.fit X] (StdScaler.new true true) := by
    simp only [runStd, StdScaler.fit, if_neg hne, StdScaler.new, hm, hs]
  have hp := ((std_transform_protocol sqrt Fl.abs eps true true [.fit X] X).2 X (by simp [lastFit, nonEmpty, hr, hc])).2.2 rfl hr
  rw [← hstate] at hp
  simpa using hp

/-- **C271** (partial): a column of equal values is mapped to zeros if the multiples of the value, up to the number of rows, and the
number of rows are representable. Missing: other values (`constant_column_scaled`). -/
theorem rounded_constant_column_partial (sqrt : Fl R → Fl R) (hsq : sqrt 0 = 0) (eps : Fl R) (he : 0 < eps) (s : StdScaler (Fl R)) (hm : s.withMean = true)
    (hs : s.withStd = true) (X : Mat (Fl R)) (hr : 0 < X.r) (hc : 0 < X.c) (j : Nat) (hj : j < X.c) (c : Fl R) (hcol : ∀ i < X.r, X.at' i j = c)
    (hn : R.rnd (X.r : K) = X.r) (hrep : ∀ k ≤ X.r, R.rnd (k * c.val) = k * c.val) :
    ∃ M, (s.fitTransform sqrt Fl.abs eps X).2 = .ok M ∧ ∀ i < X.r, M.at' i j = 0 := by
  obtain ⟨M, hM, h1, h2, h3⟩ := std_values sqrt eps s hm hs X hr hc
  refine ⟨M, hM, fun i hi => ?_⟩
  have hmean : colMean X j = c := by
    apply Fl.ext
    unfold colMean
    rw [Fl.val_div, sumTo_const X.r _ c hcol hrep, Fl.val_natCast, hn]
    have : (X.r : K) ≠ 0 := Nat.cast_ne_zero.2 hr.ne'
    rw [mul_div_cancel_left₀ _ this, c.rep]
  have hscale : colScale sqrt Fl.abs eps X j c = 1 := by
    have hz : sumTo X.r (fun i => (X.at' i j - c) * (X.at' i j - c)) = 0 :=
      sumTo_zeros _ _ fun i hi => by rw [hcol i hi, Fl.sub_self', Fl.zero_mul']
    unfold colScale
    dsimp only
    rw [hz, Fl.zero_div', hsq, if_pos]
    have : Fl.abs (0 : Fl R) = 0 := Fl.ext (by rw [Fl.val_abs, Fl.val_zero, abs_zero])
    rw [this]
    exact he
  rw [h3 i hi j hj, hmean, hscale, hcol i hi, Fl.sub_self', Fl.zero_div']

/-- three equal values (the data of a call of preprocessing/scaler.go:239-245) -/
def exConst : Mat (Fl Binary64.rounding) :=
  Mat.ofRows [[Binary64.lit (1000000001 / 10)], [Binary64.lit (1000000001 / 10)], [Binary64.lit (1000000001 / 10)]] 1 0

/-- **C271** is false: in binary64 three rows with the value 100000000.1 have a mean that differs from it by `2 ^ (-26)`, which is also the
standard deviation and above `1e-8`; every row is mapped to 1. -/
theorem constant_column_scaled (sqrt : Fl Binary64.rounding → Fl Binary64.rounding) (hsq : sqrt (Binary64.lit (1 / 2 ^ 52)) = Binary64.lit (1 / 2 ^ 26)) :
    ∃ M, ((StdScaler.new true true).fitTransform sqrt Fl.abs (Binary64.lit (1 / 10 ^ 8)) exConst).2 = .ok M ∧ ∀ i < 3, M.at' i 0 = 1 := by
  obtain ⟨M, hM, h1, h2, h3⟩ := std_values sqrt (Binary64.lit (1 / 10 ^ 8)) (StdScaler.new true true) rfl rfl exConst (by decide) (by decide)
  refine ⟨M, hM, fun i hi => ?_⟩
  have hv : sumTo exConst.r (fun i => (exConst.at' i 0 - colMean exConst 0) * (exConst.at' i 0 - colMean exConst 0)) / (exConst.r : Fl Binary64.rounding) =
      Binary64.lit (1 / 2 ^ 52) := by decide +kernel
  have hs : colScale sqrt Fl.abs (Binary64.lit (1 / 10 ^ 8)) exConst 0 (colMean exConst 0) = Binary64.lit (1 / 2 ^ 26) := by
    unfold colScale
    dsimp only
    rw [hv, hsq]
    decide +kernel
  rw [h3 i hi 0 (by decide), hs]
  have : ∀ i < 3, (exConst.at' i 0 - colMean exConst 0) / Binary64.lit (1 / 2 ^ 26) = 1 := by decide +kernel
  exact this i hi

/-- whole numbers are fine: three rows with the value 7 -/
example : ∃ M, ((StdScaler.new true true).fitTransform id Fl.abs (Binary64.lit (1 / 10 ^ 8))
    (Mat.ofRows [[Binary64.lit 7], [Binary64.lit 7], [Binary64.lit 7]] 1 0)).2 = .ok M ∧ ∀ i < 3, M.at' i 0 = 0 :=
  rounded_constant_column_partial (R := Binary64.rounding) id rfl (Binary64.lit (1 / 10 ^ 8)) (by decide +kernel) (StdScaler.new true true) rfl rfl
    (Mat.ofRows [[Binary64.lit 7], [Binary64.lit 7], [Binary64.lit 7]] 1 0) (by decide) (by decide) 0 (by decide) (Binary64.lit 7)
    (by decide +kernel) (by decide +kernel) (by decide +kernel)

end Scigo.Round
