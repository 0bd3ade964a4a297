import Verif.Round.ErrorProps
import Verif.Round.ScalerProps

/-!
# C283: scaling and scaling back when every operation is rounded
-/

set_option linter.unusedSectionVars false

namespace Scigo.Round

open Scigo.Preprocessing

variable {K : Type _} [Field K] [LinearOrder K] [IsStrictOrderedRing K] {R : Rounding K} {eps eta : K}

/-- one value there and back -/
theorem there_and_back (he : 0 ≤ eps) (hη : 0 ≤ eta) (hR : R.Accurate eps eta) (hA : R.AddAccurate eps) (x m s : Fl R) (hs : 0 < s) :
    |((x - m) / s * s + m).val - x.val| ≤
      eps * |x.val| + ((1 + eps) ^ 4 - (1 + eps)) * |x.val - m.val| + (s.val + 1) * (1 + eps) ^ 4 * eta := by
  have hs' : 0 < s.val := hs
  have h1 : Near eps eta 1 0 (x - m).val (x.val - m.val) :=
    (Near.refl eps eta (x.val - m.val)).rel he (by rw [Fl.val_sub]; exact hA.sub _ _ x.rep m.rep)
  have h2 := (h1.mul_const (s.val⁻¹) (inv_nonneg.2 hs'.le)).rnd he hη hR
  rw [zero_mul, ← div_eq_mul_inv, ← Fl.val_div] at h2
  have h3 := (h2.mul_const s.val hs'.le).rnd he hη hR
  rw [← Fl.val_mul, inv_mul_cancel_right₀ hs'.ne'] at h3
  unfold Near at h3
  have e : (1 + 1 + 1 : Nat) = 3 := rfl
  rw [e, zero_add, one_mul] at h3
  set w := (x - m) / s * s
  have h4 := hA w.val m.val w.rep m.rep
  rw [← Fl.val_add] at h4
  have h5 : w.val + m.val - x.val = w.val - (x.val - m.val) := by ring
  have h6 : |w.val + m.val - x.val| ≤ ((1 + eps) ^ 3 - 1) * |x.val - m.val| + (s.val + 1) * (1 + eps) ^ 3 * eta := by rw [h5]; exact h3
  have h7 := mul_le_mul_of_nonneg_left (abs_near h6) he
  have h8 := abs_add_le ((w + m).val - (w.val + m.val)) (w.val + m.val - x.val)
  rw [sub_add_sub_cancel] at h8
  have h9 : eps * |x.val| + ((1 + eps) ^ 4 - (1 + eps)) * |x.val - m.val| + (s.val + 1) * (1 + eps) ^ 4 * eta =
      eps * (|x.val| + (((1 + eps) ^ 3 - 1) * |x.val - m.val| + (s.val + 1) * (1 + eps) ^ 3 * eta)) +
        (((1 + eps) ^ 3 - 1) * |x.val - m.val| + (s.val + 1) * (1 + eps) ^ 3 * eta) := by ring
  linarith

theorem colScale_pos (sqrt : Fl R → Fl R) (hsqrt : ∀ x, 0 ≤ sqrt x) (lit : Fl R) (hl : 0 < lit) (X : Mat (Fl R)) (j : Nat) (m : Fl R) :
    0 < colScale sqrt Fl.abs lit X j m := by
  unfold colScale
  dsimp only
  generalize sumTo X.r (fun i => (X.at' i j - m) * (X.at' i j - m)) / (X.r : Fl R) = q
  split
  · exact (zero_lt_one : (0 : K) < 1)
  · rename_i h
    have e : Fl.abs (sqrt q) = sqrt q := Fl.ext ((Fl.val_abs _).trans (abs_of_nonneg (hsqrt _)))
    rw [e] at h
    exact lt_of_lt_of_le hl (not_lt.1 h)

/-! ## C283 -/

/-- **C283** (standard scaler): whatever was called before, with every operation rounded, `InverseTransform` after `Transform` gives back every value
up to one relative error of the value and three of its distance from the stored mean, and underflow. `lit` is the threshold `1e-8`. -/
theorem std_round_trip_error (he : 0 ≤ eps) (hη : 0 ≤ eta) (hR : R.Accurate eps eta) (hA : R.AddAccurate eps) (sqrt : Fl R → Fl R)
    (hsqrt : ∀ x, 0 ≤ sqrt x) (lit : Fl R) (hl : 0 < lit) (wm ws : Bool) (hist : List (Call (Mat (Fl R)))) (X0 X : Mat (Fl R))
    (h0 : lastFit nonEmpty hist none = some X0) (hc : X.c = X0.c) (hr : 0 < X.r) :
    let s := runStd sqrt Fl.abs lit hist (StdScaler.new wm ws)
    ∃ Z Y, s.transform X = .ok Z ∧ s.inverse Z = .ok Y ∧ Y.r = X.r ∧ Y.c = X.c ∧ ∀ i < X.r, ∀ j < X.c,
      |(Y.at' i j).val - (X.at' i j).val| ≤
        eps * |(X.at' i j).val| + ((1 + eps) ^ 4 - (1 + eps)) * |(X.at' i j).val - (s.mean.getD j 0).val| +
          ((s.scale.getD j 0).val + 1) * (1 + eps) ^ 4 * eta := by
  intro s
  have hmean : ∀ j < X0.c, s.mean.getD j 0 = if wm then colMean X0 j else 0 := by
    intro j hj
    have inv := std_run_inv sqrt Fl.abs lit wm ws hist _ _ (std_new_inv sqrt Fl.abs lit wm ws)
    obtain ⟨-, -, -, h4, -⟩ := inv.hx X0 h0
    rw [show s.mean = fitMean wm X0 from h4, fitMean_getD wm X0 j hj]
  have hscale : ∀ j < X0.c, s.scale.getD j 0 = if ws then colScale sqrt Fl.abs lit X0 j (if wm then colMean X0 j else 0) else 1 := by
    intro j hj
    have inv := std_run_inv sqrt Fl.abs lit wm ws hist _ _ (std_new_inv sqrt Fl.abs lit wm ws)
    obtain ⟨-, -, -, -, h5⟩ := inv.hx X0 h0
    rw [show s.scale = fitScale sqrt Fl.abs lit ws X0 (fitMean wm X0) from h5, fitScale_getD _ _ _ _ _ _ j hj, fitMean_getD wm X0 j hj]
  obtain ⟨Z, hZ, z1, z2, z3⟩ := ((std_transform_protocol sqrt Fl.abs lit wm ws hist X).2 X0 h0).2.2 hc hr
  obtain ⟨Y, hY, y1, y2, y3⟩ := ((std_inverse_protocol sqrt Fl.abs lit wm ws hist Z).2 X0 h0).2.2 z2 (by omega)
  refine ⟨Z, Y, hZ, hY, y1.trans z1, y2.trans hc.symm, fun i hi j hj => ?_⟩
  have hj' : j < X0.c := hc ▸ hj
  rw [y3 i (by omega) j hj', z3 i hi j hj', ← hscale j hj', ← hmean j hj']
  refine there_and_back he hη hR hA _ _ _ ?_
  rw [hscale j hj']
  split
  · exact colScale_pos sqrt hsqrt lit hl X0 j _
  · exact (zero_lt_one : (0 : K) < 1)

/-- **C283** (partial, min-max scaler): the same for a `MinMaxScaler` with the default range `[0, 1]`, with the stored minimum in place of the mean.
Missing: other ranges, for which the data can be lost (`minmax_range_loses`). -/
theorem minmax_round_trip_error_partial (he : 0 ≤ eps) (hη : 0 ≤ eta) (hR : R.Accurate eps eta) (hA : R.AddAccurate eps) (lit : Fl R) (hl : 0 < lit)
    (hist : List (Call (Mat (Fl R)))) (X0 X : Mat (Fl R)) (h0 : lastFit nonEmpty hist none = some X0) (hc : X.c = X0.c) (hr : 0 < X.r) :
    let s := runMinMax Fl.abs lit hist (MinMax.new 0 1)
    ∃ Z Y, s.transform X = .ok Z ∧ s.inverse Z = .ok Y ∧ Y.r = X.r ∧ Y.c = X.c ∧ ∀ i < X.r, ∀ j < X.c,
      |(Y.at' i j).val - (X.at' i j).val| ≤
        eps * |(X.at' i j).val| + ((1 + eps) ^ 4 - (1 + eps)) * |(X.at' i j).val - (colMinMax X0 j).1.val| +
          ((rangeScale Fl.abs lit (colMinMax X0 j).1 (colMinMax X0 j).2).val + 1) * (1 + eps) ^ 4 * eta := by
  intro s
  obtain ⟨Z, hZ, z1, z2, z3⟩ := ((minmax_transform_protocol Fl.abs lit 0 1 hist X).2 X0 h0).2.2 hc hr
  obtain ⟨Y, hY, y1, y2, y3⟩ := ((minmax_inverse_protocol Fl.abs lit 0 1 hist Z).2 X0 h0).2.2 z2 (by omega)
  refine ⟨Z, Y, hZ, hY, y1.trans z1, y2.trans hc.symm, fun i hi j hj => ?_⟩
  have hj' : j < X0.c := hc ▸ hj
  have hr0 : 0 < X0.r := by
    have inv := mm_run_inv Fl.abs lit 0 1 hist _ _ (mm_new_inv Fl.abs lit 0 1)
    exact (inv.hx X0 h0).1
  rw [y3 i (by omega) j hj', z3 i hi j hj', Fl.sub_zero', Fl.sub_zero', Fl.mul_one', Fl.add_zero', Fl.div_one']
  exact there_and_back he hη hR hA _ _ _ (scale_pos lit hl _ _ (range_nonneg X0 j hr0))

/-- a column with the values 0, 1/4 and 1 (cf. preprocessing/scaler.go:393) -/
def quarter : Mat (Fl Binary64.rounding) := ⟨3, 1, fun i _ => if i = 0 then Binary64.lit 0 else if i = 1 then Binary64.lit (1 / 4) else Binary64.lit 1⟩

/-- the range from `2 ^ 53` to `2 ^ 53 + 2` (cf. preprocessing/scaler.go:355) -/
def farRange : MinMax (Fl Binary64.rounding) :=
  runMinMax Fl.abs (Binary64.lit (1 / 100000000)) [.fit quarter] (MinMax.new (Binary64.lit (2 ^ 53)) (Binary64.lit (2 ^ 53 + 2)))

/-- **C283** is false for other ranges: in float64, scaling 1/4 to a range that is narrow for its place and back gives 0. -/
theorem minmax_range_loses : ∃ Z Y, farRange.transform quarter = .ok Z ∧ farRange.inverse Z = .ok Y ∧
    (quarter.at' 1 0).val = 1 / 4 ∧ (Y.at' 1 0).val = 0 := by
  refine ⟨_, _, rfl, rfl, ?_, ?_⟩ <;> decide +kernel

/-- the hypotheses are met by float64, with data that does not come back exactly -/
example : ∃ Z Y, let s := runMinMax Fl.abs (Binary64.lit (1 / 100000000)) [.fit ⟨2, 1, fun i _ => Binary64.lit (if i = 0 then -7 / 10 else 7 / 10)⟩] (MinMax.new 0 1)
    s.transform ⟨1, 1, fun _ _ => Binary64.lit (3 / 10)⟩ = .ok Z ∧ s.inverse Z = .ok Y ∧ (Y.at' 0 0).val ≠ (Binary64.lit (3 / 10)).val ∧
      |(Y.at' 0 0).val - (Binary64.lit (3 / 10)).val| ≤ 1 / 2 ^ 54 := by
  refine ⟨_, _, rfl, rfl, ?_, ?_⟩ <;> decide +kernel

/-- float64 meets the assumptions of both theorems -/
example : (0 : ℚ) ≤ 1 / 2 ^ 53 ∧ Binary64.rounding.Accurate (1 / 2 ^ 53) (1 / 2 ^ 1075) ∧ Binary64.rounding.AddAccurate (1 / 2 ^ 53) ∧
    lastFit nonEmpty [Call.fit quarter] none = some quarter :=
  ⟨by positivity, Binary64.accurate, Binary64.add_accurate, rfl⟩

end Scigo.Round
