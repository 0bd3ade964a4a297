import Verif.Round.ScalerProps

/-!
# C333: scalers keep the order of the values in `float64`
-/

set_option linter.unusedSectionVars false

namespace Scigo.Round

open Scigo.Preprocessing

variable {K : Type} [Field K] [LinearOrder K] [IsStrictOrderedRing K] {R : Rounding K}

/-! ## Specification -/

/-- the result `M` for `X` and the result `N` for `Y` are ordered like the data, column by column (cf. preprocessing/scaler.go:200-230) -/
def SameOrder (X M Y N : Mat (Fl R)) : Prop := ∀ i < X.r, ∀ k < Y.r, ∀ j < X.c, X.at' i j ≤ Y.at' k j → M.at' i j ≤ N.at' k j

/-! ## Helpers -/

theorem colScale_nonneg (sqrt : Fl R → Fl R) (hsq : ∀ x, 0 ≤ x → 0 ≤ sqrt x) (eps : Fl R) (X : Mat (Fl R)) (j : Nat) (m : Fl R) : 0 ≤ colScale sqrt Fl.abs eps X j m := by
  unfold colScale
  dsimp only
  split
  · exact (zero_le_one : (0 : K) ≤ 1)
  · refine hsq _ (Fl.div_nonneg' ?_ (Fl.natCast_nonneg' _))
    generalize X.r = n
    induction n with
    | zero => exact le_rfl
    | succ n ih =>
      rw [sumTo_succ]
      exact Fl.add_nonneg' ih (Fl.mul_self_nonneg' _)

theorem mul_le_right {a b c : Fl R} (h : a ≤ b) (hc : 0 ≤ c) : a * c ≤ b * c := R.mono (mul_le_mul_of_nonneg_right h hc)

theorem lastFit_rows {hist : List (Call (Mat (Fl R)))} {X0 : Mat (Fl R)} (h : lastFit nonEmpty hist none = some X0) : 0 < X0.r := by
  have key : ∀ (l : List (Call (Mat (Fl R)))) (o : Option (Mat (Fl R))), (∀ X, o = some X → 0 < X.r) → ∀ X, lastFit nonEmpty l o = some X → 0 < X.r := by
    intro l
    induction l with
    | nil => exact fun o ho X h => ho X h
    | cons c l ih =>
      intro o ho X h
      cases c with
      | fit Z =>
        simp only [lastFit] at h
        refine ih _ ?_ X h
        intro W hW
        split at hW
        · rename_i hz
          obtain rfl := Option.some.inj hW
          exact (of_decide_eq_true hz).1
        · exact ho W hW
      | fitTransform Z =>
        simp only [lastFit] at h
        refine ih _ ?_ X h
        intro W hW
        split at hW
        · rename_i hz
          obtain rfl := Option.some.inj hW
          exact (of_decide_eq_true hz).1
        · exact ho W hW
      | reset => exact ih none (by simp) X h
      | transform _ => exact ih o ho X h
      | inverse _ => exact ih o ho X h
  exact key hist none (by simp) X0 h

/-! ## C333 -/

/-- **C333.** Whatever a `StandardScaler` was fitted to, a value that is not larger than another one of the same feature is not mapped to a larger one, be it in the same call of `Transform` or in another one; the same
holds for `InverseTransform`. -/
theorem std_order (sqrt : Fl R → Fl R) (hsq : ∀ x, 0 ≤ x → 0 ≤ sqrt x) (eps : Fl R) (wm ws : Bool) (hist : List (Call (Mat (Fl R)))) (X Y M N : Mat (Fl R)) :
    let s := runStd sqrt Fl.abs eps hist (StdScaler.new wm ws)
    (s.transform X = .ok M → s.transform Y = .ok N → SameOrder X M Y N) ∧ (s.inverse X = .ok M → s.inverse Y = .ok N → SameOrder X M Y N) := by
  intro s
  have hscale : ∀ X0 j m, 0 ≤ (if ws = true then colScale sqrt Fl.abs eps X0 j m else (1 : Fl R)) := by
    intro X0 j m
    split
    · exact colScale_nonneg sqrt hsq eps X0 j m
    · exact (zero_le_one : (0 : K) ≤ 1)
  constructor
  · intro hM hN
    have pX := std_transform_protocol sqrt Fl.abs eps wm ws hist X
    have pY := std_transform_protocol sqrt Fl.abs eps wm ws hist Y
    rcases e : lastFit nonEmpty hist none with _ | X0
    · exact absurd (hM.symm.trans (pX.1 e)) (by simp)
    · obtain ⟨x1, x2, x3⟩ := pX.2 X0 e
      obtain ⟨y1, y2, y3⟩ := pY.2 X0 e
      have cX : X.c = X0.c := by
        by_contra h
        exact absurd (hM.symm.trans (x1 h)) (by simp)
      have cY : Y.c = X0.c := by
        by_contra h
        exact absurd (hN.symm.trans (y1 h)) (by simp)
      intro i hi k hk j hj hle
      obtain ⟨M', e1, -, -, v1⟩ := x3 cX (by omega)
      obtain ⟨N', e2, -, -, v2⟩ := y3 cY (by omega)
      obtain rfl := Outcome.ok.inj (hM.symm.trans e1)
      obtain rfl := Outcome.ok.inj (hN.symm.trans e2)
      rw [v1 i hi j (by omega), v2 k hk j (by omega)]
      exact Fl.div_le (Fl.sub_le hle le_rfl) (hscale _ _ _)
  · intro hM hN
    have pX := std_inverse_protocol sqrt Fl.abs eps wm ws hist X
    have pY := std_inverse_protocol sqrt Fl.abs eps wm ws hist Y
    rcases e : lastFit nonEmpty hist none with _ | X0
    · exact absurd (hM.symm.trans (pX.1 e)) (by simp)
    · obtain ⟨x1, x2, x3⟩ := pX.2 X0 e
      obtain ⟨y1, y2, y3⟩ := pY.2 X0 e
      have cX : X.c = X0.c := by
        by_contra h
        exact absurd (hM.symm.trans (x1 h)) (by simp)
      have cY : Y.c = X0.c := by
        by_contra h
        exact absurd (hN.symm.trans (y1 h)) (by simp)
      intro i hi k hk j hj hle
      obtain ⟨M', e1, -, -, v1⟩ := x3 cX (by omega)
      obtain ⟨N', e2, -, -, v2⟩ := y3 cY (by omega)
      obtain rfl := Outcome.ok.inj (hM.symm.trans e1)
      obtain rfl := Outcome.ok.inj (hN.symm.trans e2)
      rw [v1 i hi j (by omega), v2 k hk j (by omega)]
      exact Fl.add_le (mul_le_right hle (hscale _ _ _)) le_rfl

/-- **C333.** The same for a `MinMaxScaler` whose range is not reversed. -/
theorem minmax_order (eps : Fl R) (he : 0 < eps) (lo hi : Fl R) (hlh : lo ≤ hi) (hist : List (Call (Mat (Fl R)))) (X Y M N : Mat (Fl R)) :
    let s := runMinMax Fl.abs eps hist (MinMax.new lo hi)
    (s.transform X = .ok M → s.transform Y = .ok N → SameOrder X M Y N) ∧ (s.inverse X = .ok M → s.inverse Y = .ok N → SameOrder X M Y N) := by
  intro s
  have hw : 0 ≤ hi - lo := Fl.sub_nonneg' hlh
  constructor
  · intro hM hN
    have pX := minmax_transform_protocol Fl.abs eps lo hi hist X
    have pY := minmax_transform_protocol Fl.abs eps lo hi hist Y
    rcases e : lastFit nonEmpty hist none with _ | X0
    · exact absurd (hM.symm.trans (pX.1 e)) (by simp)
    · obtain ⟨x1, x2, x3⟩ := pX.2 X0 e
      obtain ⟨y1, y2, y3⟩ := pY.2 X0 e
      have cX : X.c = X0.c := by
        by_contra h
        exact absurd (hM.symm.trans (x1 h)) (by simp)
      have cY : Y.c = X0.c := by
        by_contra h
        exact absurd (hN.symm.trans (y1 h)) (by simp)
      have hr0 : 0 < X0.r := lastFit_rows e
      intro i hi k hk j hj hle
      obtain ⟨M', e1, -, -, v1⟩ := x3 cX (by omega)
      obtain ⟨N', e2, -, -, v2⟩ := y3 cY (by omega)
      obtain rfl := Outcome.ok.inj (hM.symm.trans e1)
      obtain rfl := Outcome.ok.inj (hN.symm.trans e2)
      rw [v1 i hi j (by omega), v2 k hk j (by omega)]
      exact Fl.add_le (mul_le_right (Fl.div_le (Fl.sub_le hle le_rfl) (scale_pos eps he _ _ (range_nonneg X0 j hr0)).le) hw) le_rfl
  · intro hM hN
    have pX := minmax_inverse_protocol Fl.abs eps lo hi hist X
    have pY := minmax_inverse_protocol Fl.abs eps lo hi hist Y
    rcases e : lastFit nonEmpty hist none with _ | X0
    · exact absurd (hM.symm.trans (pX.1 e)) (by simp)
    · obtain ⟨x1, x2, x3⟩ := pX.2 X0 e
      obtain ⟨y1, y2, y3⟩ := pY.2 X0 e
      have cX : X.c = X0.c := by
        by_contra h
        exact absurd (hM.symm.trans (x1 h)) (by simp)
      have cY : Y.c = X0.c := by
        by_contra h
        exact absurd (hN.symm.trans (y1 h)) (by simp)
      have hr0 : 0 < X0.r := lastFit_rows e
      intro i hi k hk j hj hle
      obtain ⟨M', e1, -, -, v1⟩ := x3 cX (by omega)
      obtain ⟨N', e2, -, -, v2⟩ := y3 cY (by omega)
      obtain rfl := Outcome.ok.inj (hM.symm.trans e1)
      obtain rfl := Outcome.ok.inj (hN.symm.trans e2)
      rw [v1 i hi j (by omega), v2 k hk j (by omega)]
      exact Fl.add_le (mul_le_right (Fl.div_le (Fl.sub_le hle le_rfl) hw) (scale_pos eps he _ _ (range_nonneg X0 j hr0)).le) le_rfl

/-- a column with the values 0, 1e-20 and 1 (the data of a call of preprocessing/scaler.go:518-524) -/
def exMerge : Mat (Fl Binary64.rounding) := Mat.ofRows [[Binary64.lit 0], [Binary64.lit (1 / 10 ^ 20)], [Binary64.lit 1]] 1 0

/-- **C333, what does not hold.** Different values need not stay different: a `MinMaxScaler` with the range from 1 to 2 maps 0 and 1e-20 to the same number. -/
theorem scaled_values_merge : exMerge.at' 0 0 < exMerge.at' 1 0 ∧ ∃ M, ((MinMax.new (Binary64.lit 1) (Binary64.lit 2)).fitTransform Fl.abs (Binary64.lit (1 / 10 ^ 8)) exMerge).2 = .ok M ∧ M.at' 0 0 = M.at' 1 0 := by
  refine ⟨by decide +kernel, ?_⟩
  obtain ⟨M, hM, -, -, hv⟩ := minmax_values (Binary64.lit (1 / 10 ^ 8)) (MinMax.new (Binary64.lit 1) (Binary64.lit 2)) exMerge (by decide) (by decide)
  refine ⟨M, hM, ?_⟩
  rw [hv 0 (by decide) 0 (by decide), hv 1 (by decide) 0 (by decide)]
  decide +kernel

/-- a history with a fit, a reset and another fit, after which both calls succeed -/
example : (((runMinMax Fl.abs (Binary64.lit (1 / 10 ^ 8)) [.fit exCol, .reset, .fitTransform exMerge] (MinMax.new (Binary64.lit 0) (Binary64.lit 1))).transform exMerge).map fun M => (M.r, M.c, M.at' 2 0)) =
      .ok (3, 1, Binary64.lit 1) ∧
    (((runMinMax Fl.abs (Binary64.lit (1 / 10 ^ 8)) [.fit exCol, .reset, .fitTransform exMerge] (MinMax.new (Binary64.lit 0) (Binary64.lit 1))).inverse exMerge).map fun M => (M.r, M.c, M.at' 2 0)) =
      .ok (3, 1, Binary64.lit 1) := by decide +kernel

/-- the same for a `StandardScaler` with a square root that is not negative -/
example : (((runStd id Fl.abs (Binary64.lit (1 / 10 ^ 8)) [.fit exCol, .reset, .fitTransform exMerge] (StdScaler.new true true)).transform exMerge).map fun M => (M.r, M.c)) = .ok (3, 1) ∧
    (((runStd id Fl.abs (Binary64.lit (1 / 10 ^ 8)) [.fit exCol, .reset, .fitTransform exMerge] (StdScaler.new true true)).inverse exMerge).map fun M => (M.r, M.c)) = .ok (3, 1) := by decide +kernel

end Scigo.Round
