import Verif.Overflow.MetricsProps
import Verif.Round.ScalerProps

/-!
# C277: scalers on finite data in binary64 with overflow
-/

namespace Scigo.Overflow

open Scigo.Preprocessing Scigo.Round

/-- a matrix of binary64 numbers without overflow as a matrix of `float64` (cf. preprocessing/scaler.go:114-166) -/
def liftMat (X : Mat B) : Mat F64 := ⟨X.r, X.c, fun i j => F64.lift (X.at' i j)⟩

section
variable {α : Type _} [Add α] [Sub α] [Mul α] [Div α] [Zero α] [One α] [NatCast α] [LT α] [DecidableLT α]

theorem minmax_entries (abs : α → α) (eps : α) (s : MinMax α) (X : Mat α) (hr : 0 < X.r) (hc : 0 < X.c) :
    ∃ M, (s.fitTransform abs eps X).2 = .ok M ∧ M.r = X.r ∧ M.c = X.c ∧ ∀ i < X.r, ∀ j < X.c,
      M.at' i j = (X.at' i j - (colMinMax X j).1) / rangeScale abs eps (colMinMax X j).1 (colMinMax X j).2 * (s.hi - s.lo) + s.lo := by
  have hf := (fitTransform_is_fit_then_transform id abs eps (StdScaler.new true true) s X).1 hr hc
  rw [hf.2.2.2]
  have hne : ¬ (X.r = 0 ∨ X.c = 0) := by omega
  have hstate : (s.fit abs eps X).1 = runMinMax abs eps [.fit X] (MinMax.new s.lo s.hi) := by
    simp only [runMinMax, MinMax.fit, if_neg hne, MinMax.new]
  have hp := ((minmax_transform_protocol abs eps s.lo s.hi [.fit X] X).2 X (by simp [lastFit, nonEmpty, hr, hc])).2.2 rfl hr
  rw [← hstate] at hp
  exact hp

theorem std_entries (sqrt abs : α → α) (eps : α) (s : StdScaler α) (hm : s.withMean = true) (hs : s.withStd = true) (X : Mat α) (hr : 0 < X.r)
    (hc : 0 < X.c) :
    ∃ M, (s.fitTransform sqrt abs eps X).2 = .ok M ∧ M.r = X.r ∧ M.c = X.c ∧ ∀ i < X.r, ∀ j < X.c,
      M.at' i j = (X.at' i j - colMean X j) / colScale sqrt abs eps X j (colMean X j) := by
  have hf := (fitTransform_is_fit_then_transform sqrt abs eps s (MinMax.new 0 1) X).1 hr hc
  rw [hf.2.2.1]
  have hne : ¬ (X.r = 0 ∨ X.c = 0) := by omega
  have hstate : (s.fit sqrt abs eps X).1 = runStd sqrt abs eps [.fit X] (StdScaler.new true true) := by
    simp only [runStd, StdScaler.fit, if_neg hne, StdScaler.new, hm, hs]
  have hp := ((std_transform_protocol sqrt abs eps true true [.fit X] X).2 X (by simp [lastFit, nonEmpty, hr, hc])).2.2 rfl hr
  rw [← hstate] at hp
  simpa using hp

end

theorem two_pow (k : Nat) : (2 : ℚ) ^ k + 2 ^ k ≤ 2 ^ (k + 1) := by
  rw [pow_succ]
  linarith

theorem pow_up {k m : Nat} (h : k ≤ m) : (2 : ℚ) ^ k ≤ 2 ^ m := pow_le_pow_right₀ (by norm_num) h

theorem colMinMax_lift (X : Mat B) (j : Nat) (hX : ∀ i, |(X.at' i j).val| ≤ maxF64) :
    colMinMax (liftMat X) j = (F64.lift (colMinMax X j).1, F64.lift (colMinMax X j).2) ∧ |(colMinMax X j).1.val| ≤ maxF64 ∧ |(colMinMax X j).2.val| ≤ maxF64 := by
  unfold colMinMax liftMat
  dsimp only
  have key : ∀ (l : List Nat) (s : B × B), |s.1.val| ≤ maxF64 → |s.2.val| ≤ maxF64 →
      let r := l.foldl (fun s i => (if X.at' (i + 1) j < s.1 then X.at' (i + 1) j else s.1, if s.2 < X.at' (i + 1) j then X.at' (i + 1) j else s.2)) s
      l.foldl (fun s i => (if F64.lift (X.at' (i + 1) j) < s.1 then F64.lift (X.at' (i + 1) j) else s.1,
        if s.2 < F64.lift (X.at' (i + 1) j) then F64.lift (X.at' (i + 1) j) else s.2)) (F64.lift s.1, F64.lift s.2) = (F64.lift r.1, F64.lift r.2) ∧
        |r.1.val| ≤ maxF64 ∧ |r.2.val| ≤ maxF64 := by
    intro l
    induction l with
    | nil => intro s h1 h2; exact ⟨rfl, h1, h2⟩
    | cons i l ih =>
      intro s h1 h2
      have hx := hX (i + 1)
      simp only [List.foldl_cons]
      have e : ((if F64.lift (X.at' (i + 1) j) < F64.lift s.1 then F64.lift (X.at' (i + 1) j) else F64.lift s.1,
          if F64.lift s.2 < F64.lift (X.at' (i + 1) j) then F64.lift (X.at' (i + 1) j) else F64.lift s.2) : F64 × F64) =
          (F64.lift (if X.at' (i + 1) j < s.1 then X.at' (i + 1) j else s.1), F64.lift (if s.2 < X.at' (i + 1) j then X.at' (i + 1) j else s.2)) := by
        simp only [F64.lift_lt hx h1, F64.lift_lt h2 hx]
        split <;> split <;> rfl
      rw [e]
      have g1 : |(if X.at' (i + 1) j < s.1 then X.at' (i + 1) j else s.1).val| ≤ maxF64 := by split <;> assumption
      have g2 : |(if s.2 < X.at' (i + 1) j then X.at' (i + 1) j else s.2).val| ≤ maxF64 := by split <;> assumption
      exact ih (if X.at' (i + 1) j < s.1 then X.at' (i + 1) j else s.1, if s.2 < X.at' (i + 1) j then X.at' (i + 1) j else s.2) g1 g2
  exact key (List.range (X.r - 1)) (X.at' 0 j, X.at' 0 j) (hX 0) (hX 0)

/-- **C277** (partial): on finite data of at most `2 ^ 1022` in absolute value and with limits of at most `2 ^ 1021`, `FitTransform` of MinMaxScaler gives finite
numbers, those of the arithmetic without largest number. Missing: larger data (`minmax_not_a_number`). -/
theorem finite_minmax_partial (eps : B) (he : 0 < eps) (he1 : eps ≤ 1) (s : MinMax B) (s' : MinMax F64) (hlo : s'.lo = F64.lift s.lo)
    (hhi : s'.hi = F64.lift s.hi) (h1 : |s.lo.val| ≤ 2 ^ 1021) (h2 : |s.hi.val| ≤ 2 ^ 1021) (X : Mat B) (hr : 0 < X.r) (hc : 0 < X.c)
    (hX : ∀ i j, |(X.at' i j).val| ≤ 2 ^ 1022) :
    ∃ M M', (s.fitTransform Fl.abs eps X).2 = .ok M ∧ (s'.fitTransform F64.abs (F64.lift eps) (liftMat X)).2 = .ok M' ∧ M'.r = X.r ∧ M'.c = X.c ∧
      ∀ i < X.r, ∀ j < X.c, M'.at' i j = F64.lift (M.at' i j) ∧ (M'.at' i j).IsFin := by
  obtain ⟨M, hM, -, -, h3⟩ := minmax_entries Fl.abs eps s X hr hc
  obtain ⟨M', hM', r', c', h3'⟩ := minmax_entries F64.abs (F64.lift eps) s' (liftMat X) hr hc
  refine ⟨M, M', hM, hM', r', c', fun i hi j hj => ?_⟩
  have hp : ∀ k ≤ 1023, (2 : ℚ) ^ k ≤ maxF64 := fun k hk => F64.pow_le_max hk
  obtain ⟨e, b1, b2⟩ := colMinMax_lift X j (fun i => (hX i j).trans (hp _ (by omega)))
  obtain ⟨hb, ⟨a, ha, hmin⟩, ⟨a', ha', hmax⟩⟩ := colMinMax_spec X j hr
  have hmm := range_nonneg X j hr
  have hsp := scale_pos eps he _ _ hmm
  have hrs := range_le_scale eps he1 _ _ hmm
  rw [h3' i hi j hj, h3 i hi j hj, e]
  dsimp only
  set mn := (colMinMax X j).1
  set mx := (colMinMax X j).2
  have bmn : |mn.val| ≤ 2 ^ 1022 := by rw [← hmin]; exact hX _ _
  have bmx : |mx.val| ≤ 2 ^ 1022 := by rw [← hmax]; exact hX _ _
  have e23 : (2 : ℚ) ^ 1022 + 2 ^ 1022 ≤ 2 ^ 1023 := two_pow 1022
  have e22 : (2 : ℚ) ^ 1021 + 2 ^ 1021 ≤ 2 ^ 1022 := two_pow 1021
  have e33 : (2 : ℚ) ^ 1022 + 2 ^ 1021 ≤ 2 ^ 1023 := le_trans (add_le_add (le_refl _) (pow_up (by omega))) e23
  have hrange : F64.lift mx - F64.lift mn = F64.lift (mx - mn) := F64.lift_sub b2 b1
  have brange : |(mx - mn).val| ≤ maxF64 := (F64.sub_bound bmx bmn (F64.rep_pow 1023) e23).trans (hp _ (by omega))
  have beps : |eps.val| ≤ maxF64 := by
    rw [abs_of_pos (show 0 < eps.val from he)]
    exact le_trans (show eps.val ≤ 1 from he1) (by simpa using hp 0 (by omega))
  have hscale : rangeScale F64.abs (F64.lift eps) (F64.lift mn) (F64.lift mx) = F64.lift (rangeScale Fl.abs eps mn mx) ∧ |(rangeScale Fl.abs eps mn mx).val| ≤ maxF64 := by
    unfold rangeScale
    have babs : |(mx - mn).abs.val| ≤ maxF64 := by rw [Fl.val_abs, abs_abs]; exact brange
    rw [hrange, F64.lift_abs brange]
    simp only [F64.lift_lt babs beps]
    split
    · exact ⟨rfl, by rw [Fl.val_one, abs_one]; simpa using hp 0 (by omega)⟩
    · exact ⟨rfl, brange⟩
  have hnum : F64.lift (X.at' i j) - F64.lift mn = F64.lift (X.at' i j - mn) := F64.lift_sub ((hX i j).trans (hp _ (by omega))) b1
  have bnum : |(X.at' i j - mn).val| ≤ maxF64 := (F64.sub_bound (hX i j) bmn (F64.rep_pow 1023) e23).trans (hp _ (by omega))
  have h0num : 0 ≤ X.at' i j - mn := Fl.sub_nonneg' (hb i hi).1
  have hq0 : 0 ≤ (X.at' i j - mn) / rangeScale Fl.abs eps mn mx := Fl.div_nonneg' h0num hsp.le
  have hq1 : (X.at' i j - mn) / rangeScale Fl.abs eps mn mx ≤ 1 :=
    Fl.div_le_one' h0num (le_trans (Fl.sub_le (hb i hi).2 (le_refl _)) hrs)
  have bq : |((X.at' i j - mn) / rangeScale Fl.abs eps mn mx).val| ≤ 1 := by
    rw [abs_of_nonneg (show 0 ≤ ((X.at' i j - mn) / rangeScale Fl.abs eps mn mx).val from hq0)]
    exact hq1
  have bw : |(s.hi - s.lo).val| ≤ 2 ^ 1022 := F64.sub_bound h2 h1 (F64.rep_pow _) e22
  have bp : |((X.at' i j - mn) / rangeScale Fl.abs eps mn mx * (s.hi - s.lo)).val| ≤ 2 ^ 1022 :=
    F64.mul_bound bq bw (F64.rep_pow _) (by rw [one_mul])
  have bs : |((X.at' i j - mn) / rangeScale Fl.abs eps mn mx * (s.hi - s.lo) + s.lo).val| ≤ 2 ^ 1023 := F64.add_bound bp h1 (F64.rep_pow _) e33
  have hfin : (F64.lift (X.at' i j) - F64.lift mn) / rangeScale F64.abs (F64.lift eps) (F64.lift mn) (F64.lift mx) * (s'.hi - s'.lo) + s'.lo =
      F64.lift ((X.at' i j - mn) / rangeScale Fl.abs eps mn mx * (s.hi - s.lo) + s.lo) := by
    have h1' := h1.trans (hp _ (by omega))
    have hsp' : (rangeScale Fl.abs eps mn mx).val ≠ 0 := ne_of_gt hsp
    rw [hlo, hhi, hnum, hscale.1, F64.lift_div bnum hscale.2 hsp', F64.lift_sub (h2.trans (hp _ (by omega))) h1',
      F64.lift_mul (bq.trans (by simpa using hp 0 (by omega))) (bw.trans (hp _ (by omega))), F64.lift_add (bp.trans (hp _ (by omega))) h1']
  refine ⟨hfin, ?_⟩
  show F64.IsFin ((F64.lift (X.at' i j) - F64.lift mn) / rangeScale F64.abs (F64.lift eps) (F64.lift mn) (F64.lift mx) * (s'.hi - s'.lo) + s'.lo)
  rw [hfin]
  exact F64.lift_isFin (bs.trans (hp _ (by omega)))

/-- **C277** is false: the range of the finite column `[-2 ^ 1023, 2 ^ 1023]` is infinite, and MinMaxScaler maps its largest value to NaN without an error -/
theorem minmax_not_a_number :
    (((MinMax.new (F64.round 0) (F64.round 1)).fitTransform F64.abs (F64.round (1 / 10 ^ 8))
      (Mat.ofRows [[F64.round (-2 ^ 1023)], [F64.round (2 ^ 1023)]] 1 0)).2.map fun M => [M.at' 0 0, M.at' 1 0]) = .ok [0, .nan] := by
  decide +kernel

theorem lift_sumTo (n : Nat) (f : Nat → B) (g : Nat → F64) (k : Nat) (hk : k ≤ 970) (hn : n < 2 ^ 53) (hg : ∀ i < n, g i = F64.lift (f i))
    (hf : ∀ i < n, |(f i).val| ≤ 2 ^ k) : sumTo n g = F64.lift (sumTo n f) ∧ |(sumTo n f).val| ≤ n * 2 ^ k := by
  have := lift_sumOver (List.range n) (fun i => i) f g k hk (by rw [List.length_range]; exact hn) (fun i hi => hg i (List.mem_range.1 hi))
    (fun i hi => hf i (List.mem_range.1 hi))
  rw [List.map_id', List.length_range] at this
  exact this

/-- **C277** (partial): on finite data of fewer than `2 ^ 53` rows and at most `2 ^ 484` in absolute value, `FitTransform` of StandardScaler gives finite numbers,
those of the arithmetic without largest number, for every square root that gives finite numbers that are not
negative. Missing: larger data
(`standard_all_zero`). -/
theorem finite_standard_partial (sqrt : B → B) (sqrt' : F64 → F64) 
    (hsq : ∀ x, 0 ≤ x → |x.val| ≤ maxF64 → 0 ≤ sqrt x ∧ |(sqrt x).val| ≤ maxF64 ∧ sqrt' (F64.lift x) = F64.lift (sqrt x))
    (eps : B) (he : 1 / 2 ^ 27 ≤ eps.val) (he1 : eps ≤ 1) (s : StdScaler B) (s' : StdScaler F64) (hm : s.withMean = true) (hs : s.withStd = true)
    (hm' : s'.withMean = true) (hs' : s'.withStd = true) (X : Mat B) (hr : 0 < X.r) (hr' : X.r < 2 ^ 53) (hc : 0 < X.c) (hX : ∀ i j, |(X.at' i j).val| ≤ 2 ^ 484) :
    ∃ M M', (s.fitTransform sqrt Fl.abs eps X).2 = .ok M ∧ (s'.fitTransform sqrt' F64.abs (F64.lift eps) (liftMat X)).2 = .ok M' ∧ M'.r = X.r ∧ M'.c = X.c ∧
      ∀ i < X.r, ∀ j < X.c, M'.at' i j = F64.lift (M.at' i j) ∧ (M'.at' i j).IsFin := by
  obtain ⟨M, hM, -, -, h3⟩ := std_entries sqrt Fl.abs eps s hm hs X hr hc
  obtain ⟨M', hM', r', c', h3'⟩ := std_entries sqrt' F64.abs (F64.lift eps) s' hm' hs' (liftMat X) hr hc
  refine ⟨M, M', hM, hM', r', c', fun i hi j hj => ?_⟩
  have hp : ∀ k ≤ 1023, (2 : ℚ) ^ k ≤ maxF64 := fun k hk => F64.pow_le_max hk
  have hone : (1 : ℚ) ≤ maxF64 := by simpa using hp 0 (by omega)
  obtain ⟨a1, a2⟩ := lift_sumTo X.r (fun i => X.at' i j) (fun i => F64.lift (X.at' i j)) 484 (by omega) hr' (fun _ _ => rfl) (fun i _ => hX i j)
  obtain ⟨m1, m2⟩ := mean_bound hr.ne' hr' (by omega) _ a2
  have emean : colMean (liftMat X) j = F64.lift (colMean X j) := by
    unfold colMean liftMat
    dsimp only
    rw [a1, m1]
  have m2 : |(colMean X j).val| ≤ 2 ^ 484 := m2
  obtain ⟨b1, b2⟩ := lift_sumTo X.r (fun i => (X.at' i j - colMean X j) * (X.at' i j - colMean X j))
    (fun i => (F64.lift (X.at' i j) - F64.lift (colMean X j)) * (F64.lift (X.at' i j) - F64.lift (colMean X j))) 970 (le_refl _) hr'
    (fun i _ => (sq_lift (le_refl _) _ _ (hX i j) m2).2.2.1) (fun i _ => (sq_lift (le_refl _) _ _ (hX i j) m2).2.2.2)
  obtain ⟨v1, v2⟩ := mean_bound hr.ne' hr' (by omega) _ b2
  have hv0 : 0 ≤ sumTo X.r (fun i => (X.at' i j - colMean X j) * (X.at' i j - colMean X j)) / (X.r : B) :=
    Fl.div_nonneg' (sumOver_nonneg (List.range X.r) _ fun i _ => Fl.mul_self_nonneg' _) (Fl.natCast_nonneg' _)
  obtain ⟨q0, q1, q2⟩ := hsq _ hv0 (v2.trans (hp _ (by omega)))
  have hescale : colScale sqrt' F64.abs (F64.lift eps) (liftMat X) j (F64.lift (colMean X j)) = F64.lift (colScale sqrt Fl.abs eps X j (colMean X j)) ∧
      1 / 2 ^ 27 ≤ (colScale sqrt Fl.abs eps X j (colMean X j)).val ∧ |(colScale sqrt Fl.abs eps X j (colMean X j)).val| ≤ maxF64 := by
    unfold colScale
    dsimp only
    have : (liftMat X).r = X.r := rfl
    rw [this]
    have e2 : sumTo X.r (fun i => ((liftMat X).at' i j - F64.lift (colMean X j)) * ((liftMat X).at' i j - F64.lift (colMean X j))) =
        F64.lift (sumTo X.r (fun i => (X.at' i j - colMean X j) * (X.at' i j - colMean X j))) := b1
    rw [e2, v1, q2]
    set sd := sqrt (sumTo X.r (fun i => (X.at' i j - colMean X j) * (X.at' i j - colMean X j)) / (X.r : B))
    have eabs : Fl.abs sd = sd := Fl.ext ((Fl.val_abs _).trans (abs_of_nonneg q0))
    have beps : |eps.val| ≤ maxF64 := by
      rw [abs_of_nonneg (le_trans (by positivity) he)]
      exact le_trans (show eps.val ≤ 1 from he1) hone
    rw [F64.lift_abs q1, eabs]
    simp only [F64.lift_lt q1 beps]
    split
    · refine ⟨rfl, ?_, by rw [Fl.val_one, abs_one]; exact hone⟩
      exact he.trans he1
    · rename_i hlt
      exact ⟨rfl, he.trans (not_lt.1 hlt), q1⟩
  obtain ⟨s1, s2, s3⟩ := hescale
  obtain ⟨d1, d2, -, -⟩ := sq_lift (le_refl _) _ _ (hX i j) m2
  have hspos : 0 < (colScale sqrt Fl.abs eps X j (colMean X j)).val := lt_of_lt_of_le (by positivity) s2
  have bq : |((X.at' i j - colMean X j) / colScale sqrt Fl.abs eps X j (colMean X j)).val| ≤ 2 ^ 512 := by
    refine F64.rnd_abs_le (F64.rep_pow _) ?_
    rw [abs_div, abs_of_pos hspos, div_le_iff₀ hspos]
    have h4 : (2 : ℚ) ^ 512 * (1 / 2 ^ 27) = 2 ^ 485 := by
      rw [show (512 : Nat) = 485 + 27 from rfl, pow_add]
      field_simp
    calc _ ≤ (2 : ℚ) ^ 485 := d2
      _ = 2 ^ 512 * (1 / 2 ^ 27) := h4.symm
      _ ≤ _ := mul_le_mul_of_nonneg_left s2 (by positivity)
  have hfin : ((liftMat X).at' i j - colMean (liftMat X) j) / colScale sqrt' F64.abs (F64.lift eps) (liftMat X) j (colMean (liftMat X) j) =
      F64.lift ((X.at' i j - colMean X j) / colScale sqrt Fl.abs eps X j (colMean X j)) := by
    rw [emean, s1]
    show (F64.lift (X.at' i j) - _) / _ = _
    rw [d1, F64.lift_div (d2.trans (hp _ (by omega))) s3 hspos.ne']
  rw [h3' i hi j hj, h3 i hi j hj, hfin]
  exact ⟨rfl, F64.lift_isFin (bq.trans (hp _ (by omega)))⟩

/-- **C277** is false: the variance of the finite column `[-2 ^ 600, 2 ^ 600]` is infinite, and StandardScaler maps both values to zero without an error -/
theorem standard_all_zero (sqrt : F64 → F64) (hs : sqrt (.inf false) = .inf false) :
    (((StdScaler.new true true).fitTransform sqrt F64.abs (F64.round (1 / 10 ^ 8))
      (Mat.ofRows [[F64.round (-2 ^ 600)], [F64.round (2 ^ 600)]] 1 0)).2.map fun M => [M.at' 0 0, M.at' 1 0]) = .ok [0, 0] := by
  obtain ⟨M, h, -, -, h3⟩ := std_entries sqrt F64.abs (F64.round (1 / 10 ^ 8)) (StdScaler.new true true) rfl rfl
    (Mat.ofRows [[F64.round (-2 ^ 600)], [F64.round (2 ^ 600)]] 1 0) (by decide) (by decide)
  rw [h]
  have hv : colScale sqrt F64.abs (F64.round (1 / 10 ^ 8)) (Mat.ofRows [[F64.round (-2 ^ 600)], [F64.round (2 ^ 600)]] 1 0) 0
      (colMean (Mat.ofRows [[F64.round (-2 ^ 600)], [F64.round (2 ^ 600)]] 1 0) 0) = .inf false := by
    unfold colScale
    dsimp only
    have : sumTo (Mat.ofRows [[F64.round (-2 ^ 600)], [F64.round (2 ^ 600)]] 1 0).r (fun i =>
        ((Mat.ofRows [[F64.round (-2 ^ 600)], [F64.round (2 ^ 600)]] 1 0).at' i 0 - colMean (Mat.ofRows [[F64.round (-2 ^ 600)], [F64.round (2 ^ 600)]] 1 0) 0) *
        ((Mat.ofRows [[F64.round (-2 ^ 600)], [F64.round (2 ^ 600)]] 1 0).at' i 0 - colMean (Mat.ofRows [[F64.round (-2 ^ 600)], [F64.round (2 ^ 600)]] 1 0) 0)) /
        ((Mat.ofRows [[F64.round (-2 ^ 600)], [F64.round (2 ^ 600)]] 1 0).r : F64) = .inf false := by decide +kernel
    rw [this, hs]
    decide +kernel
  show Outcome.ok [M.at' 0 0, M.at' 1 0] = _
  rw [h3 0 (by decide) 0 (by decide), h3 1 (by decide) 0 (by decide), hv]
  decide +kernel

/-- ordinary data: three rows, the largest `10 ^ 100` -/
example : ∀ x ∈ [Binary64.lit (10 ^ 100), Binary64.lit (-3), Binary64.lit (1 / 10 ^ 8)], |x.val| ≤ 2 ^ 484 := by decide +kernel

end Scigo.Overflow
