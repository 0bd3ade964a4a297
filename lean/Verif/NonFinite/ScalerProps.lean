import Verif.NonFinite.KMeansProps
import Verif.Preprocessing.Model

/-!
# C301: a missing value affects only its own row of a MinMaxScaler
-/

namespace Scigo.NonFinite

open Scigo.Preprocessing F64

theorem lt_irrefl' (a : F64) : ¬ a < a := by
  cases a with
  | nan => exact not_nan_lt _
  | fin p => exact fun h => lt_irrefl _ (of_decide_eq_true h)
  | inf n => cases n <;> exact fun h => by cases h

section
variable (X : Mat F64) (j : Nat)

/-- the state of the loop after the rows `0 … n` -/
theorem minmax_loop (n : Nat) (h0 : X.at' 0 j ≠ nan) :
    let s := (List.range n).foldl (fun s i =>
      let v := X.at' (i + 1) j
      (if v < s.1 then v else s.1, if s.2 < v then v else s.2)) (X.at' 0 j, X.at' 0 j)
    (∀ i, i ≤ n → ¬ X.at' i j < s.1 ∧ ¬ s.2 < X.at' i j) ∧ (∃ i, i ≤ n ∧ X.at' i j = s.1) ∧ (∃ i, i ≤ n ∧ X.at' i j = s.2) ∧ s.1 ≠ nan ∧ s.2 ≠ nan := by
  induction n with
  | zero =>
    refine ⟨fun i hi => ?_, ⟨0, le_refl _, rfl⟩, ⟨0, le_refl _, rfl⟩, h0, h0⟩
    rw [Nat.le_zero.1 hi]
    exact ⟨lt_irrefl' _, lt_irrefl' _⟩
  | succ n ih =>
    rw [List.range_succ, List.foldl_append, List.foldl_cons, List.foldl_nil]
    revert ih
    generalize (List.range n).foldl _ _ = s
    rintro ⟨a, ⟨i1, l1, b⟩, ⟨i2, l2, c⟩, d, e⟩
    dsimp only
    refine ⟨fun i hi => ⟨?_, ?_⟩, ?_, ?_, ?_, ?_⟩
    · split
      · rename_i hv
        rcases Nat.lt_or_eq_of_le hi with hi | rfl
        · exact fun h => (a i (Nat.le_of_lt_succ hi)).1 (lt_trans' h hv)
        · exact lt_irrefl' _
      · rename_i hv
        rcases Nat.lt_or_eq_of_le hi with hi | rfl
        · exact (a i (Nat.le_of_lt_succ hi)).1
        · exact hv
    · split
      · rename_i hv
        rcases Nat.lt_or_eq_of_le hi with hi | rfl
        · exact fun h => (a i (Nat.le_of_lt_succ hi)).2 (lt_trans' hv h)
        · exact lt_irrefl' _
      · rename_i hv
        rcases Nat.lt_or_eq_of_le hi with hi | rfl
        · exact (a i (Nat.le_of_lt_succ hi)).2
        · exact hv
    · split
      · exact ⟨n + 1, le_refl _, rfl⟩
      · exact ⟨i1, Nat.le_succ_of_le l1, b⟩
    · split
      · exact ⟨n + 1, le_refl _, rfl⟩
      · exact ⟨i2, Nat.le_succ_of_le l2, c⟩
    · split
      · rename_i hv
        exact fun h => not_nan_lt _ (h ▸ hv)
      · exact d
    · split
      · rename_i hv
        exact fun h => not_lt_nan _ (h ▸ hv)
      · exact e

/-- if the first value is missing, both results are -/
theorem minmax_nan (h0 : X.at' 0 j = nan) : colMinMax X j = (nan, nan) := by
  unfold colMinMax
  rw [h0]
  generalize X.r - 1 = n
  induction n with
  | zero => rfl
  | succ n ih =>
    rw [List.range_succ, List.foldl_append, ih, List.foldl_cons, List.foldl_nil]
    dsimp only
    rw [if_neg (not_lt_nan _), if_neg (not_nan_lt _)]

end

/-- the fitted scaler when there are rows and columns -/
theorem fit_eq (abs : F64 → F64) (eps : F64) (s : MinMax F64) (X : Mat F64) (hr : X.r ≠ 0) (hc : X.c ≠ 0) :
    s.fit abs eps X =
      (⟨s.lo, s.hi, true, X.c, ((List.range X.c).map (colMinMax X)).map Prod.fst, ((List.range X.c).map (colMinMax X)).map Prod.snd,
        ((List.range X.c).map (colMinMax X)).map (fun p => rangeScale abs eps p.1 p.2)⟩, .ok ()) := by
  unfold MinMax.fit
  rw [if_neg (by rintro (h | h) <;> contradiction)]

/-- **C301** (partial): NaN below the first row of a column of the training data is passed over: the fitted minimum and maximum of a column whose first value is not NaN are
values of the column, not NaN, and no value of the column lies outside. Missing: a column whose first value is NaN (`missing_first_row`). -/
theorem missing_later_row_partial (abs : F64 → F64) (eps : F64) (s : MinMax F64) (X : Mat F64) (hr : X.r ≠ 0) (j : Nat) (hj : j < X.c)
    (h0 : X.at' 0 j ≠ nan) :
    ∃ mn mx, (s.fit abs eps X).1.dataMin[j]? = some mn ∧ (s.fit abs eps X).1.dataMax[j]? = some mx ∧ mn ≠ nan ∧ mx ≠ nan ∧
      (∃ i, i < X.r ∧ X.at' i j = mn) ∧ (∃ i, i < X.r ∧ X.at' i j = mx) ∧ ∀ i, i < X.r → ¬ X.at' i j < mn ∧ ¬ mx < X.at' i j := by
  rw [fit_eq abs eps s X hr (by omega)]
  obtain ⟨a, ⟨i1, l1, b⟩, ⟨i2, l2, c⟩, d, e⟩ := minmax_loop X j (X.r - 1) h0
  refine ⟨(colMinMax X j).1, (colMinMax X j).2, ?_, ?_, d, e, ⟨i1, by omega, b⟩, ⟨i2, by omega, c⟩, fun i hi => a i (by omega)⟩
  · simp [hj]
  · simp [hj]

/-- **C301**, negation: NaN in the first row of a column of the training data makes the whole column NaN in every later `Transform`, for every other value of it. -/
theorem missing_first_row (abs : F64 → F64) (eps : F64) (s : MinMax F64) (X Y Z : Mat F64) (hr : X.r ≠ 0) (j : Nat) (hj : j < X.c)
    (h0 : X.at' 0 j = nan) (h : (s.fit abs eps X).1.transform Y = .ok Z) (i : Nat) (hi : i < Y.r) : Z.at' i j = nan := by
  rw [fit_eq abs eps s X hr (by omega)] at h
  unfold MinMax.transform at h
  have hcY : Y.c = X.c := by
    by_contra hne
    rw [if_neg (by simp), if_pos hne] at h
    exact absurd h (by simp [Outcome.recovered])
  rw [if_neg (by simp), if_neg (by simpa using hcY), if_neg (by simp [hcY]), newDense, if_neg (by omega)] at h
  rw [← Outcome.ok.inj h]
  show (_ - _) / _ * _ + _ = nan
  have e : (((List.range X.c).map (colMinMax X)).map Prod.fst).getD j 0 = nan := by
    simp [hj, minmax_nan X j h0]
  rw [e, sub_nan, nan_div, nan_mul, nan_add]

/-- **C301**, negation, continued: the same rows in another order: with NaN in the last row 1.5 is scaled to 0.5, with NaN in the first row to NaN. -/
theorem order_of_rows :
    let f (rows : List F64) := (((MinMax.new (0 : F64) 1).fit F64.abs (F64.round (1 / 100000000)) ⟨3, 1, fun i _ => rows.getD i 0⟩).1.transform
      ⟨1, 1, fun _ _ => F64.round (3 / 2)⟩).map (fun Z => Z.at' 0 0)
    f [1, F64.round 2, nan] = .ok (F64.round (1 / 2)) ∧ f [nan, 1, F64.round 2] = .ok nan := by
  exact ⟨by decide +kernel, by decide +kernel⟩

end Scigo.NonFinite
