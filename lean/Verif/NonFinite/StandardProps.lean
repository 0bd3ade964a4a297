import Verif.NonFinite.OnlineProps
import Verif.Preprocessing.Model

/-!
# C307: a missing value affects only its own row of a StandardScaler
-/

namespace Scigo.NonFinite

open Scigo.Preprocessing F64

theorem range_getD' {β : Type _} (n : Nat) (f : Nat → β) (d : β) (c : Nat) (hc : c < n) : ((List.range n).map f).getD c d = f c := by
  rw [List.getD_eq_getElem?_getD, List.getElem?_map, List.getElem?_range hc]
  rfl

theorem sumTo_nan (n : Nat) (f : Nat → F64) (i : Nat) (hi : i < n) (h : f i = nan) : sumTo n f = nan :=
  foldl_step_nan f (List.range n) 0 (Or.inr ⟨i, List.mem_range.2 hi, h⟩)

/-- the outcome of `Transform` after `Fit`, entry by entry -/
theorem std_transform_eq {α : Type _} [Add α] [Sub α] [Mul α] [Div α] [Zero α] [One α] [NatCast α] [LT α] [DecidableLT α] (sqrt abs : α → α) (eps : α)
    (s : StdScaler α) (X Y Z : Mat α) (hr : X.r ≠ 0) (hc : X.c ≠ 0) (h : (s.fit sqrt abs eps X).1.transform Y = .ok Z) (i j : Nat) (hj : j < X.c) :
    let m := if s.withMean then colMean X j else 0
    Z.at' i j = (Y.at' i j - m) / (if s.withStd then colScale sqrt abs eps X j m else 1) := by
  unfold StdScaler.fit at h
  rw [if_neg (by rintro (h | h) <;> contradiction)] at h
  unfold StdScaler.transform at h
  dsimp only at h
  have hm : (fitMean s.withMean X).getD j 0 = if s.withMean then colMean X j else 0 := range_getD' _ _ _ _ hj
  have hs : (fitScale sqrt abs eps s.withStd X (fitMean s.withMean X)).getD j 0 =
      if s.withStd then colScale sqrt abs eps X j ((fitMean s.withMean X).getD j 0) else 1 := range_getD' _ _ _ _ hj
  have hl1 : (fitMean s.withMean X).length = X.c := by simp [fitMean]
  have hl2 : (fitScale sqrt abs eps s.withStd X (fitMean s.withMean X)).length = X.c := by simp [fitScale]
  rw [if_neg (by simp)] at h
  by_cases hcY : Y.c = X.c
  · rw [if_neg (not_not.2 hcY), if_neg (by rw [hl1, hl2]; omega)] at h
    unfold newDense at h
    split at h
    · cases h
    · rw [← Outcome.ok.inj h]
      dsimp only
      rw [hs, hm]
  · rw [if_pos hcY] at h
    cases h

/-- **C307**, negation: one NaN in a column of the training data, in whatever row, makes the whole column NaN in every later `Transform`, unless the scaler neither
centres nor scales. -/
theorem missing_spoils_column (sqrt abs : F64 → F64) (hs : sqrt nan = nan) (habs : abs nan = nan) (eps : F64) (s : StdScaler F64)
    (hw : s.withMean = true ∨ s.withStd = true) (X Y Z : Mat F64) (i j : Nat) (hi : i < X.r) (hj : j < X.c) (hx : X.at' i j = nan)
    (h : (s.fit sqrt abs eps X).1.transform Y = .ok Z) (k : Nat) : Z.at' k j = nan := by
  rw [std_transform_eq sqrt abs eps s X Y Z (by omega) (by omega) h k j hj]
  by_cases hm : s.withMean = true
  · rw [if_pos hm, colMean, sumTo_nan X.r _ i hi hx, nan_div, sub_nan, nan_div]
  · have hstd := hw.resolve_left hm
    rw [if_pos hstd]
    generalize (if s.withMean = true then colMean X j else 0) = m
    have hd : (X.at' i j - m) * (X.at' i j - m) = nan := by rw [hx, nan_sub, nan_mul]
    unfold colScale
    rw [sumTo_nan X.r _ i hi hd, nan_div, hs]
    dsimp only
    rw [habs, if_neg (not_nan_lt _), div_nan]

/-- **C307** (partial): the other columns are not affected: what `Transform` gives for a column depends only on that column of the training data. Missing: the other rows
of the same column (`missing_spoils_column`). -/
theorem other_columns_partial (sqrt abs : F64 → F64) (eps : F64) (s : StdScaler F64) (X X' Y Z Z' : Mat F64) (hr : X'.r = X.r) (hr0 : X.r ≠ 0) (hc : X'.c = X.c) (j : Nat)
    (hj : j < X.c) (hX : ∀ i < X.r, X.at' i j = X'.at' i j) (h : (s.fit sqrt abs eps X).1.transform Y = .ok Z)
    (h' : (s.fit sqrt abs eps X').1.transform Y = .ok Z') (k : Nat) : Z.at' k j = Z'.at' k j := by
  have e : ∀ f g : Nat → F64, (∀ i < X.r, f i = g i) → sumTo X.r f = sumTo X.r g := by
    intro f g hfg
    unfold sumTo
    refine List.foldl_ext _ _ _ (fun a i hi => ?_)
    rw [hfg i (List.mem_range.1 hi)]
  have e1 : colMean X j = colMean X' j := by
    unfold colMean
    rw [hr, e _ _ hX]
  have e2 : ∀ m, colScale sqrt abs eps X j m = colScale sqrt abs eps X' j m := by
    intro m
    unfold colScale
    rw [hr, e _ (fun i => (X'.at' i j - m) * (X'.at' i j - m)) (fun i hi => by rw [hX i hi])]
  rw [std_transform_eq sqrt abs eps s X Y Z hr0 (by omega) h k j hj, std_transform_eq sqrt abs eps s X' Y Z' (by omega) (by omega) h' k j (by omega), e1]
  simp only [e2]

/-- fitted on `(1, 1)`, `(3, NaN)`, the first column of `(2, 2)` becomes a number, the second NaN -/
example :
    let r := ((StdScaler.new true true).fit id F64.abs (F64.round (1 / 100000000)) ⟨2, 2, fun i j => if j = 0 then (if i = 0 then 1 else F64.round 3) else (if i = 0 then 1 else nan)⟩).1.transform
      (⟨1, 2, fun _ _ => F64.round 2⟩ : Mat F64)
    r.map (fun Z => (Z.at' 0 0, Z.at' 0 1)) = .ok (0, nan) := by
  decide +kernel

end Scigo.NonFinite
