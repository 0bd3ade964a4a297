import Verif.Overflow.ProbaProps
import Verif.Round.TreeProps

/-!
# C279: linear predictions in binary64 with overflow; C272: tree thresholds that overflow
-/

namespace Scigo.Overflow

open Scigo.Round

theorem predRow_finite (w : List F64) (b : F64) (X : Mat F64) (i : Nat) (hn : X.c + 1 < 2 ^ 53) (hw : ∀ x ∈ w, Small 485 x) (hb : Small 970 b)
    (hX : ∀ i j, Small 485 (X.at' i j)) : (Linear.predRow w b X i).IsFin := by
  refine score_finite X.c (fun j => w.getD j 0) b X i hn (fun j _ => ?_) hb (fun j _ => hX i j)
  by_cases h : j < w.length
  · rw [List.getD_eq_getElem _ _ h]
    exact hw _ (List.getElem_mem _)
  · rw [List.getD_eq_default _ _ (by omega)]
    exact small_zero _

/-- **C279** (partial): data and coefficients of absolute value at most `2 ^ 485`, an intercept of at most `2 ^ 970` and fewer than `2 ^ 53 - 1` columns: every
prediction of the two linear regressions and of the SGD regressor is a finite number. Missing: larger ones (`linear_not_a_number`). -/
theorem finite_linear_partial (X M : Mat F64) (hn : X.c + 1 < 2 ^ 53) (hX : ∀ i j, Small 485 (X.at' i j)) :
    (∀ m : Linear.LinReg F64, (∀ x ∈ m.weights.getD [], Small 485 x) → Small 970 m.intercept → m.predict X = .ok M → ∀ i < X.r, (M.at' i 0).IsFin) ∧
    (∀ m : Linear.LM F64, (∀ x ∈ m.coef, Small 485 x) → Small 970 m.intercept → m.predict X = .ok M → ∀ i < X.r, (M.at' i 0).IsFin) ∧
    (∀ m : Online.Reg F64, (∀ x ∈ m.coef.getD [], Small 485 x) → Small 970 m.intercept → m.predict X = .ok M → ∀ i < X.r, (M.at' i 0).IsFin) := by
  refine ⟨fun m hw hb hM => ?_, fun m hw hb hM => ?_, fun m hw hb hM => ?_⟩
  · unfold Linear.LinReg.predict Linear.LinReg.predictBody at hM
    split at hM
    · cases hM
    split at hM
    · cases hM
    split at hM
    · cases hM
    split at hM
    · cases hM
    injection hM with hM
    subst hM
    exact fun i hi => predRow_finite (m.weights.getD []) m.intercept X i hn hw hb hX
  · unfold Linear.LM.predict at hM
    split at hM
    · cases hM
    split at hM
    · cases hM
    split at hM
    · cases hM
    split at hM
    · cases hM
    injection hM with hM
    subst hM
    exact fun i hi => predRow_finite m.coef m.intercept X i hn hw hb hX
  · unfold Online.Reg.predict Online.checked at hM
    split at hM
    · cases hM
    split at hM
    · cases hM
    split at hM
    · cases hM
    split at hM
    · cases hM
    injection hM with hM
    subst hM
    exact fun i hi => predRow_finite (m.coef.getD []) m.intercept X i hn hw hb hX

/-- **C279** is false: coefficients `2` and `-2`, both features `2 ^ 1023`, all finite; the prediction would be zero, and NaN is returned without an error -/
theorem linear_not_a_number :
    ((Linear.LinReg.mk (some [F64.round 2, F64.round (-2)]) 0 2 true 10).predict (Mat.ofRows [[F64.round (2 ^ 1023), F64.round (2 ^ 1023)]] 2 0)).map
      (fun M => M.at' 0 0) = .ok .nan := by decide +kernel

/-- the hypotheses for a model with coefficients `1 / 10` and `-10 ^ 100` and a row `3, 10 ^ 20`: it answers, and the prediction is finite -/
example : (∀ x ∈ [F64.round (1 / 10), F64.round (-10 ^ 100)], Small 485 x) ∧
    ((Linear.LinReg.mk (some [F64.round (1 / 10), F64.round (-10 ^ 100)]) 1 2 true 10).predict (Mat.ofRows [[F64.round 3, F64.round (10 ^ 20)]] 2 0)).map
      (fun M => M.at' 0 0 == F64.round (-10 ^ 120)) = .ok true := by
  refine ⟨?_, by decide +kernel⟩
  have h : ∀ x ∈ [Binary64.lit (1 / 10), Binary64.lit (-10 ^ 100)], |x.val| ≤ 2 ^ 485 := by decide +kernel
  intro x hx
  rcases List.mem_cons.1 hx with rfl | hx
  · exact ⟨Binary64.lit (1 / 10), h _ (by simp), by decide +kernel⟩
  · rw [List.mem_singleton] at hx
    subst hx
    exact ⟨Binary64.lit (-10 ^ 100), h _ (by simp), by decide +kernel⟩

/-- two rows with large finite values (the data of a call of sklearn/tree/tree.go:115-155) -/
def exHuge : Mat F64 := Mat.ofRows [[F64.round (2 ^ 1023)], [F64.round (3 * 2 ^ 1022)]] 1 0
/-- two rows with smaller values (the data of a call of sklearn/tree/tree.go:115-155) -/
def exLarge : Mat F64 := Mat.ofRows [[F64.round (2 ^ 1022)], [F64.round (3 * 2 ^ 1021)]] 1 0
/-- labels 0 and 1 (the data of a call of sklearn/tree/tree.go:115-155) -/
def exHugeY : Mat F64 := Mat.ofRows [[0], [1]] 1 0

/-- truncation of the labels of the example (`int(y.At(i, 0))`, sklearn/tree/tree.go:130-135) -/
def exInt : F64 → Int
  | .fin q => q.1.floor
  | _ => 0

/-- **C272** is false also for large values: the sum of `2 ^ 1023` and `3 · 2 ^ 1022` overflows, every row is at most the infinite threshold, and the tree does
not separate the rows; half as large, they are separated. -/
theorem huge_values_not_separated :
    ((Scigo.Tree.Clf.new.fit id exInt stableAsc List.dedup ⟨"gini", 0, 2, 1, 0⟩ 2 exHuge exHugeY).map
      (fun r => (r.1.getNLeaves, r.1.predict exHuge))) = some (1, .ok [0, 0]) ∧
    ((Scigo.Tree.Clf.new.fit id exInt stableAsc List.dedup ⟨"gini", 0, 2, 1, 0⟩ 2 exLarge exHugeY).map
      (fun r => (r.1.getNLeaves, r.1.predict exLarge))) = some (2, .ok [0, 1]) := by
  refine ⟨by decide +kernel, by decide +kernel⟩

end Scigo.Overflow
