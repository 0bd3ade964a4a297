import Verif.Round.ProbaProps
import Verif.Online.SessionMore

/-!
# C328: the predicted class is a most probable one, in `float64`

In exact arithmetic `Predict` and `PredictProba` of the linear classifiers agree (C46, C87).  Here for the rounded numbers they return, with any exponential that is monotone.
-/

set_option linter.unusedSectionVars false

namespace Scigo.Round

open Scigo.Online Scigo.Logistic

variable {K : Type} [Field K] [LinearOrder K] [IsStrictOrderedRing K] {R : Rounding K}

/-! ## Specification -/

/-- the label is that of a class `c` of the list, and no class has a larger number in the row `p` than `c` (cf. sklearn/linear_model/logistic.go:766-863) -/
def LabelOfMost (ofInt : Int → Fl R) (classes : List Int) (label : Fl R) (p : Nat → Fl R) : Prop :=
  ∃ c < classes.length, label = ofInt (classes.getD c 0) ∧ ∀ c' < classes.length, p c' ≤ p c

/-! ## Helpers -/

theorem scaled_mono {a b t : Fl R} (h : a ≤ b) (ht : 0 ≤ t) : a / t ≤ b / t := by
  have h' : a.val ≤ b.val := h
  have ht' : 0 ≤ t.val := ht
  exact R.mono (div_le_div_of_nonneg_right h' ht')

theorem argmax_most (ofInt : Int → Fl R) (ninf : Fl R) (classes : List Int) (hne : classes ≠ []) (s : Nat → Fl R) (hi : ∀ c < classes.length, ninf < s c) (p : Nat → Fl R)
    (hp : ∀ c < classes.length, ∀ c' < classes.length, s c' ≤ s c → p c' ≤ p c) :
    LabelOfMost ofInt classes (ofInt (argmaxClass ninf classes ((List.range classes.length).map s))) p := by
  obtain ⟨c, v, h1, h2, h3⟩ := argmaxClass_first ninf classes ((List.range classes.length).map s) (by simp) hne (by
    intro x hx
    obtain ⟨c, hc, rfl⟩ := List.mem_map.1 hx
    exact hi c (List.mem_range.1 hc))
  obtain ⟨hc, he⟩ := List.getElem?_eq_some_iff.1 h2
  refine ⟨c, hc, ?_, fun c' hc' => hp c hc c' hc' ?_⟩
  · rw [List.getD_eq_getElem _ _ hc, he]
  · have e : ((List.range classes.length).map s)[c]? = some (s c) := by simp [hc]
    have e' : ((List.range classes.length).map s)[c']? = some (s c') := by simp [hc']
    have hv : v = s c := Option.some.inj (h1.symm.trans e)
    exact hv ▸ (h3 c' _ e').1

theorem guarded_value {β : Type _} (m : LR (Fl R)) (X : Mat (Fl R)) (v w : β) (h : m.guarded X (.ok v) = .ok w) : w = v ∧ m.classes ≠ [] := by
  unfold LR.guarded at h
  generalize (if m.classes.length = 2 then 1 else m.classes.length) = n at h
  dsimp only at h
  split at h
  · cases h
  split at h
  · cases h
  rename_i h2
  split at h
  · cases h
  split at h
  · cases h
  exact ⟨(Outcome.ok.inj h).symm, fun e => h2 (Or.inr e)⟩

/-! ## Logistic regression -/

/-- **C328.** A larger score never gives a smaller probability of the second class, in any rounding. -/
theorem lr_proba_monotone (N : Num (Fl R)) (hp : ∀ x, 0 ≤ N.exp x) (hm : Monotone N.exp) (z z' : Fl R) (h : z ≤ z') : sigmoid N z ≤ sigmoid N z' := by
  have hneg : -z' ≤ -z := by
    have h' : z.val ≤ z'.val := h
    show (-z').val ≤ (-z).val
    rw [Fl.val_neg, Fl.val_neg]
    exact neg_le_neg h'
  have he : (N.exp (-z')).val ≤ (N.exp (-z)).val := hm hneg
  have hden : (1 + N.exp (-z')).val ≤ (1 + N.exp (-z)).val := R.mono (add_le_add le_rfl he)
  have h1 : (1 : Fl R) ≤ 1 + N.exp (-z') := Fl.le_add_right' (hp _)
  have h1' : 1 ≤ (1 + N.exp (-z')).val := by
    have : (1 : Fl R).val ≤ (1 + N.exp (-z')).val := h1
    rwa [Fl.val_one] at this
  unfold sigmoid
  refine R.mono ?_
  rw [Fl.val_one]
  exact one_div_le_one_div_of_le (by linarith) hden

/-- **C328.** The label that `Predict` of a logistic regression returns belongs to a class whose probability, as `PredictProba` returns it, is the greatest of the row. -/
theorem lr_label_most_probable (N : Num (Fl R)) (hp : ∀ x, 0 ≤ N.exp x) (hm : Monotone N.exp) (hh : 1 - N.half = N.half) (ofInt : Int → Fl R) (lowest : Fl R) (m : LR (Fl R))
    (X L P : Mat (Fl R)) (hL : m.predict N ofInt lowest X = .ok L) (hP : m.predictProba N lowest X = .ok P) (i : Nat) (hlow : ∀ c < m.classes.length, lowest < m.scoreAt X i c) :
    LabelOfMost ofInt m.classes (L.at' i 0) (P.at' i) := by
  obtain ⟨eL, hne⟩ := guarded_value m X _ _ hL
  obtain ⟨eP, -⟩ := guarded_value m X _ _ hP
  rw [eL, eP]
  by_cases hlen : m.classes.length = 2
  · simp only [if_pos hlen]
    generalize sigmoid N (m.scoreAt X i 0) = p
    by_cases hs : N.half ≤ p
    · have hs' : N.half.val ≤ p.val := hs
      have h0 : 1 - p ≤ p := by
        calc 1 - p ≤ 1 - N.half := R.mono (sub_le_sub_left hs' _)
          _ = N.half := hh
          _ ≤ p := hs
      refine ⟨1, by omega, by rw [if_pos hs], fun c' hc' => ?_⟩
      dsimp only
      split
      · exact h0
      · exact le_rfl
    · have hs' : p.val ≤ N.half.val := (not_le.1 hs).le
      have h0 : p ≤ 1 - p := by
        calc p ≤ N.half := hs'
          _ = 1 - N.half := hh.symm
          _ ≤ 1 - p := R.mono (sub_le_sub_left hs' _)
      refine ⟨0, by omega, by rw [if_neg hs], fun c' hc' => ?_⟩
      dsimp only
      split
      · exact le_rfl
      · exact h0
  · simp only [if_neg hlen]
    unfold LR.bestClass
    refine argmax_most ofInt lowest m.classes hne _ hlow _ fun c hc c' hc' hle => ?_
    unfold softmaxShift
    dsimp only
    generalize ((List.range m.classes.length).map (m.scoreAt X i)).foldl (fun m s => if m < s then s else m) lowest = mx
    have ht : 0 ≤ sumOver (((List.range m.classes.length).map (m.scoreAt X i)).map fun s => N.exp (s - mx)) id := by
      refine sumOver_nonneg _ _ fun x hx => ?_
      obtain ⟨s, _, rfl⟩ := List.mem_map.1 hx
      exact hp _
    generalize sumOver (((List.range m.classes.length).map (m.scoreAt X i)).map fun s => N.exp (s - mx)) id = t at *
    have e : ∀ k < m.classes.length, ((((List.range m.classes.length).map (m.scoreAt X i)).map fun s => N.exp (s - mx)).map (· / t)).getD k 0 = N.exp (m.scoreAt X i k - mx) / t := by
      intro k hk
      simp [List.getD_eq_getElem?_getD, hk]
    rw [e c hc, e c' hc']
    refine scaled_mono (hm ?_) ht
    have hle' : (m.scoreAt X i c').val ≤ (m.scoreAt X i c).val := hle
    exact R.mono (sub_le_sub_right hle' _)

/-- **C328 (partial: below zero see `lr_negative_score_second_class`).** With two classes, a score that is not negative gives the second class. -/
theorem lr_side_partial (N : Num (Fl R)) (hexp : ExpLike N.exp) (hh : N.half ≤ 1 / (1 + 1)) (z : Fl R) (hz : 0 ≤ z) : N.half ≤ sigmoid N z := by
  refine hh.trans ?_
  have hneg : -z ≤ 0 := by
    have h' : 0 ≤ z.val := hz
    show (-z).val ≤ 0
    rw [Fl.val_neg]
    linarith
  have he : (N.exp (-z)).val ≤ (1 : Fl R).val := hexp.le_one _ hneg
  have hden : (1 + N.exp (-z)).val ≤ (1 + 1 : Fl R).val := R.mono (add_le_add le_rfl he)
  have h1 : (1 : Fl R).val ≤ (1 + N.exp (-z)).val := Fl.le_add_right' (hexp.nonneg _)
  rw [Fl.val_one] at h1
  unfold sigmoid
  refine R.mono ?_
  rw [Fl.val_one]
  exact one_div_le_one_div_of_le (by linarith) hden

/-- **C328, what does not hold.** A negative score next to zero gives the second class as well, namely if the exponential of its negative is 1 (as that of every number below `2^-54` is in `float64`). -/
theorem lr_negative_score_second_class (N : Num (Fl R)) (hh : N.half ≤ 1 / (1 + 1)) (ofInt : Int → Fl R) (lowest : Fl R) (m : LR (Fl R)) (h2 : m.classes.length = 2)
    (X L : Mat (Fl R)) (hL : m.predict N ofInt lowest X = .ok L) (i : Nat) (hz : N.exp (-m.scoreAt X i 0) = 1) : L.at' i 0 = ofInt (m.classes.getD 1 0) := by
  obtain ⟨eL, -⟩ := guarded_value m X _ _ hL
  rw [eL]
  simp only [if_pos h2]
  rw [if_pos]
  unfold sigmoid
  rw [hz]
  exact hh

/-! ## `SGDClassifier` -/

/-- **C328.** The same for `SGDClassifier`. -/
theorem sgd_label_most_probable (exp : Fl R → Fl R) (hp : ∀ x, 0 ≤ exp x) (hm : Monotone exp) (ofInt : Int → Fl R) (ninf : Fl R) (m : Clf (Fl R)) (X L P : Mat (Fl R))
    (hL : m.predict ofInt ninf X = .ok L) (hP : m.predictProba exp X = .ok P) (i : Nat) (hlow : ∀ s ∈ m.scores X i, ninf < s) : LabelOfMost ofInt m.classes (L.at' i 0) (P.at' i) := by
  unfold Clf.predict checked at hL
  unfold Clf.predictProba checked at hP
  split at hL
  · cases hL
  rename_i h1
  rw [if_neg h1] at hP
  split at hL
  · cases hL
  rename_i h2
  rw [if_neg h2] at hP
  split at hL
  · cases hL
  rename_i h3
  rw [if_neg h3] at hP
  split at hL
  · cases hL
  rename_i h4
  rw [if_neg h4] at hP
  split at hL
  · cases hL
  rename_i h5
  rw [if_neg h5] at hP
  rw [← Outcome.ok.inj hL, ← Outcome.ok.inj hP]
  dsimp only
  unfold Clf.scores at *
  refine argmax_most ofInt ninf m.classes h4 _ (fun c hc => hlow _ (List.mem_map.2 ⟨c, List.mem_range.2 hc, rfl⟩)) _ fun c hc c' hc' hle => ?_
  unfold softmaxPlain
  dsimp only
  have ht : 0 ≤ sumOver (((List.range m.classes.length).map fun c => predRow ((m.coef.getD []).getD c []) (m.intercept.getD c 0) X i).map exp) id := by
    refine sumOver_nonneg _ _ fun x hx => ?_
    obtain ⟨s, _, rfl⟩ := List.mem_map.1 hx
    exact hp _
  generalize sumOver (((List.range m.classes.length).map fun c => predRow ((m.coef.getD []).getD c []) (m.intercept.getD c 0) X i).map exp) id = t at *
  have e : ∀ k < m.classes.length, ((((List.range m.classes.length).map fun c => predRow ((m.coef.getD []).getD c []) (m.intercept.getD c 0) X i).map exp).map (· / t)).getD k 0 =
      exp (predRow ((m.coef.getD []).getD k []) (m.intercept.getD k 0) X i) / t := by
    intro k hk
    simp [List.getD_eq_getElem?_getD, hk]
  rw [e c hc, e c' hc']
  exact scaled_mono (hm hle) ht

/-! ## Examples -/

/-- an exponential for the examples that is 1 next to zero, as `math.Exp` is (in place of `math.Exp`, sklearn/linear_model/logistic.go:960) -/
def flatExp (x : Fl Binary64.rounding) : Fl Binary64.rounding :=
  if x < Binary64.lit (-1 / 2 ^ 54) then Binary64.lit (1 / 2) else if x ≤ Binary64.lit (1 / 2 ^ 54) then 1 else Binary64.lit 2

/-- the functions and literals of the examples (sklearn/linear_model/logistic.go:960) -/
def flatNum : Num (Fl Binary64.rounding) := { exNum with exp := flatExp }

/-- a fitted model with two classes and the weight -1 (sklearn/linear_model/logistic.go:26-54) -/
def downLR : LR (Fl Binary64.rounding) :=
  ⟨"l2", 1, true, "lbfgs", 100, "auto", false, Binary64.lit (1 / 10000), some [[Binary64.lit (-1)]], [0], [3, 8], 1, [5], true⟩

theorem flatExp_mono : Monotone flatExp := by
  intro x y h
  unfold flatExp
  by_cases h1 : y < Binary64.lit (-1 / 2 ^ 54)
  · rw [if_pos h1, if_pos (lt_of_le_of_lt h h1)]
  · rw [if_neg h1]
    by_cases h2 : y ≤ Binary64.lit (1 / 2 ^ 54)
    · rw [if_pos h2]
      split
      · decide +kernel
      · rw [if_pos (h.trans h2)]
    · rw [if_neg h2]
      split
      · decide +kernel
      · split
        · decide +kernel
        · exact le_rfl

theorem flatExp_like : ExpLike flatExp := by
  refine ⟨fun x => ?_, by decide +kernel, fun x hx => ?_⟩
  · unfold flatExp
    split
    · decide +kernel
    · split <;> decide +kernel
  · exact (flatExp_mono hx).trans (by decide +kernel)

/-- the hypotheses of `lr_label_most_probable` and `lr_side_partial` are met; `Predict` gives the first class for the row 5 and the second one for the row `2^-60`, although its score is negative -/
example : 1 - flatNum.half = flatNum.half ∧ flatNum.half ≤ 1 / (1 + 1) ∧
    (downLR.predict flatNum (fun k => Binary64.lit k) (Binary64.lit (-1000)) (Mat.ofRows [[Binary64.lit 5], [Binary64.lit (1 / 2 ^ 60)]] 1 0)).map (fun L => (L.at' 0 0, L.at' 1 0)) =
      .ok (Binary64.lit 3, Binary64.lit 8) ∧
    downLR.scoreAt (Mat.ofRows [[Binary64.lit 5], [Binary64.lit (1 / 2 ^ 60)]] 1 0) 1 0 < 0 := by decide +kernel

end Scigo.Round
