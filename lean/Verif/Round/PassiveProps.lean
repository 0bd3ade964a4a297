import Verif.Round.ProbaProps
import Verif.Online.SessionMore

/-!
# C327: a passive-aggressive step in `float64`

The exact theory (C45) says what the step minimises.  Here is what of it holds for the numbers the code computes, whatever the rounding: a sample predicted within `epsilon` changes nothing,
and otherwise every weight, the intercept and the prediction for the sample move towards the target, or stay.
-/

set_option linter.unusedSectionVars false

namespace Scigo.Round

open Scigo.Online

variable {K : Type} [Field K] [LinearOrder K] [IsStrictOrderedRing K] {R : Rounding K}

/-! ## Specification -/

/-- no weight moves away from where a positive step along `x` leads (cf. sklearn/linear_model/passive_aggressive.go:294-302) -/
def MovesAlong (x w w' : List (Fl R)) : Prop :=
  w'.length = w.length ∧ ∀ i, (0 ≤ x.getD i 0 → w.getD i 0 ≤ w'.getD i 0) ∧ (x.getD i 0 ≤ 0 → w'.getD i 0 ≤ w.getD i 0)

/-! ## Helpers -/

theorem MovesAlong.refl (x w : List (Fl R)) : MovesAlong x w w := ⟨rfl, fun _ => ⟨fun _ => le_rfl, fun _ => le_rfl⟩⟩

theorem addScaled_getD (w x : List (Fl R)) (tau : Fl R) (i : Nat) :
    (addScaled w x tau).getD i 0 = if i < w.length ∧ i < x.length then w.getD i 0 + tau * x.getD i 0 else w.getD i 0 := by
  unfold addScaled
  by_cases h : i < w.length
  · simp [List.getD_eq_getElem?_getD, h]
  · simp [List.getD_eq_getElem?_getD, h]

theorem addScaled_moves (w x : List (Fl R)) (tau : Fl R) (h : 0 ≤ tau) : MovesAlong x w (addScaled w x tau) ∧ MovesAlong x (addScaled w x (-tau)) w := by
  have h' : (0 : K) ≤ tau.val := h
  refine ⟨⟨by simp [addScaled], fun i => ?_⟩, ⟨by simp [addScaled], fun i => ?_⟩⟩ <;> rw [addScaled_getD]
  · split
    · constructor
      · intro hx
        exact Fl.le_add_right' (Fl.mul_nonneg' h hx)
      · intro hx
        have hx' : (x.getD i 0).val ≤ 0 := hx
        have : tau * x.getD i 0 ≤ 0 := R.nonpos (mul_nonpos_of_nonneg_of_nonpos h' hx')
        calc w.getD i 0 + tau * x.getD i 0 ≤ w.getD i 0 + 0 := R.mono (add_le_add le_rfl this)
          _ = _ := Fl.add_zero' _
    · exact ⟨fun _ => le_rfl, fun _ => le_rfl⟩
  · have hn : (-tau).val ≤ 0 := by rw [Fl.val_neg]; linarith
    split
    · constructor
      · intro hx
        have hx' : 0 ≤ (x.getD i 0).val := hx
        have : -tau * x.getD i 0 ≤ 0 := R.nonpos (mul_nonpos_of_nonpos_of_nonneg hn hx')
        calc w.getD i 0 + -tau * x.getD i 0 ≤ w.getD i 0 + 0 := R.mono (add_le_add le_rfl this)
          _ = _ := Fl.add_zero' _
      · intro hx
        have hx' : (x.getD i 0).val ≤ 0 := hx
        exact Fl.le_add_right' (R.nonneg (mul_nonneg_of_nonpos_of_nonpos hn hx'))
    · exact ⟨fun _ => le_rfl, fun _ => le_rfl⟩

theorem score_moves (x w w' : List (Fl R)) (b b' : Fl R) (hb : b ≤ b') (h : MovesAlong x w w') : score w b x ≤ score w' b' x := by
  have key : ∀ (l : List Nat) (a a' : Fl R), a ≤ a' → l.foldl (fun s i => s + w.getD i 0 * x.getD i 0) a ≤ l.foldl (fun s i => s + w'.getD i 0 * x.getD i 0) a' := by
    intro l
    induction l with
    | nil => exact fun _ _ h => h
    | cons i l ih =>
      intro a a' ha
      refine ih _ _ (R.mono (add_le_add ha ?_))
      refine R.mono ?_
      rcases le_total 0 (x.getD i 0) with hx | hx
      · exact mul_le_mul_of_nonneg_right ((h.2 i).1 hx) hx
      · exact mul_le_mul_of_nonpos_right ((h.2 i).2 hx) hx
  exact key _ _ _ hb

theorem one_nonneg' : (0 : Fl R) ≤ 1 := by
  show (0 : Fl R).val ≤ (1 : Fl R).val
  rw [Fl.val_zero, Fl.val_one]
  exact zero_le_one

theorem paDen_nonneg (N : Num (Fl R)) (h2 : 0 ≤ N.two) (C : Fl R) (hC : 0 ≤ C) (x : List (Fl R)) : 0 ≤ dotSelf x + 1 / (N.two * C) :=
  Fl.add_nonneg' (sumOver_nonneg x (fun v => v * v) fun v _ => Fl.mul_self_nonneg' v) (Fl.div_nonneg' one_nonneg' (Fl.mul_nonneg' h2 hC))

/-- the step length is `tau` or `-tau` for a `tau` that is not negative, by the side on which the target is; it is 0 inside the tube -/
theorem paTau_cases (N : Num (Fl R)) (h2 : 0 ≤ N.two) (loss : String) (C eps : Fl R) (hC : 0 ≤ C) (x : List (Fl R)) (p y : Fl R) :
    (N.abs (y - p) ≤ eps → paTau N loss C eps x p y = 0) ∧ ∃ tau : Fl R, 0 ≤ tau ∧ ((p ≤ y ∧ paTau N loss C eps x p y = tau) ∨ (y < p ∧ paTau N loss C eps x p y = -tau)) := by
  have hden := paDen_nonneg N h2 C hC x
  have neg0 : (0 : Fl R) = -0 := Fl.ext (by simp)
  have hd0 : N.abs (y - p) ≤ eps → ¬ 0 < N.abs (y - p) - eps := by
    intro h
    refine not_lt.2 ?_
    have h' : (N.abs (y - p)).val ≤ eps.val := h
    exact R.nonpos (sub_nonpos.2 h')
  constructor
  · intro h
    unfold paTau
    simp only [if_neg (not_lt.2 h), if_neg (hd0 h), lt_irrefl, if_false, ite_self]
  · unfold paTau
    by_cases hl : loss = "squared_epsilon_insensitive"
    · simp only [if_pos hl]
      by_cases hd : eps < N.abs (y - p)
      · simp only [if_pos hd]
        refine ⟨_, Fl.div_nonneg' (Fl.sub_nonneg' hd.le) hden, ?_⟩
        by_cases hy : y < p
        · exact Or.inr ⟨hy, if_pos hy⟩
        · exact Or.inl ⟨not_lt.1 hy, if_neg hy⟩
      · simp only [if_neg hd]
        refine ⟨0, le_rfl, ?_⟩
        rcases lt_or_ge y p with hy | hy
        · exact Or.inr ⟨hy, neg0⟩
        · exact Or.inl ⟨hy, rfl⟩
    · simp only [if_neg hl]
      by_cases hd : 0 < N.abs (y - p) - eps
      · simp only [if_pos hd]
        refine ⟨_, Fl.div_nonneg' hd.le hden, ?_⟩
        by_cases hy : y < p
        · exact Or.inr ⟨hy, if_pos hy⟩
        · exact Or.inl ⟨not_lt.1 hy, if_neg hy⟩
      · simp only [if_neg hd, lt_irrefl, if_false]
        refine ⟨0, le_rfl, ?_⟩
        rcases lt_or_ge y p with hy | hy
        · exact Or.inr ⟨hy, neg0⟩
        · exact Or.inl ⟨hy, rfl⟩

/-! ## The regressor -/

/-- **C327.** One training step of `PassiveAggressiveRegressor`, for every rounding: a sample whose computed residual is at most `epsilon` leaves weights and intercept unchanged; otherwise the weights
and the intercept move, if at all, in the direction that moves the prediction towards the target, and so does the computed prediction for the sample itself. -/
theorem pa_step_float (N : Num (Fl R)) (h2 : 0 ≤ N.two) (m : PA (Fl R)) (hC : 0 ≤ m.C) (w x : List (Fl R)) (hw : m.coef = some w) (hx : x.length ≤ w.length) (y : Fl R) :
    ∃ m' w', m.updateWeights N x y = some m' ∧ m'.coef = some w' ∧
      (N.abs (y - score w m.intercept x) ≤ m.epsilon → w' = w ∧ m'.intercept = m.intercept) ∧
      (score w m.intercept x ≤ y → MovesAlong x w w' ∧ m.intercept ≤ m'.intercept ∧ score w m.intercept x ≤ score w' m'.intercept x) ∧
      (y < score w m.intercept x → MovesAlong x w' w ∧ m'.intercept ≤ m.intercept ∧ score w' m'.intercept x ≤ score w m.intercept x) := by
  obtain ⟨hz, tau, t0, ht⟩ := paTau_cases N h2 m.loss m.C m.epsilon hC x (score w m.intercept x) y
  unfold PA.updateWeights
  simp only [hw, Option.getD_some, if_neg (not_lt.2 hx)]
  generalize hT : paTau N m.loss m.C m.epsilon x (score w m.intercept x) y = T at *
  by_cases hT0 : (T == 0) = true
  · refine ⟨{ m with t := m.t + 1 }, w, by rw [if_pos hT0, hw], hw, fun _ => ⟨rfl, rfl⟩, fun _ => ⟨.refl x w, le_rfl, le_rfl⟩, fun _ => ⟨.refl x w, le_rfl, le_rfl⟩⟩
  · refine ⟨_, addScaled w x T, by rw [if_neg hT0], rfl, fun h => absurd (beq_iff_eq.2 (hz h)) hT0, fun h => ?_, fun h => ?_⟩
    · rcases ht with ⟨_, rfl⟩ | ⟨hlt, _⟩
      · have hm := (addScaled_moves w x T t0).1
        have hb : m.intercept ≤ if m.fitIntercept then m.intercept + T else m.intercept := by
          split
          · exact Fl.le_add_right' t0
          · exact le_rfl
        exact ⟨hm, hb, score_moves _ _ _ _ _ hb hm⟩
      · exact absurd h (not_le.2 hlt)
    · rcases ht with ⟨hle, _⟩ | ⟨_, rfl⟩
      · exact absurd h (not_lt.2 hle)
      · have hm := (addScaled_moves w x tau t0).2
        have hb : (if m.fitIntercept then m.intercept + -tau else m.intercept) ≤ m.intercept := by
          split
          · have hn : -tau ≤ 0 := by
              have t0' : (0 : K) ≤ tau.val := t0
              show (-tau).val ≤ 0
              rw [Fl.val_neg]; linarith
            calc m.intercept + -tau ≤ m.intercept + 0 := R.mono (add_le_add le_rfl hn)
              _ = _ := Fl.add_zero' _
          · exact le_rfl
        exact ⟨hm, hb, score_moves _ _ _ _ _ hb hm⟩

/-! ## The classifier -/

theorem predRow_eq_score (w : List (Fl R)) (b : Fl R) (X : Mat (Fl R)) (i : Nat) : predRow w b X i = score w b (X.row i) := by
  have hl : (X.row i).length = X.c := by simp [Mat.row]
  unfold predRow score
  rw [hl]
  refine List.foldl_ext _ _ _ fun s j hj => ?_
  rw [Fl.mul_comm', show (X.row i).getD j 0 = X.at' i j by simp [Mat.row, List.getD_eq_getElem?_getD, List.mem_range.1 hj]]

theorem paClfTau_sign (N : Num (Fl R)) (h2 : 0 ≤ N.two) (C : Fl R) (hC : 0 ≤ C) (x : List (Fl R)) (s : Fl R) (c k : Nat) :
    ∃ tau : Fl R, 0 ≤ tau ∧ ((c = k → paClfTau N C (target c k) s x = tau) ∧ (c ≠ k → paClfTau N C (target c k) s x = -tau)) := by
  have hden := paDen_nonneg N h2 C hC x
  have neg0 : (0 : Fl R) = -0 := Fl.ext (by simp)
  unfold paClfTau
  by_cases h : (target c k : Fl R) * s < 1
  · refine ⟨(1 - target c k * s) / (dotSelf x + 1 / (N.two * C)), Fl.div_nonneg' (Fl.sub_nonneg' h.le) hden, fun e => ?_, fun e => ?_⟩
    · rw [if_pos h]
      nth_rewrite 2 [show (target c k : Fl R) = 1 from if_pos e]
      exact Fl.mul_one' _
    · rw [if_pos h]
      nth_rewrite 2 [show (target c k : Fl R) = -1 from if_neg e]
      generalize (1 - target c k * s) / (dotSelf x + 1 / (N.two * C)) = q
      refine Fl.ext ?_
      rw [Fl.val_mul, Fl.val_neg, Fl.val_neg, Fl.val_one, mul_neg, mul_one, R.neg, q.rep]
  · exact ⟨0, le_rfl, fun _ => if_neg h, fun _ => by rw [if_neg h]; exact neg0⟩

/-- **C327.** One training step of `PassiveAggressiveClassifier` on row `i` with a known label, for every rounding: the computed score of the class of the label does not fall, that of every other class
does not rise. -/
theorem paClf_step_float (N : Num (Fl R)) (h2 : 0 ≤ N.two) (m m' : PAClf (Fl R)) (hC : 0 ≤ m.C) (X : Mat (Fl R)) (i : Nat) (label : Int) (k : Nat)
    (hk : m.classes.idxOf? label = some k) (hu : m.updateWeights N (X.row i) label = some m') :
    m'.classes = m.classes ∧ ∀ c < m.classes.length,
      (c = k → (m.scores X i).getD c 0 ≤ (m'.scores X i).getD c 0) ∧ (c ≠ k → (m'.scores X i).getD c 0 ≤ (m.scores X i).getD c 0) := by
  unfold PAClf.updateWeights at hu
  simp only [hk] at hu
  split at hu
  · cases hu
  · have hm := (Option.some.inj hu).symm
    have hcl : m'.classes = m.classes := by rw [hm]
    refine ⟨hcl, fun c hc => ?_⟩
    have hs : ∀ q : PAClf (Fl R), q.classes = m.classes → (q.scores X i).getD c 0 = score ((q.coef.getD []).getD c []) (q.intercept.getD c 0) (X.row i) := by
      intro q hq
      unfold PAClf.scores
      rw [hq]
      simp [List.getD_eq_getElem?_getD, hc, predRow_eq_score]
    rw [hs m rfl, hs m' hcl]
    obtain ⟨tau, t0, ht1, ht2⟩ := paClfTau_sign N h2 m.C hC (X.row i) (score ((m.coef.getD []).getD c []) (m.intercept.getD c 0) (X.row i)) c k
    have hw' : (m'.coef.getD []).getD c [] = (if paClfTau N m.C (target c k) (score ((m.coef.getD []).getD c []) (m.intercept.getD c 0) (X.row i)) (X.row i) == 0 then (m.coef.getD []).getD c []
        else addScaled ((m.coef.getD []).getD c []) (X.row i) (paClfTau N m.C (target c k) (score ((m.coef.getD []).getD c []) (m.intercept.getD c 0) (X.row i)) (X.row i))) := by
      rw [hm]
      simp [List.getD_eq_getElem?_getD, hc]
    have hb' : m'.intercept.getD c 0 = (if paClfTau N m.C (target c k) (score ((m.coef.getD []).getD c []) (m.intercept.getD c 0) (X.row i)) (X.row i) == 0 then m.intercept.getD c 0
        else if m.fitIntercept then m.intercept.getD c 0 + paClfTau N m.C (target c k) (score ((m.coef.getD []).getD c []) (m.intercept.getD c 0) (X.row i)) (X.row i)
        else m.intercept.getD c 0) := by
      rw [hm]
      simp [List.getD_eq_getElem?_getD, hc]
    rw [hw', hb']
    generalize (m.coef.getD []).getD c [] = w at *
    generalize m.intercept.getD c 0 = b at *
    generalize paClfTau N m.C (target c k) (score w b (X.row i)) (X.row i) = T at *
    constructor
    · intro e
      rw [ht1 e]
      split
      · exact le_rfl
      · refine score_moves _ _ _ _ _ ?_ (addScaled_moves w (X.row i) tau t0).1
        split
        · exact Fl.le_add_right' t0
        · exact le_rfl
    · intro e
      rw [ht2 e]
      split
      · exact le_rfl
      · refine score_moves _ _ _ _ _ ?_ (addScaled_moves w (X.row i) tau t0).2
        split
        · have hn : -tau ≤ 0 := by
            have t0' : (0 : K) ≤ tau.val := t0
            show (-tau).val ≤ 0
            rw [Fl.val_neg]; linarith
          calc b + -tau ≤ b + 0 := R.mono (add_le_add le_rfl hn)
            _ = _ := Fl.add_zero' _
        · exact le_rfl

/-- **C327.** A row that is predicted right is still predicted right after a training step on it, in `float64` as in every other rounding. -/
theorem paClf_right_stays (N : Num (Fl R)) (h2 : 0 ≤ N.two) (m m' : PAClf (Fl R)) (hC : 0 ≤ m.C) (X : Mat (Fl R)) (i : Nat) (label : Int) (hnd : m.classes.Nodup) (hne : m.classes ≠ [])
    (hu : m.updateWeights N (X.row i) label = some m') (ninf : Fl R) (hi : ∀ s ∈ m.scores X i, ninf < s) (hi' : ∀ s ∈ m'.scores X i, ninf < s)
    (hr : argmaxClass ninf m.classes (m.scores X i) = label) : argmaxClass ninf m'.classes (m'.scores X i) = label := by
  obtain ⟨c, s, hc1, hc2, hc3⟩ := argmaxClass_first ninf m.classes (m.scores X i) (by simp [PAClf.scores]) hne hi
  rw [hr] at hc2
  obtain ⟨hcl, heq⟩ := List.getElem?_eq_some_iff.1 hc2
  have hk : m.classes.idxOf? label = some c := by
    rw [List.idxOf?_eq_some_iff]
    refine ⟨hcl, heq, fun j hj e => ?_⟩
    have := (List.Nodup.getElem_inj_iff hnd).1 (e.trans heq.symm)
    omega
  obtain ⟨hcls, hsc⟩ := paClf_step_float N h2 m m' hC X i label c hk hu
  have hlen : (m'.scores X i).length = m.classes.length := by simp [PAClf.scores, hcls]
  have hlen0 : (m.scores X i).length = m.classes.length := by simp [PAClf.scores]
  obtain ⟨c', s', h1, h2', h3⟩ := argmaxClass_first ninf m'.classes (m'.scores X i) (by rw [hlen, hcls]) (by rw [hcls]; exact hne) hi'
  rw [hcls] at h2' ⊢
  have hc'l : c' < m.classes.length := (List.getElem?_eq_some_iff.1 h2').1
  suffices h : c' = c by
    rw [h, hc2] at h2'
    exact (Option.some.inj h2').symm
  by_contra hcc
  have e0 : ∀ j < m.classes.length, (m.scores X i)[j]? = some ((m.scores X i).getD j 0) := fun j hj => by
    rw [List.getElem?_eq_getElem (by omega), List.getD_eq_getElem _ _ (by omega)]
  have e1 : ∀ j < m.classes.length, (m'.scores X i)[j]? = some ((m'.scores X i).getD j 0) := fun j hj => by
    rw [List.getElem?_eq_getElem (by omega), List.getD_eq_getElem _ _ (by omega)]
  have es : s = (m.scores X i).getD c 0 := Option.some.inj (hc1.symm.trans (e0 c hcl))
  have es' : s' = (m'.scores X i).getD c' 0 := Option.some.inj (h1.symm.trans (e1 c' hc'l))
  obtain ⟨o1, o2⟩ := hc3 c' _ (e0 c' hc'l)
  obtain ⟨n1, n2⟩ := h3 c _ (e1 c hcl)
  have r1 := (hsc c hcl).1 rfl
  have r2 := (hsc c' hc'l).2 hcc
  rw [es] at o1 o2
  rw [es'] at n1 n2
  rcases lt_or_gt_of_ne hcc with h | h
  · exact absurd (lt_of_le_of_lt r2 (lt_of_lt_of_le (o2 h) (r1.trans n1))) (lt_irrefl _)
  · exact absurd (lt_of_lt_of_le (n2 h) (r2.trans (o1.trans r1))) (lt_irrefl _)

/-! ## Examples -/

/-- a regressor with weights 1 and -1 (sklearn/linear_model/passive_aggressive.go:16-46) -/
def exPA : PA (Fl Binary64.rounding) := ⟨1, "epsilon_insensitive", Binary64.lit (1 / 10), true, false, 10, some [1, Binary64.lit (-1)], 0, 2, 0, 0, true⟩

/-- a classifier with two classes that predicts the second one for positive features (sklearn/linear_model/passive_aggressive.go:50-81) -/
def exPAClf : PAClf (Fl Binary64.rounding) := ⟨1, "hinge", true, false, 10, some [[0], [Binary64.lit (1 / 10)]], [0, 0], [4, 7], 1, 0, 0, true⟩

/-- the target 30 is above the prediction 3: both weights move, the second down as its feature is negative -/
example : (exPA.updateWeights exNum [1, Binary64.lit (-2)] (Binary64.lit 30)).map (fun m => (m.coef.map fun w => (decide (1 < w.getD 0 0), decide (w.getD 1 0 < Binary64.lit (-1))), decide (0 < m.intercept))) =
    some (some (true, true), true) := by decide +kernel

/-- the hypotheses of `paClf_right_stays` are met, and the step changes the weights -/
example : exPAClf.classes.Nodup ∧ argmaxClass (Binary64.lit (-1000)) exPAClf.classes (exPAClf.scores exRow 0) = 7 ∧
    (exPAClf.updateWeights exNum (exRow.row 0) 7).map (fun m => (decide (m.coef = exPAClf.coef), argmaxClass (Binary64.lit (-1000)) m.classes (m.scores exRow 0),
      (m.scores exRow 0).all fun s => decide (Binary64.lit (-1000) < s))) = some (false, 7, true) := by
  refine ⟨by decide, by decide +kernel, by decide +kernel⟩

end Scigo.Round
