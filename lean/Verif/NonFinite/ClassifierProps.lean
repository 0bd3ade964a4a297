import Verif.NonFinite.OnlineProps

/-!
# C304, C305: a sample with a missing value and the online classifiers
-/

namespace Scigo.NonFinite

open Scigo.Online F64

/-- weight `j` of every class is NaN (the field `coef_`, sklearn/linear_model/sgd_classifier.go:42-46) -/
def ClfDead (j : Nat) (m : Clf F64) : Prop :=
  j < m.nFeatures ∧ ∃ W, m.coef = some W ∧ ∀ c, c < m.classes.length → (W.getD c []).length = m.nFeatures ∧ (W.getD c []).getD j 0 = nan

/-- there are weights for every class and feature (`initializeWeights`, sklearn/linear_model/sgd_classifier.go:795-810) -/
def Shaped (m : Clf F64) : Prop := ∃ W, m.coef = some W ∧ W.length = m.classes.length ∧ ∀ w ∈ W, w.length = m.nFeatures

theorem range_getD {β : Type _} (n : Nat) (f : Nat → β) (d : β) (c : Nat) (hc : c < n) : ((List.range n).map f).getD c d = f c := by
  rw [List.getD_eq_getElem?_getD, List.getElem?_map, List.getElem?_range hc]
  rfl

theorem shaped_row (m : Clf F64) (W : List (List F64)) (hn : W.length = m.classes.length) (hW : ∀ w ∈ W, w.length = m.nFeatures) (c : Nat)
    (hc : c < m.classes.length) : (W.getD c []).length = m.nFeatures := by
  rw [List.getD_eq_getElem?_getD, List.getElem?_eq_getElem (by omega), Option.getD_some]
  exact hW _ (List.getElem_mem _)

/-- a step on a row with a missing value, or with missing weights, makes or leaves the weights missing -/
theorem clf_update (N : Num F64) (m : Clf F64) (hs : Shaped m) (j : Nat) (hj : j < m.nFeatures) (x : List F64) (hx : x.length = m.nFeatures) (label : Int)
    (h : ClfDead j m ∨ label ∈ m.classes ∧ x.getD j 0 = nan) :
    ∃ m' l, m.updateWeights N x label = some (m', l) ∧ Shaped m' ∧ ClfDead j m' ∧ m'.nFeatures = m.nFeatures ∧ m'.classes = m.classes := by
  obtain ⟨W, hW, hn, hlen⟩ := hs
  unfold Clf.updateWeights
  cases hk : m.classes.idxOf? label with
  | none =>
    rcases h with h | h
    · exact ⟨m, 0, rfl, ⟨W, hW, hn, hlen⟩, h, rfl, rfl⟩
    · exact absurd h.1 (by simpa using hk)
  | some k =>
    dsimp only
    rw [hW, Option.getD_some, if_neg ?_]
    · refine ⟨_, _, rfl, ⟨_, rfl, by simp, ?_⟩, ⟨hj, _, rfl, fun c hc => ?_⟩, rfl, rfl⟩
      · intro w hw
        obtain ⟨c, hc, rfl⟩ := List.mem_map.1 hw
        unfold clfStep
        rw [List.length_map, List.length_range]
        exact shaped_row m W hn hlen c (List.mem_range.1 hc)
      · have hc' : c < m.classes.length := hc
        rw [range_getD _ _ _ _ hc']
        have hrow := shaped_row m W hn hlen c hc'
        unfold clfStep
        refine ⟨by rw [List.length_map, List.length_range]; exact hrow, ?_⟩
        rw [range_getD _ _ _ _ (by omega), if_pos (by omega)]
        rcases h with ⟨-, W', hW', h⟩ | h
        · rw [hW'] at hW
          rw [← Option.some.inj hW, (h c hc').2, nan_sub]
        · rw [h.2, mul_nan, penalty_nan, mul_nan, sub_nan]
    · rw [List.any_eq_true]
      rintro ⟨w, hw, h⟩
      have := hlen w hw
      have := of_decide_eq_true h
      omega

theorem clf_train (N : Num F64) (toInt : F64 → Int) (X y : Mat F64) (j : Nat) (is : List Nat) (m : Clf F64) (hs : Shaped m) (h : ClfDead j m) (hc : X.c = m.nFeatures)
    (acc : F64) : let r := (Clf.trainRows N toInt X y is m acc).1
    Shaped r ∧ ClfDead j r ∧ r.nFeatures = m.nFeatures ∧ r.classes = m.classes := by
  induction is generalizing m acc with
  | nil => exact ⟨hs, h, rfl, rfl⟩
  | cons i is ih =>
    unfold Clf.trainRows
    split
    · exact ⟨hs, h, rfl, rfl⟩
    · rename_i yi _
      obtain ⟨m', l, e, h1, h2, h3, h4⟩ := clf_update N m hs j h.1 (X.row i) (by rw [← hc]; simp [Mat.row]) (toInt yi) (Or.inl h)
      rw [e]
      obtain ⟨a, b, c, d⟩ := ih m' h1 h2 (by rw [hc, h3]) (acc + l)
      exact ⟨a, b, c.trans h3, d.trans h4⟩

theorem clf_partialFit (N : Num F64) (toInt : F64 → Int) (iter : List Int → List Int) (init : Nat → Nat → List (List F64)) (j : Nat) (m : Clf F64)
    (hs : Shaped m) (h : ClfDead j m) (X y : Mat F64) (cl : Option (List Int)) :
    let r := (m.partialFit N toInt iter init X y cl).1
    Shaped r ∧ ClfDead j r ∧ r.nFeatures = m.nFeatures ∧ r.classes = m.classes := by
  have hb : m.begin toInt iter init X y cl = m := by
    obtain ⟨W, hW, -⟩ := hs
    unfold Clf.begin
    rw [hW]
  unfold Clf.partialFit
  rw [hb]
  dsimp only
  split
  · exact ⟨hs, h, rfl, rfl⟩
  · rename_i hc
    have := clf_train N toInt X y j (List.range X.r) m hs h (not_not.1 hc) 0
    revert this
    generalize Clf.trainRows N toInt X y (List.range X.r) m 0 = r
    obtain ⟨m', l, b⟩ := r
    cases b <;> exact fun h => h

theorem argmax_nan (cls : List Int) (sc : List F64) (h : ∀ s ∈ sc, s = nan) : argmaxClass (.inf true) cls sc = cls.headD 0 := by
  have : ∀ (l : List (F64 × Int)) (b : F64 × Int), (∀ p ∈ l, p.1 = nan) → l.foldl (fun best p => if best.1 < p.1 then p else best) b = b := by
    intro l
    induction l with
    | nil => exact fun b _ => rfl
    | cons p l ih =>
      intro b hl
      rw [List.foldl_cons, hl p (by simp), if_neg (not_lt_nan _)]
      exact ih b (fun q hq => hl q (by simp [hq]))
  unfold argmaxClass
  rw [this _ _ (fun p hp => h _ (List.of_mem_zip hp).1)]

/-- **C305**, negation: one sample of a known class with a feature NaN spoils an `SGDClassifier` for ever, with every loss and penalty: after the batch it starts and any
further batches, `DecisionFunction` is NaN for every sample and class and `Predict` returns the first class for every sample. -/
theorem missing_feature_spoils_classifier (N : Num F64) (toInt : F64 → Int) (iter : List Int → List Int) (init : Nat → Nat → List (List F64)) (ofInt : Int → F64)
    (m : Clf F64) (hs : Shaped m) (X y : Mat F64) (cl : Option (List Int)) (hr : 0 < X.r) (hc : X.c = m.nFeatures) (hy : 0 < y.r ∧ 0 < y.c)
    (hy0 : toInt (y.at' 0 0) ∈ m.classes) (j : Nat) (hj : j < X.c) (hx : X.at' 0 j = nan) (later : List (Mat F64 × Mat F64)) (P Z : Mat F64) (i : Nat) :
    let m' := later.foldl (fun m b => (m.partialFit N toInt iter init b.1 b.2 cl).1) (m.partialFit N toInt iter init X y cl).1
    (m'.predict ofInt (.inf true) P = .ok Z → Z.at' i 0 = ofInt (m.classes.headD 0)) ∧
    (m'.decisionFunction P = .ok Z → ∀ c, c < m.classes.length → Z.at' i c = nan) := by
  have h1 : let r := (m.partialFit N toInt iter init X y cl).1
      Shaped r ∧ ClfDead j r ∧ r.nFeatures = m.nFeatures ∧ r.classes = m.classes := by
    have hb : m.begin toInt iter init X y cl = m := by
      obtain ⟨W, hW, -⟩ := hs
      unfold Clf.begin
      rw [hW]
    unfold Clf.partialFit
    rw [hb]
    dsimp only
    rw [if_neg (not_not.2 hc)]
    have hxr : (X.row 0).getD j 0 = nan := by
      unfold Mat.row
      rw [range_getD _ _ _ _ hj, hx]
    obtain ⟨m', l, e, a1, a2, a3, a4⟩ := clf_update N m hs j (by omega) (X.row 0) (by rw [← hc]; simp [Mat.row]) (toInt (y.at' 0 0)) (Or.inr ⟨hy0, hxr⟩)
    have ht : let r := (Clf.trainRows N toInt X y (List.range X.r) m 0).1
        Shaped r ∧ ClfDead j r ∧ r.nFeatures = m.nFeatures ∧ r.classes = m.classes := by
      obtain ⟨n, hn'⟩ : ∃ n, X.r = n + 1 := ⟨X.r - 1, by omega⟩
      rw [hn', List.range_succ_eq_map]
      unfold Clf.trainRows
      have hlab : labelAt y 0 = some (y.at' 0 0) := by
        unfold labelAt
        rw [if_pos hy]
      rw [hlab]
      dsimp only
      rw [e]
      obtain ⟨b1, b2, b3, b4⟩ := clf_train N toInt X y j ((List.range n).map Nat.succ) m' a1 a2 (by rw [a3, hc]) (0 + l)
      exact ⟨b1, b2, b3.trans a3, b4.trans a4⟩
    revert ht
    generalize Clf.trainRows N toInt X y (List.range X.r) m 0 = r
    obtain ⟨m', l, b⟩ := r
    cases b <;> exact fun h => h
  have h2 : ∀ (bs : List (Mat F64 × Mat F64)) (m : Clf F64), Shaped m → ClfDead j m →
      let r := bs.foldl (fun m b => (m.partialFit N toInt iter init b.1 b.2 cl).1) m
      Shaped r ∧ ClfDead j r ∧ r.nFeatures = m.nFeatures ∧ r.classes = m.classes := by
    intro bs
    induction bs with
    | nil => exact fun m h h' => ⟨h, h', rfl, rfl⟩
    | cons b bs ih =>
      intro m h h'
      obtain ⟨a1, a2, a3, a4⟩ := clf_partialFit N toInt iter init j m h h' b.1 b.2 cl
      obtain ⟨b1, b2, b3, b4⟩ := ih _ a1 a2
      exact ⟨b1, b2, b3.trans a3, b4.trans a4⟩
  obtain ⟨a1, a2, a3, a4⟩ := h1
  obtain ⟨b1, b2, b3, b4⟩ := h2 later _ a1 a2
  intro m'
  have hcl : m'.classes = m.classes := b4.trans a4
  have hsc : P.c = m'.nFeatures → ∀ s ∈ m'.scores P i, s = nan := by
    intro hP s hsm
    obtain ⟨c, hcm, rfl⟩ := List.mem_map.1 hsm
    obtain ⟨-, W, hW, hd⟩ := b2
    have hW' : m'.coef = some W := hW
    rw [hW', Option.getD_some]
    unfold predRow
    apply foldl_step_nan
    refine Or.inr ⟨j, List.mem_range.2 ?_, by rw [(hd c (List.mem_range.1 hcm)).2, mul_nan]⟩
    rw [hP, show m'.nFeatures = m.nFeatures from b3.trans a3, ← hc]
    exact hj
  constructor
  · intro hp
    unfold Clf.predict checked at hp
    split at hp
    · cases hp
    · split at hp
      · cases hp
      · rename_i hPc
        split at hp
        · cases hp
        · split at hp
          · cases hp
          · split at hp
            · cases hp
            · rw [← Outcome.ok.inj hp]
              show ofInt (argmaxClass _ m'.classes (m'.scores P i)) = _
              rw [argmax_nan _ _ (hsc (not_not.1 hPc)), hcl]
  · intro hp c hcm
    unfold Clf.decisionFunction checked at hp
    split at hp
    · cases hp
    · split at hp
      · cases hp
      · rename_i hPc
        split at hp
        · cases hp
        · split at hp
          · cases hp
          · split at hp
            · cases hp
            · rw [← Outcome.ok.inj hp]
              show (m'.scores P i).getD c 0 = nan
              apply hsc (not_not.1 hPc)
              have : c < (m'.scores P i).length := by
                unfold Clf.scores
                rw [List.length_map, List.length_range, hcl]
                exact hcm
              rw [getD_lt _ _ this]
              exact List.getElem_mem _

/-- **C305** (partial): a sample of an unknown class is not used at all, whatever its features. Missing: samples of a known class
(`missing_feature_spoils_classifier`). -/
theorem unknown_class_partial (N : Num F64) (m : Clf F64) (x : List F64) (label : Int) (h : label ∉ m.classes) : m.updateWeights N x label = some (m, 0) := by
  unfold Clf.updateWeights
  rw [List.idxOf?_eq_none_iff.2 h]

/-- **C304**: a sample with a feature NaN changes neither weights nor intercepts of a `PassiveAggressiveClassifier`. -/
theorem passive_classifier_ignores_missing (N : Num F64) (m : PAClf F64) (W : List (List F64)) (hW : m.coef = some W) (hn : W.length = m.classes.length)
    (hi : m.intercept.length = m.classes.length) (hlen : ∀ w ∈ W, w.length = m.nFeatures) (x : List F64) (hx : x.length = m.nFeatures) (hnan : nan ∈ x) (label : Int) :
    m.updateWeights N x label = some { m with t := m.t + if label ∈ m.classes then 1 else 0 } := by
  obtain ⟨j, hj, e⟩ := List.mem_iff_getElem.1 hnan
  unfold PAClf.updateWeights
  cases hk : m.classes.idxOf? label with
  | none =>
    rw [if_neg (List.idxOf?_eq_none_iff.1 hk)]
    rfl
  | some k =>
    have hmem : label ∈ m.classes := by
      by_contra h
      rw [List.idxOf?_eq_none_iff.2 h] at hk
      cases hk
    dsimp only
    rw [hW, Option.getD_some, if_neg ?_, if_pos hmem]
    · have ht : ∀ c, paClfTau N m.C (target c k) (score (W.getD c []) (m.intercept.getD c 0) x) x = 0 := by
        intro c
        unfold paClfTau
        rw [score_nan _ _ x (Or.inr ⟨j, hj, Or.inr (by rw [getD_lt _ _ hj, e])⟩), mul_nan, if_neg (not_nan_lt _)]
      have hb : ((0 : F64) == 0) = true := by decide +kernel
      simp only [ht, hb, if_true]
      have h1 : (List.range m.classes.length).map (fun c => W.getD c []) = W := by
        apply List.ext_getElem
        · simp [hn]
        · intro c h1 h2
          rw [List.getElem_map, List.getElem_range, List.getD_eq_getElem?_getD, List.getElem?_eq_getElem h2, Option.getD_some]
      have h2 : (List.range m.classes.length).map (fun c => m.intercept.getD c 0) = m.intercept := by
        apply List.ext_getElem
        · simp [hi]
        · intro c h1 h2
          rw [List.getElem_map, List.getElem_range, List.getD_eq_getElem?_getD, List.getElem?_eq_getElem h2, Option.getD_some]
      rw [h1, h2, ← hW]
    · rw [List.any_eq_true]
      rintro ⟨w, hw, h⟩
      have := hlen w hw
      have := of_decide_eq_true h
      omega

/-- a classifier with two classes and two features (sklearn/linear_model/sgd_classifier.go:19-60) -/
def clf64 : Clf F64 :=
  ⟨⟨"hinge", "l2", "constant", 0, 0, 0, 0, 0, true, false, false, 1⟩, F64.round (1 / 100), some [[1, 0], [0, 1]], [0, 0], [3, 7], 2, 0, 0, [], false, true⟩

example : Shaped clf64 := ⟨_, rfl, rfl, by decide⟩

/-- the classifier assigned `(0, 1)` to class 7, and does not after the sample `(1, NaN)` of class 3 -/
example : (clf64.predict (fun n => F64.round n) (.inf true) ⟨1, 2, fun _ j => if j = 1 then 1 else 0⟩).map (fun Z => Z.at' 0 0) = .ok (F64.round 7) ∧
    ((clf64.partialFit num64 (fun _ => 3) id (fun _ _ => []) ⟨1, 2, fun _ j => if j = 1 then nan else 1⟩ ⟨1, 1, fun _ _ => F64.round 3⟩ none).1.predict
      (fun n => F64.round n) (.inf true) ⟨1, 2, fun _ j => if j = 1 then 1 else 0⟩).map (fun Z => Z.at' 0 0) = .ok (F64.round 3) := by
  decide +kernel

/-- a missing feature does not change a `PassiveAggressiveClassifier`, another sample of the same class does -/
example :
    let m : PAClf F64 := ⟨1, "hinge", true, false, 1, some [[0, 0], [0, 0]], [0, 0], [3, 7], 2, 0, 0, true⟩
    (m.updateWeights num64 [1, nan] 3).map (fun m => (m.coef, m.intercept, m.t)) = some (some [[0, 0], [0, 0]], [0, 0], 1) ∧
    (m.updateWeights num64 [1, 1] 3).map (fun m => m.coef == some [[0, 0], [0, 0]]) = some false := by
  decide +kernel

end Scigo.NonFinite
