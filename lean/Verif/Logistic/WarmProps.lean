import Verif.Logistic.SettingsProps

/-!
# C280: warm start of `LogisticRegression`

Law-free throughout.
-/

set_option linter.unusedSectionVars false

namespace Scigo.Logistic

open Scigo.Online

variable {α : Type} [Zero α] [One α] [Add α] [Sub α] [Neg α] [Mul α] [Div α] [LT α] [LE α] [DecidableLT α] [DecidableLE α] [BEq α]

/-- the regularisation is admissible for the default solver -/
def LbfgsOk (m : LR α) : Prop := m.solver = "lbfgs" ∧ (m.penalty = "l2" ∧ (m.C == 0) = false ∨ m.penalty = "none")

theorem LbfgsOk.lambda {m : LR α} (h : LbfgsOk m) : ∃ la, m.lambda = some la := by
  unfold LR.lambda
  rcases h.2 with ⟨h1, h2⟩ | h1
  · exact ⟨1 / m.C, by rw [if_pos h1, if_neg (by rw [h2]; exact Bool.false_ne_true)]⟩
  · exact ⟨0, by rw [if_neg (by rw [h1]; decide)]⟩

theorem LbfgsOk.penaltyOk {m : LR α} (h : LbfgsOk m) : m.penaltyOk = true := by
  unfold LR.penaltyOk
  rcases h.2 with ⟨h1, -⟩ | h1 <;> rw [h1, h.1] <;> decide

/-- settings, weights and intercepts are the same -/
def SameWeights (m m' : LR α) : Prop := m'.coef = m.coef ∧ m'.intercept = m.intercept ∧ m'.fitIntercept = m.fitIntercept ∧ m'.solver = m.solver ∧
  m'.penalty = m.penalty ∧ m'.C = m.C

theorem copyInto_self {β : Type} (w l : List β) (h : l.length = w.length) : copyInto w l = l := by
  unfold copyInto
  rw [List.take_of_length_le (by omega), List.drop_eq_nil_of_le (by omega), List.append_nil]

theorem copyInto_zeros (w : List α) (n : Nat) (h : w.length = n) : copyInto (List.replicate n (0 : α)) w = w :=
  copyInto_self _ _ (by rw [List.length_replicate]; exact h)

theorem set_same {β : Type} (l : List β) (i : Nat) (x : β) (h : l[i]? = some x) : l.set i x = l := by
  obtain ⟨h1, h2⟩ := List.getElem?_eq_some_iff.1 h
  rw [← h2]
  exact List.set_getElem_self h1

/-- one problem, with an optimiser that stays where it starts -/
theorem fitLBFGS_stay (N : Num α) (eps : α) (mini : Minimizer α) (hstay : ∀ f g x, ∃ n, mini f g x = .ok ⟨x, n⟩) (m : LR α) (hok : LbfgsOk m) (X : Mat α)
    (yb : Nat → α) (idx : Nat) (w : List α) (b : α) (hw : (m.coef.getD [])[idx]? = some w) (hb : m.intercept[idx]? = some b) (hl : w.length = X.c) :
    ∃ m', m.fitLBFGS N eps mini X yb idx (w ++ if m.fitIntercept then [b] else []) = (m', .ok ()) ∧ SameWeights m m' := by
  obtain ⟨la, hla⟩ := hok.lambda
  have hc : ∃ W, m.coef = some W := by
    cases h : m.coef with
    | none => rw [h] at hw; simp at hw
    | some W => exact ⟨W, rfl⟩
  obtain ⟨W, hW⟩ := hc
  unfold LR.fitLBFGS
  rw [hw, hb, hla]
  dsimp only
  obtain ⟨n, hn⟩ := hstay (objFunc N eps la m.fitIntercept X yb) (objGrad N la m.fitIntercept X yb) (w ++ if m.fitIntercept then [b] else [])
  rw [hn]
  refine ⟨_, rfl, ?_, ?_, rfl, rfl, rfl, rfl⟩
  · show some ((m.coef.getD []).set idx _) = m.coef
    dsimp only
    rw [List.take_append_of_le_length (by omega), List.take_of_length_le (by omega), copyInto_self _ _ rfl, set_same _ _ _ hw, hW]
    rfl
  · show m.intercept.set idx _ = m.intercept
    dsimp only
    have : (if m.fitIntercept = true then (w ++ if m.fitIntercept = true then [b] else []).getD X.c 0 else b) = b := by
      by_cases hf : m.fitIntercept = true
      · rw [if_pos hf, if_pos hf, ← hl]
        simp
      · rw [if_neg hf]
    rw [this]
    exact set_same _ _ _ hb

theorem fitOvr_stay (N : Num α) (eps : α) (mini : Minimizer α) (hstay : ∀ f g x, ∃ n, mini f g x = .ok ⟨x, n⟩) (toInt : α → Int) (X y : Mat α) (k : Nat)
    (l : List (Int × Nat)) (hl : ∀ p ∈ l, p.2 < k) (m : LR α) (hok : LbfgsOk m) (h : Ready k X.c m) :
    ∃ m', LR.fitOvr N eps mini toInt X y l m = (m', .ok ()) ∧ SameWeights m m' := by
  induction l generalizing m with
  | nil => exact ⟨m, rfl, rfl, rfl, rfl, rfl, rfl, rfl⟩
  | cons p l ih =>
    obtain ⟨cls, idx⟩ := p
    have hi : idx < k := hl (cls, idx) (by simp)
    obtain ⟨h1, W, hW, h2, h3⟩ := id h
    have hw : (m.coef.getD [])[idx]? = some W[idx] := by
      rw [hW, Option.getD_some]; exact List.getElem?_eq_getElem (by omega)
    have hb : m.intercept[idx]? = some m.intercept[idx] := List.getElem?_eq_getElem (by omega)
    have hwl : W[idx].length = X.c := h3 _ (List.getElem_mem _)
    obtain ⟨m', e, s1, s2, s3, s4, s5, s6⟩ := fitLBFGS_stay N eps mini hstay m hok X (binaryLabels toInt y cls) idx _ _ hw hb hwl
    have hst : m.startOvr X.c idx = W[idx] ++ if m.fitIntercept then [m.intercept[idx]] else [] := by
      unfold LR.startOvr
      rw [hW, Option.getD_some, List.getD_eq_getElem _ _ (by omega), copyInto_zeros _ _ hwl, List.getD_eq_getElem _ _ (by omega)]
    have e' : m.fitOne N eps mini X (binaryLabels toInt y cls) idx (m.startOvr X.c idx) = (m', .ok ()) := by
      unfold LR.fitOne
      rw [if_pos hok.1, hst]
      exact e
    simp only [LR.fitOvr, e']
    obtain ⟨m2, e2, t1, t2, t3, t4, t5, t6⟩ := ih (fun p hp => hl p (by simp [hp])) m' ⟨by rw [s4]; exact hok.1, by rw [s5, s6]; exact hok.2⟩
      ⟨by rw [s2]; exact h1, W, by rw [s1]; exact hW, h2, h3⟩
    exact ⟨m2, e2, t1.trans s1, t2.trans s2, t3.trans s3, t4.trans s4, t5.trans s5, t6.trans s6⟩

/-- **C280** (partial): with warm start and the default solver, `Fit` on data with the number of columns and of classes of the last `Fit` hands the weights and intercepts of
the last `Fit` to the optimiser: one that stays where it starts leaves them as they were. Missing: data of another shape (`warm_more_features_panics`,
`warm_more_classes_panics`). -/
theorem warm_start_resumes_partial (N : Num α) (eps : α) (mini : Minimizer α) (hstay : ∀ f g x, ∃ n, mini f g x = .ok ⟨x, n⟩) (toInt : α → Int)
    (iter : List Int → List Int) (init : Nat → Nat → List (List α)) (m : LR α) (hws : m.warmStart = true) (hok : LbfgsOk m) (X y : Mat α)
    (hr : X.r = y.r) (hc : y.c = 1) (hmu : m.multiClass = "multinomial" → (extractClasses toInt iter y).length = 2)
    (h : Ready (if (extractClasses toInt iter y).length = 2 then 1 else (extractClasses toInt iter y).length) X.c m) :
    ∃ m', m.fit N eps mini toInt iter init X y = (m', .ok ()) ∧ m'.fitted = true ∧ m'.coef = m.coef ∧ m'.intercept = m.intercept := by
  obtain ⟨h1, W, hW, h2, h3⟩ := id h
  have hbeg : m.begin toInt iter init X y = { m with classes := extractClasses toInt iter y, nFeatures := X.c } := by
    unfold LR.begin
    dsimp only
    rw [if_neg (by rw [hws, hW]; exact Bool.false_ne_true)]
  unfold LR.fit
  rw [if_neg (not_not.2 hr), if_neg (not_not.2 hc), hbeg]
  set m0 : LR α := { m with classes := extractClasses toInt iter y, nFeatures := X.c } with hm0
  have hok0 : LbfgsOk m0 := hok
  have key : ∃ m', m0.fitClasses N eps mini toInt X y = (m', .ok ()) ∧ SameWeights m0 m' := by
    unfold LR.fitClasses
    by_cases h2c : m0.classes.length = 2
    · have h2c' : (extractClasses toInt iter y).length = 2 := h2c
      rw [if_pos h2c', ] at h1 h2
      rw [if_pos h2c, hok0.penaltyOk, if_neg (by decide)]
      unfold LR.fitOne
      rw [if_pos hok0.1]
      have hw : (m0.coef.getD [])[0]? = some W[0] := by
        show (m.coef.getD [])[0]? = _
        rw [hW, Option.getD_some]; exact List.getElem?_eq_getElem (by omega)
      have hb : m0.intercept[0]? = some m.intercept[0] := List.getElem?_eq_getElem (show 0 < m.intercept.length by omega)
      have hwl : W[0].length = X.c := h3 _ (List.getElem_mem _)
      have hst : m0.start X.c = W[0] ++ if m0.fitIntercept then [m.intercept[0]] else [] := by
        unfold LR.start
        dsimp only
        have e1 : (m0.coef.getD []).getD 0 [] = W[0] := by
          show (m.coef.getD []).getD 0 [] = _
          rw [hW, Option.getD_some, List.getD_eq_getElem _ _ (by omega)]
        have e2 : m0.intercept.getD 0 0 = m.intercept[0] := List.getD_eq_getElem _ _ (show 0 < m.intercept.length by omega)
        rw [e1, e2, if_pos (by rw [show m0.warmStart = true from hws, hwl]; simp)]
      rw [hst]
      exact fitLBFGS_stay N eps mini hstay m0 hok0 X _ 0 _ _ hw hb hwl
    · have h2c' : ¬ (extractClasses toInt iter y).length = 2 := h2c
      rw [if_neg h2c'] at h
      rw [if_neg h2c, if_neg (fun hh => h2c' (hmu hh.1)), hok0.penaltyOk, if_neg (by decide)]
      refine fitOvr_stay N eps mini hstay toInt X y _ _ (fun p hp => ?_) m0 hok0 h
      have := List.mem_zipIdx hp
      have hl : m0.classes.length = (extractClasses toInt iter y).length := rfl
      omega
  obtain ⟨m', e, s1, s2, -⟩ := key
  rw [e]
  exact ⟨_, rfl, rfl, s1, s2⟩

/-- **C280**: one class among several starts from its old weights, cut to the number of columns or filled up with zeros, and from its old intercept -/
theorem warm_start_of_class (m : LR α) (nF idx : Nat) (W : List (List α)) (w : List α) (b : α) (hW : m.coef = some W) (hw : W[idx]? = some w)
    (hb : m.intercept[idx]? = some b) :
    m.startOvr nF idx = (List.range nF).map (fun j => w.getD j 0) ++ if m.fitIntercept then [b] else [] := by
  unfold LR.startOvr
  rw [hW, Option.getD_some, List.getD_eq_getElem?_getD, hw, List.getD_eq_getElem?_getD, hb, Option.getD_some, Option.getD_some]
  congr 1
  apply List.ext_getElem?
  intro j
  unfold copyInto
  rw [List.getElem?_append, List.getElem?_map]
  by_cases hj : j < nF
  · rw [List.getElem?_range hj, Option.map_some]
    by_cases hjw : j < w.length
    · rw [if_pos (by simp; omega), List.getElem?_take, if_pos (by simpa using hj), List.getD_eq_getElem _ _ hjw, List.getElem?_eq_getElem hjw]
    · rw [if_neg (by simp; omega), List.getD_eq_default _ _ (by omega), List.getElem?_drop, List.getElem?_replicate, if_pos (by simp; omega)]
  · rw [List.getElem?_eq_none (l := List.range nF) (by simpa using hj), Option.map_none]
    split
    · rename_i h
      simp at h
      omega
    · rw [List.getElem?_drop, List.getElem?_replicate, if_neg]
      simp
      omega

/-- **C280** is false: a model with warm start, fitted on two classes, is fitted again on data with more columns. Whatever the optimiser returns, `Fit` succeeds, and then every
`Predict` and `PredictProba` on data of that width panics: the coefficients keep their old length. -/
theorem warm_more_features_panics (N : Num α) (eps : α) (mini : Minimizer α) (hmini : ∀ f g x, ∃ r, mini f g x = .ok r) (toInt : α → Int)
    (iter : List Int → List Int) (init : Nat → Nat → List (List α)) (m : LR α) (hws : m.warmStart = true) (hok : LbfgsOk m) (w : List α) (b : α)
    (hW : m.coef = some [w]) (hb : m.intercept = [b]) (X y : Mat α) (hr : X.r = y.r) (hc : y.c = 1) (h2 : (extractClasses toInt iter y).length = 2)
    (hmore : w.length < X.c) :
    ∃ m', m.fit N eps mini toInt iter init X y = (m', .ok ()) ∧ m'.fitted = true ∧ ∀ (ofInt : Int → α) (lowest : α) (Q : Mat α), Q.r ≠ 0 → Q.c = X.c →
      m'.predict N ofInt lowest Q = .panic "index out of range" ∧ m'.predictProba N lowest Q = .panic "index out of range" := by
  have hbeg : m.begin toInt iter init X y = { m with classes := extractClasses toInt iter y, nFeatures := X.c } := by
    unfold LR.begin
    dsimp only
    rw [if_neg (by rw [hws, hW]; exact Bool.false_ne_true)]
  unfold LR.fit
  rw [if_neg (not_not.2 hr), if_neg (not_not.2 hc), hbeg]
  set m0 : LR α := { m with classes := extractClasses toInt iter y, nFeatures := X.c } with hm0
  have hok0 : LbfgsOk m0 := hok
  obtain ⟨la, hla⟩ := hok0.lambda
  have key : ∃ w' b' n, w'.length = w.length ∧ m0.fitClasses N eps mini toInt X y = (m0.store 0 w' b' n, .ok ()) := by
    unfold LR.fitClasses
    rw [if_pos (show m0.classes.length = 2 from h2), hok0.penaltyOk, if_neg (by decide)]
    unfold LR.fitOne
    rw [if_pos hok0.1]
    unfold LR.fitLBFGS
    have e1 : (m0.coef.getD [])[0]? = some w := by
      show (m.coef.getD [])[0]? = _
      rw [hW]; rfl
    have e2 : m0.intercept[0]? = some b := by
      show m.intercept[0]? = _
      rw [hb]; rfl
    rw [e1, e2, hla]
    dsimp only
    obtain ⟨r, hr⟩ := hmini (objFunc N eps la m0.fitIntercept X (binaryLabels toInt y (m0.classes.getD 1 0)))
      (objGrad N la m0.fitIntercept X (binaryLabels toInt y (m0.classes.getD 1 0))) (m0.start X.c)
    rw [hr]
    exact ⟨_, _, _, copyInto_len _ _, rfl⟩
  obtain ⟨w', b', n, hl, e⟩ := key
  rw [e]
  refine ⟨_, rfl, rfl, fun ofInt lowest Q hq hqc => ?_⟩
  have hg : ∀ {β : Type} (k : Outcome β), LR.guarded { m0.store 0 w' b' n with fitted := true } Q k = .panic "index out of range" := by
    intro β k
    unfold LR.guarded
    dsimp only
    have hcls : (m0.store 0 w' b' n).classes = extractClasses toInt iter y := rfl
    have hnf : (m0.store 0 w' b' n).nFeatures = X.c := rfl
    have hcoef : (m0.store 0 w' b' n).coef = some [w'] := by
      show some ((m.coef.getD []).set 0 w') = _
      rw [hW]; rfl
    have hint : (m0.store 0 w' b' n).intercept = [b'] := by
      show m.intercept.set 0 b' = _
      rw [hb]; rfl
    rw [hcls, hnf, hcoef, hint, if_neg (by decide), if_neg (by
      rintro (h | h)
      · exact hq h
      · rw [h] at h2; cases h2), if_neg (by omega), if_pos]
    right; right
    rw [if_pos h2]
    simp [hl, hmore]
  exact ⟨hg _, hg _⟩

/-- **C280** is false: the same with more than two classes: `Fit` itself panics -/
theorem warm_more_classes_panics (N : Num α) (eps : α) (mini : Minimizer α) (hmini : ∀ f g x, ∃ r, mini f g x = .ok r) (toInt : α → Int)
    (iter : List Int → List Int) (init : Nat → Nat → List (List α)) (m : LR α) (hws : m.warmStart = true) (hok : LbfgsOk m) (hmu : m.multiClass ≠ "multinomial")
    (w : List α) (b : α) (hW : m.coef = some [w]) (hb : m.intercept = [b]) (X y : Mat α) (hr : X.r = y.r) (hc : y.c = 1)
    (h3 : 2 < (extractClasses toInt iter y).length) :
    (m.fit N eps mini toInt iter init X y).2 = .panic "index out of range" := by
  have hbeg : m.begin toInt iter init X y = { m with classes := extractClasses toInt iter y, nFeatures := X.c } := by
    unfold LR.begin
    dsimp only
    rw [if_neg (by rw [hws, hW]; exact Bool.false_ne_true)]
  unfold LR.fit
  rw [if_neg (not_not.2 hr), if_neg (not_not.2 hc), hbeg]
  set m0 : LR α := { m with classes := extractClasses toInt iter y, nFeatures := X.c } with hm0
  have hok0 : LbfgsOk m0 := hok
  obtain ⟨la, hla⟩ := hok0.lambda
  have key : ∃ m', m0.fitClasses N eps mini toInt X y = (m', .panic "index out of range") := by
    unfold LR.fitClasses
    rw [if_neg (show ¬ (extractClasses toInt iter y).length = 2 by omega), if_neg (fun hh => hmu hh.1), hok0.penaltyOk, if_neg (by decide)]
    obtain ⟨c0, c1, rest, hcs⟩ : ∃ c0 c1 rest, m0.classes = c0 :: c1 :: rest := by
      match hm : m0.classes with
      | [] => rw [show m0.classes = extractClasses toInt iter y from rfl] at hm; rw [hm] at h3; cases h3
      | [_] => rw [show m0.classes = extractClasses toInt iter y from rfl] at hm; rw [hm] at h3; simp at h3
      | c0 :: c1 :: rest => exact ⟨c0, c1, rest, rfl⟩
    rw [hcs]
    simp only [List.zipIdx_cons]
    have e0 : ∃ m1, m0.fitOne N eps mini X (binaryLabels toInt y c0) 0 (m0.startOvr X.c 0) = (m1, .ok ()) ∧ (∃ w', m1.coef = some [w']) ∧ m1.solver = "lbfgs" := by
      unfold LR.fitOne
      rw [if_pos hok0.1]
      unfold LR.fitLBFGS
      have e1 : (m0.coef.getD [])[0]? = some w := by
        show (m.coef.getD [])[0]? = _
        rw [hW]; rfl
      have e2 : m0.intercept[0]? = some b := by
        show m.intercept[0]? = _
        rw [hb]; rfl
      rw [e1, e2, hla]
      dsimp only
      obtain ⟨r, hr⟩ := hmini (objFunc N eps la m0.fitIntercept X (binaryLabels toInt y c0)) (objGrad N la m0.fitIntercept X (binaryLabels toInt y c0))
        (m0.startOvr X.c 0)
      rw [hr]
      refine ⟨_, rfl, ⟨copyInto w (r.x.take X.c), ?_⟩, hok0.1⟩
      show some ((m.coef.getD []).set 0 _) = _
      rw [hW]; rfl
    obtain ⟨m1, e1, ⟨w', hw'⟩, hs1⟩ := e0
    have e2 : m1.fitOne N eps mini X (binaryLabels toInt y c1) (0 + 1) (m1.startOvr X.c (0 + 1)) = (m1, .panic "index out of range") := by
      unfold LR.fitOne
      rw [if_pos hs1]
      unfold LR.fitLBFGS
      rw [hw']
      rfl
    simp only [LR.fitOvr, e1, e2]
    exact ⟨_, rfl⟩
  obtain ⟨m', e⟩ := key
  rw [e]

/-- a model fitted on two classes and one column, warm start on -/
noncomputable def exWarm : LR ℝ := { exBin with warmStart := true }

/-- its data again, and data with another column -/
example : LbfgsOk exWarm ∧ exWarm.warmStart = true ∧ Ready 1 1 exWarm ∧ exWarm.coef = some [[1]] ∧ exWarm.intercept = [0] := by
  refine ⟨⟨rfl, Or.inl ⟨rfl, ?_⟩⟩, rfl, ⟨rfl, [[1]], rfl, rfl, by simp⟩, rfl, rfl⟩
  show ((1 : ℝ) == 0) = false
  simp

end Scigo.Logistic
