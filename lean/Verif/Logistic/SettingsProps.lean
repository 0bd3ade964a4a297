import Verif.Logistic.FitProps

/-!
# Which settings `LogisticRegression.Fit` accepts

Law-free throughout.
-/

set_option linter.unusedSectionVars false

namespace Scigo.Logistic

open Scigo.Online

variable {α : Type} [Zero α] [One α] [Add α] [Sub α] [Neg α] [Mul α] [Div α] [LT α] [LE α] [DecidableLT α] [DecidableLE α] [BEq α]

/-- weights for `k` problems of width `c` -/
def Ready (k c : Nat) (m : LR α) : Prop :=
  m.intercept.length = k ∧ ∃ W, m.coef = some W ∧ W.length = k ∧ ∀ w ∈ W, w.length = c

theorem gdLoop_len (N : Num α) (l2 : Bool) (C : α) (fi : Bool) (tol : α) (X : Mat α) (yb : Nat → α) (fuel iter : Nat) (w : List α) (b : α) (k : Nat) :
    (gdLoop N l2 C fi tol X yb fuel iter w b k).1.length = w.length := by
  induction fuel generalizing iter w b k with
  | zero => rfl
  | succ n ih =>
    have hl : (gdStep N l2 C fi X yb iter w b).1.length = w.length := by simp [gdStep]
    simp only [gdLoop]
    split
    · exact hl
    · rw [ih]; exact hl

theorem copyInto_len {β : Type} (dst src : List β) : (copyInto dst src).length = dst.length := by
  simp [copyInto]; omega

theorem store_ready (m : LR α) (k c idx : Nat) (h : Ready k c m) (w : List α) (hw : w.length = c) (b : α) (n : Nat) : Ready k c (m.store idx w b n) := by
  obtain ⟨h1, W, hW, h2, h3⟩ := h
  refine ⟨by simpa [LR.store] using h1, W.set idx w, by simp [LR.store, hW], by simpa using h2, fun v hv => ?_⟩
  rcases List.mem_or_eq_of_mem_set hv with hv | rfl
  · exact h3 v hv
  · exact hw

/-- what the solver accepts, given that the optimiser does not fail -/
def Accepts (m : LR α) (nClasses : Nat) : Prop :=
  m.solver = "lbfgs" →
    (m.penalty = "l2" ∧ (m.C == 0) = false ∨ m.penalty = "none") ∧ (m.multiClass = "multinomial" → nClasses = 2)

theorem fitOne_outcome (N : Num α) (eps : α) (mini : Minimizer α) (hmini : ∀ f g x, ∃ r, mini f g x = .ok r) (m : LR α) (X : Mat α) (yb : Nat → α)
    (k idx : Nat) (hi : idx < k) (h : Ready k X.c m) (x0 : List α) :
    ∃ m' o, m.fitOne N eps mini X yb idx x0 = (m', o) ∧ Ready k X.c m' ∧ m'.solver = m.solver ∧ m'.penalty = m.penalty ∧ m'.C = m.C ∧
      (if m.solver = "lbfgs" ∧ m.penalty = "l2" ∧ (m.C == 0) = true then ∃ e, o = .err e else o = .ok ()) := by
  obtain ⟨h1, W, hW, h2, h3⟩ := h
  have hw : W[idx]? = some W[idx] := List.getElem?_eq_getElem (by omega)
  have hb : m.intercept[idx]? = some m.intercept[idx] := List.getElem?_eq_getElem (by omega)
  have hwl : W[idx].length = X.c := h3 _ (List.getElem_mem _)
  unfold LR.fitOne
  by_cases hs : m.solver = "lbfgs"
  · rw [if_pos hs]
    unfold LR.fitLBFGS
    simp only [hW, Option.getD_some, hw, hb]
    unfold LR.lambda
    by_cases hp : m.penalty = "l2"
    · rw [if_pos hp]
      cases hC : (m.C == 0) with
      | true =>
        simp only [if_true]
        refine ⟨m, _, rfl, ⟨h1, W, hW, h2, h3⟩, rfl, rfl, rfl, ?_⟩
        rw [if_pos ⟨hs, hp, trivial⟩]
        exact ⟨_, rfl⟩
      | false =>
        simp only [Bool.false_eq_true, if_false]
        obtain ⟨r, hr⟩ := hmini (objFunc N eps (1 / m.C) m.fitIntercept X yb) (objGrad N (1 / m.C) m.fitIntercept X yb) x0
        rw [hr]
        refine ⟨_, _, rfl, store_ready m k X.c idx ⟨h1, W, hW, h2, h3⟩ _ (by rw [copyInto_len, hwl]) _ _, rfl, rfl, rfl, ?_⟩
        rw [if_neg (fun hh => nomatch hh.2.2)]
    · rw [if_neg hp]
      obtain ⟨r, hr⟩ := hmini (objFunc N eps 0 m.fitIntercept X yb) (objGrad N 0 m.fitIntercept X yb) x0
      simp only [hr]
      refine ⟨_, _, rfl, store_ready m k X.c idx ⟨h1, W, hW, h2, h3⟩ _ (by rw [copyInto_len, hwl]) _ _, rfl, rfl, rfl, ?_⟩
      rw [if_neg (fun hh => hp hh.2.1)]
  · rw [if_neg hs]
    unfold LR.fitGD
    simp only [hW, Option.getD_some, hw, hb]
    rw [if_neg (fun hh => hh.2 hwl)]
    refine ⟨_, _, rfl, store_ready m k X.c idx ⟨h1, W, hW, h2, h3⟩ _ (by rw [gdLoop_len, hwl]) _ _, rfl, rfl, rfl, ?_⟩
    rw [if_neg (fun hh => hs hh.1)]

theorem fitOvr_outcome (N : Num α) (eps : α) (mini : Minimizer α) (hmini : ∀ f g x, ∃ r, mini f g x = .ok r) (toInt : α → Int) (X y : Mat α)
    (k : Nat) (l : List (Int × Nat)) (hl : ∀ p ∈ l, p.2 < k) (m : LR α) (h : Ready k X.c m) :
    ∃ m' o, LR.fitOvr N eps mini toInt X y l m = (m', o) ∧
      (if l ≠ [] ∧ m.solver = "lbfgs" ∧ m.penalty = "l2" ∧ (m.C == 0) = true then ∃ e, o = .err e else o = .ok ()) := by
  induction l generalizing m with
  | nil =>
    refine ⟨m, .ok (), rfl, ?_⟩
    rw [if_neg (fun hh => hh.1 rfl)]
  | cons p l ih =>
    obtain ⟨cls, idx⟩ := p
    obtain ⟨m', o, e, hr, s1, s2, s3, ho⟩ := fitOne_outcome N eps mini hmini m X (binaryLabels toInt y cls) k idx (hl (cls, idx) (by simp)) h (m.startOvr X.c idx)
    simp only [LR.fitOvr, e]
    by_cases hc : m.solver = "lbfgs" ∧ m.penalty = "l2" ∧ (m.C == 0) = true
    · rw [if_pos hc] at ho
      obtain ⟨er, rfl⟩ := ho
      refine ⟨m', _, rfl, ?_⟩
      rw [if_pos ⟨by simp, hc⟩]
      exact ⟨er, rfl⟩
    · rw [if_neg hc] at ho
      subst ho
      obtain ⟨m2, o2, e2, h2⟩ := ih (fun p hp => hl p (by simp [hp])) m' hr
      refine ⟨m2, o2, e2, ?_⟩
      rw [if_neg (fun hh => hc (by rw [← s1, ← s2, ← s3]; exact hh.2))] at h2
      rw [if_neg (fun hh => hc hh.2)]
      exact h2

/-- **C179** Without warm start and with an optimiser that does not fail, `Fit` never panics, and it succeeds exactly if the labels are one column
with one row per sample and the solver accepts the settings: `lbfgs` wants penalty `none`, or `l2` with a non-zero `C`, and does not do
`multinomial` except for two classes; every other solver name accepts everything. -/
theorem lr_fit_accepts (N : Num α) (eps : α) (mini : Minimizer α) (hmini : ∀ f g x, ∃ r, mini f g x = .ok r) (toInt : α → Int)
    (iter : List Int → List Int) (hit : MapKeys iter) (init : Nat → Nat → List (List α))
    (hinit : ∀ k c, (init k c).length = k ∧ ∀ w ∈ init k c, w.length = c) (m : LR α) (hw : m.warmStart = false) (X y : Mat α) (hy : 0 < y.r) :
    ∃ o, (m.fit N eps mini toInt iter init X y).2 = o ∧ (∀ s, o ≠ .panic s) ∧
      (o = .ok () ↔ X.r = y.r ∧ y.c = 1 ∧ Accepts m (extractClasses toInt iter y).length) := by
  have hne : extractClasses toInt iter y ≠ [] := by
    intro h
    have hp := (exchangeSort_spec (iter ((List.range y.r).map fun i => toInt (y.at' i 0)))).1
    unfold extractClasses at h
    rw [h] at hp
    have h0 := (hit ((List.range y.r).map fun i => toInt (y.at' i 0))).2 (toInt (y.at' 0 0))
    rw [← hp.nil_eq] at h0
    exact absurd (h0.2 (List.mem_map.2 ⟨0, List.mem_range.2 hy, rfl⟩)) (by simp)
  unfold LR.fit
  by_cases h1 : X.r ≠ y.r
  · rw [if_pos h1]
    exact ⟨_, rfl, by simp, by simp [h1]⟩
  rw [if_neg h1]
  by_cases h2 : y.c ≠ 1
  · rw [if_pos h2]
    exact ⟨_, rfl, by simp, by simp [h2]⟩
  rw [if_neg h2]
  have hacc : ∀ p : Prop, (X.r = y.r ∧ y.c = 1 ∧ p) ↔ p := fun p => ⟨fun h => h.2.2, fun h => ⟨not_not.1 h1, not_not.1 h2, h⟩⟩
  simp only [hacc]
  set cs := extractClasses toInt iter y with hcs
  have hbeg : m.begin toInt iter init X y =
      { m with classes := cs, nFeatures := X.c, coef := some (init (if cs.length = 2 then 1 else cs.length) X.c),
               intercept := List.replicate (if cs.length = 2 then 1 else cs.length) 0,
               nIter := List.replicate (if cs.length = 2 then 1 else cs.length) 0 } := by
    unfold LR.begin
    simp only [hw, Bool.not_false, Bool.true_or, if_true]
    rfl
  have hready : Ready (if cs.length = 2 then 1 else cs.length) X.c (m.begin toInt iter init X y) := by
    rw [hbeg]
    exact ⟨by simp, _, rfl, hinit _ _⟩
  have b1 : (m.begin toInt iter init X y).solver = m.solver := by rw [hbeg]
  have b2 : (m.begin toInt iter init X y).penalty = m.penalty := by rw [hbeg]
  have b3 : (m.begin toInt iter init X y).C = m.C := by rw [hbeg]
  have b4 : (m.begin toInt iter init X y).classes = cs := by rw [hbeg]
  have b5 : (m.begin toInt iter init X y).multiClass = m.multiClass := by rw [hbeg]
  generalize m.begin toInt iter init X y = b at hready b1 b2 b3 b4 b5
  -- the outcome of the training proper
  have key : ∃ m' o, b.fitClasses N eps mini toInt X y = (m', o) ∧ (∀ s, o ≠ .panic s) ∧ (o = .ok () ↔ Accepts m cs.length) := by
    unfold LR.fitClasses
    rw [b4, b5, b1]
    have hpen : b.penaltyOk = true ↔ (m.solver = "lbfgs" → m.penalty = "l2" ∨ m.penalty = "none") := by
      unfold LR.penaltyOk
      rw [b1, b2]
      by_cases q1 : m.solver = "lbfgs" <;> by_cases q2 : m.penalty = "l2" <;> by_cases q3 : m.penalty = "none" <;> simp [q1, q2, q3]
    by_cases hn : cs.length = 2
    · rw [if_pos hn]
      cases hp : b.penaltyOk with
      | false =>
        simp only [Bool.not_false, if_true]
        refine ⟨_, _, rfl, by simp, ?_⟩
        constructor
        · intro h; cases h
        · intro h
          have := hpen.2 (fun hs => (h hs).1.imp And.left id)
          rw [hp] at this; cases this
      | true =>
        simp only [Bool.not_true, Bool.false_eq_true, if_false]
        rw [if_pos hn] at hready
        obtain ⟨m', o, e, -, -, -, -, ho⟩ := fitOne_outcome N eps mini hmini b X (binaryLabels toInt y (cs.getD 1 0)) 1 0 (by omega) hready (b.start X.c)
        rw [b1, b2, b3] at ho
        refine ⟨m', o, e, ?_⟩
        by_cases hc : m.solver = "lbfgs" ∧ m.penalty = "l2" ∧ (m.C == 0) = true
        · rw [if_pos hc] at ho
          obtain ⟨er, rfl⟩ := ho
          refine ⟨by simp, ⟨fun h => (by cases h), fun h => ?_⟩⟩
          rcases (h hc.1).1 with h | h
          · rw [h.2] at hc; exact absurd hc.2.2 (by simp)
          · rw [hc.2.1] at h; exact absurd h (by decide)
        · rw [if_neg hc] at ho
          subst ho
          refine ⟨by simp, ⟨fun _ hs => ⟨?_, fun _ => hn⟩, fun _ => rfl⟩⟩
          rcases hpen.1 hp hs with h | h
          · refine .inl ⟨h, ?_⟩
            cases e : (m.C == 0) with
            | false => rfl
            | true => exact absurd ⟨hs, h, e⟩ hc
          · exact .inr h
    · rw [if_neg hn]
      by_cases hmn : m.multiClass = "multinomial" ∧ m.solver = "lbfgs"
      · rw [if_pos hmn]
        exact ⟨_, _, rfl, by simp, ⟨fun h => (by cases h), fun h => absurd ((h hmn.2).2 hmn.1) hn⟩⟩
      · rw [if_neg hmn]
        cases hp : b.penaltyOk with
        | false =>
          simp only [Bool.not_false, if_true]
          refine ⟨_, _, rfl, by simp, ⟨fun h => (by cases h), fun h => ?_⟩⟩
          have := hpen.2 (fun hs => (h hs).1.imp And.left id)
          rw [hp] at this; cases this
        | true =>
          simp only [Bool.not_true, Bool.false_eq_true, if_false]
          rw [if_neg hn] at hready
          obtain ⟨m', o, e, ho⟩ := fitOvr_outcome N eps mini hmini toInt X y cs.length cs.zipIdx (fun p hp => by
            have := List.snd_lt_of_mem_zipIdx hp; omega) b hready
          rw [b1, b2, b3] at ho
          have hz : cs.zipIdx ≠ [] := by
            intro h
            have := congrArg List.length h
            simp only [List.length_zipIdx, List.length_nil] at this
            exact hne (List.length_eq_zero_iff.1 this)
          refine ⟨m', o, e, ?_⟩
          by_cases hc : m.solver = "lbfgs" ∧ m.penalty = "l2" ∧ (m.C == 0) = true
          · rw [if_pos ⟨hz, hc⟩] at ho
            obtain ⟨er, rfl⟩ := ho
            refine ⟨by simp, ⟨fun h => (by cases h), fun h => ?_⟩⟩
            rcases (h hc.1).1 with h | h
            · rw [h.2] at hc; exact absurd hc.2.2 (by simp)
            · rw [hc.2.1] at h; exact absurd h (by decide)
          · rw [if_neg (fun hh => hc hh.2)] at ho
            subst ho
            refine ⟨by simp, ⟨fun _ hs => ⟨?_, fun hmu => absurd ⟨hmu, hs⟩ hmn⟩, fun _ => rfl⟩⟩
            rcases hpen.1 hp hs with h | h
            · refine .inl ⟨h, ?_⟩
              cases e : (m.C == 0) with
              | false => rfl
              | true => exact absurd ⟨hs, h, e⟩ hc
            · exact .inr h
  obtain ⟨m', o, e, k1, k2⟩ := key
  rw [e]
  rcases o with u | er | s
  · exact ⟨_, rfl, by simp, k2⟩
  · exact ⟨_, rfl, by simp, k2⟩
  · exact absurd rfl (k1 s)

/-- the hypotheses are met -/
example : MapKeys (fun l : List Int => l.dedup) ∧ (∀ k c : Nat, (List.replicate k (List.replicate c (0 : α))).length = k ∧
    ∀ w ∈ List.replicate k (List.replicate c (0 : α)), w.length = c) ∧ (∀ f g x, ∃ r, (fun _ _ x => .ok ⟨x, 1⟩ : Minimizer α) f g x = .ok r) :=
  ⟨fun l => ⟨l.nodup_dedup, fun _ => List.mem_dedup⟩, fun k c => ⟨by simp, fun w hw => by rw [List.eq_of_mem_replicate hw]; simp⟩, fun _ _ x => ⟨_, rfl⟩⟩

/-! ## Penalties the gradient descent does not know -/

theorem fitGD_penalty (N : Num α) (m : LR α) (p : String) (hp : (p == "l2") = (m.penalty == "l2")) (X : Mat α) (yb : Nat → α) (idx : Nat) :
    LR.fitGD N { m with penalty := p } X yb idx = ({ (m.fitGD N X yb idx).1 with penalty := p }, (m.fitGD N X yb idx).2) := by
  unfold LR.fitGD
  simp only [hp]
  cases (m.coef.getD [])[idx]? with
  | none => rfl
  | some w =>
    cases m.intercept[idx]? with
    | none => rfl
    | some b =>
      simp only
      split
      · rfl
      · rfl

theorem fitGD_settings (N : Num α) (m : LR α) (X : Mat α) (yb : Nat → α) (idx : Nat) :
    (m.fitGD N X yb idx).1.solver = m.solver ∧ (m.fitGD N X yb idx).1.penalty = m.penalty := by
  unfold LR.fitGD
  cases (m.coef.getD [])[idx]? with
  | none => exact ⟨rfl, rfl⟩
  | some w =>
    cases m.intercept[idx]? with
    | none => exact ⟨rfl, rfl⟩
    | some b =>
      simp only
      split
      · exact ⟨rfl, rfl⟩
      · exact ⟨rfl, rfl⟩

theorem fitOvr_penalty (N : Num α) (eps : α) (mini : Minimizer α) (toInt : α → Int) (X y : Mat α) (p : String) (l : List (Int × Nat)) (m : LR α)
    (hs : m.solver ≠ "lbfgs") (hp : (p == "l2") = (m.penalty == "l2")) :
    LR.fitOvr N eps mini toInt X y l { m with penalty := p } =
      ({ (LR.fitOvr N eps mini toInt X y l m).1 with penalty := p }, (LR.fitOvr N eps mini toInt X y l m).2) := by
  induction l generalizing m with
  | nil => rfl
  | cons q l ih =>
    obtain ⟨cls, idx⟩ := q
    have e1 : LR.fitOne N eps mini { m with penalty := p } X (binaryLabels toInt y cls) idx (LR.startOvr { m with penalty := p } X.c idx) =
        LR.fitGD N { m with penalty := p } X (binaryLabels toInt y cls) idx := if_neg hs
    have e2 : LR.fitOne N eps mini m X (binaryLabels toInt y cls) idx (m.startOvr X.c idx) = m.fitGD N X (binaryLabels toInt y cls) idx := if_neg hs
    obtain ⟨s1, s2⟩ := fitGD_settings N m X (binaryLabels toInt y cls) idx
    simp only [LR.fitOvr, e1, e2, fitGD_penalty N m p hp]
    rcases e : m.fitGD N X (binaryLabels toInt y cls) idx with ⟨m', u | er | s⟩
    · rw [e] at s1 s2
      exact ih m' (by rw [s1]; exact hs) (by rw [hp, s2])
    · rfl
    · rfl

/-- **C179** (finding) With any solver name but `lbfgs`, a penalty the gradient descent does not know (`l1`, `elasticnet`, any text) is accepted and
trains exactly the model that penalty `none` trains: no penalty is applied and no error is reported. -/
theorem lr_unknown_penalty_ignored (N : Num α) (eps : α) (mini : Minimizer α) (toInt : α → Int) (iter : List Int → List Int)
    (init : Nat → Nat → List (List α)) (m : LR α) (X y : Mat α) (p : String) (hs : m.solver ≠ "lbfgs") (hn : m.penalty = "none") (hp : p ≠ "l2") :
    LR.fit N eps mini toInt iter init { m with penalty := p } X y =
      ({ (m.fit N eps mini toInt iter init X y).1 with penalty := p }, (m.fit N eps mini toInt iter init X y).2) := by
  have hp' : (p == "l2") = (m.penalty == "l2") := by
    rw [hn, beq_eq_false_iff_ne.2 hp]; decide
  unfold LR.fit
  by_cases h1 : X.r ≠ y.r
  · rw [if_pos h1, if_pos h1]
  rw [if_neg h1, if_neg h1]
  by_cases h2 : y.c ≠ 1
  · rw [if_pos h2, if_pos h2]
  rw [if_neg h2, if_neg h2]
  have hb : LR.begin toInt iter init { m with penalty := p } X y = { m.begin toInt iter init X y with penalty := p } := by
    unfold LR.begin
    simp only
    split <;> rfl
  have b1 : (m.begin toInt iter init X y).solver ≠ "lbfgs" := by
    unfold LR.begin; simp only; split <;> exact hs
  have b2 : (m.begin toInt iter init X y).penalty = m.penalty := by
    unfold LR.begin; simp only; split <;> rfl
  rw [hb]
  generalize m.begin toInt iter init X y = b at b1 b2
  have hok : ∀ q : LR α, q.solver ≠ "lbfgs" → q.penaltyOk = true := by
    intro q hq
    unfold LR.penaltyOk
    rw [beq_eq_false_iff_ne.2 hq]
    rfl
  have key : LR.fitClasses N eps mini toInt { b with penalty := p } X y =
      ({ (b.fitClasses N eps mini toInt X y).1 with penalty := p }, (b.fitClasses N eps mini toInt X y).2) := by
    unfold LR.fitClasses
    rw [hok b b1, hok { b with penalty := p } b1]
    simp only [Bool.not_true, Bool.false_eq_true, if_false]
    by_cases hn : b.classes.length = 2
    · rw [if_pos hn, if_pos hn]
      have e1 : ∀ x0 yb, LR.fitOne N eps mini { b with penalty := p } X yb 0 x0 = LR.fitGD N { b with penalty := p } X yb 0 := fun _ _ => if_neg b1
      have e2 : ∀ x0 yb, LR.fitOne N eps mini b X yb 0 x0 = LR.fitGD N b X yb 0 := fun _ _ => if_neg b1
      rw [e1, e2, fitGD_penalty N b p (by rw [hp', b2])]
    · rw [if_neg hn, if_neg hn, if_neg (fun hh => b1 hh.2), if_neg (fun hh => b1 hh.2)]
      exact fitOvr_penalty N eps mini toInt X y p _ b b1 (by rw [hp', b2])
  rw [key]
  rcases b.fitClasses N eps mini toInt X y with ⟨m', u | er | s⟩ <;> rfl

end Scigo.Logistic
