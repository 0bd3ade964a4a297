import Verif.Pipeline.Lemmas
import Std.Data.String.ToNat

/-!
# Properties of pipelines

C38 composition and first failure, C39 inverse, C77 `FitTransform`, C78 failed refit, C79 named
steps. All law-free: for arbitrary estimators.
-/

namespace Scigo.Pipeline

open Spec

variable {σ M V : Type _}

/-- C38: `Fit` succeeds exactly when every step but the last can be fitted on, and transforms, the
output of the steps before it, and the last step's two-argument `Fit` accepts the fully transformed
data; the world is the one after that last call. -/
theorem fit_ok_iff (p p' : Pipe σ M V) (X y : M) (w w' : σ) :
    p.fit X y w = ((w', p'), .ok ()) ↔ p' = { p with fitted := true } ∧
      ((p.steps = [] ∧ w' = w) ∨ ∃ ts s f w1 X1, p.steps = ts ++ [s] ∧ FitChain ts w X w1 X1 ∧
        s.est.fit = .two f ∧ f X1 y w1 = (w', .ok ())) := by
  rcases split_last p.steps with ⟨h0, hl, hd⟩ | ⟨ts, s, h0, hl, hd⟩
  · have e : p.fit X y w = ((w, { p with fitted := true }), .ok ()) := by
      simp only [Pipe.fit, hl, hd, fitAll, andThen, fitLast]
    rw [e]
    constructor
    · intro h
      simp only [Prod.mk.injEq, and_true] at h
      exact ⟨h.2.symm, Or.inl ⟨h0, h.1.symm⟩⟩
    · rintro ⟨rfl, ⟨_, rfl⟩ | ⟨ts, s, _, _, _, h, _⟩⟩
      · rfl
      · rw [h0] at h; simp at h
  · constructor
    · intro h
      simp only [Pipe.fit, hl, hd] at h
      rcases e : fitAll ts X w with ⟨w1, o⟩
      rw [e] at h
      cases o with
      | ok X1 =>
        simp only [andThen, fitLast] at h
        cases ef : s.est.fit with
        | two f =>
          rw [ef] at h
          rcases e2 : f X1 y w1 with ⟨w2, o2⟩
          simp only [e2] at h
          cases o2 with
          | ok u =>
            simp only [wrapErr, Prod.mk.injEq, and_true] at h
            obtain ⟨rfl, rfl⟩ := h
            exact ⟨rfl, Or.inr ⟨ts, s, f, w1, X1, h0, fitAll_ok.1 e, ef, e2⟩⟩
          | err e => simp [wrapErr] at h
          | panic v => simp [wrapErr] at h
        | one f => rw [ef] at h; simp at h
        | none => rw [ef] at h; simp at h
      | err e => simp [andThen] at h
      | panic v => simp [andThen] at h
    · rintro ⟨rfl, ⟨h, _⟩ | ⟨ts', s', f, w1, X1, h, hc, hf, he⟩⟩
      · rw [h0] at h; simp at h
      · rw [h0] at h
        obtain ⟨rfl, h2⟩ := List.append_inj' h rfl
        simp only [List.cons.injEq, and_true] at h2
        subst h2
        simp [Pipe.fit, hl, hd, fitAll_ok.2 hc, andThen, fitLast, hf, he, wrapErr]

/-- C38: when `Fit` does not succeed, it returns the failure of the first step that fails, wrapped
with that step's name; the steps before it have run, no step after it has, and the pipeline object
itself is unchanged. -/
theorem fit_first_failure (p p' : Pipe σ M V) (X y : M) (w w' : σ) (o : Outcome Unit)
    (h : p.fit X y w = ((w', p'), o)) (ho : o ≠ .ok ()) :
    p' = p ∧ ∃ pre s post w1 X1, p.steps = pre ++ s :: post ∧ FitChain pre w X w1 X1 ∧
      ((post ≠ [] ∧ FitStepFails s w1 X1 w' o) ∨ (post = [] ∧ FinalFails s w1 X1 y w' o)) := by
  rcases split_last p.steps with ⟨h0, hl, hd⟩ | ⟨ts, s, h0, hl, hd⟩
  · simp only [Pipe.fit, hl, hd, fitAll, andThen, fitLast, Prod.mk.injEq] at h
    exact absurd h.2.symm ho
  · simp only [Pipe.fit, hl, hd] at h
    rcases e : fitAll ts X w with ⟨w1, o1⟩
    rw [e] at h
    have fromAll : (∀ Z, o1 ≠ .ok Z) → ∀ o2 : Outcome Unit, retype o1 = o2 →
        ∃ pre s post w3 X1, p.steps = pre ++ s :: post ∧ FitChain pre w X w3 X1 ∧
          ((post ≠ [] ∧ FitStepFails s w3 X1 w1 o2) ∨ (post = [] ∧ FinalFails s w3 X1 y w1 o2)) := by
      intro hne o2 h2
      obtain ⟨pre, s', post, w3, X1, g1, g2, g3⟩ := fitAll_fails e hne
      refine ⟨pre, s', post ++ [s], w3, X1, by rw [h0, g1]; simp, g2, Or.inl ⟨by simp, ?_⟩⟩
      rw [← h2]; exact g3
    cases o1 with
    | ok X1 =>
      simp only [andThen, fitLast] at h
      cases ef : s.est.fit with
      | two f =>
        rw [ef] at h
        rcases e2 : f X1 y w1 with ⟨w2, o2⟩
        simp only [e2] at h
        cases o2 with
        | ok u => simp only [wrapErr, Prod.mk.injEq] at h; exact absurd h.2.symm ho
        | err e' =>
          simp only [wrapErr, Prod.mk.injEq] at h
          obtain ⟨⟨rfl, rfl⟩, rfl⟩ := h
          exact ⟨rfl, ts, s, [], w1, X1, h0, fitAll_ok.1 e, Or.inr ⟨rfl, .err ef e2⟩⟩
        | panic v =>
          simp only [wrapErr, Prod.mk.injEq] at h
          obtain ⟨⟨rfl, rfl⟩, rfl⟩ := h
          exact ⟨rfl, ts, s, [], w1, X1, h0, fitAll_ok.1 e, Or.inr ⟨rfl, .panic ef e2⟩⟩
      | one f =>
        rw [ef] at h
        simp only [Prod.mk.injEq] at h
        obtain ⟨⟨rfl, rfl⟩, rfl⟩ := h
        exact ⟨rfl, ts, s, [], w1, X1, h0, fitAll_ok.1 e,
          Or.inr ⟨rfl, .noFit (by intro f; rw [ef]; simp)⟩⟩
      | none =>
        rw [ef] at h
        simp only [Prod.mk.injEq] at h
        obtain ⟨⟨rfl, rfl⟩, rfl⟩ := h
        exact ⟨rfl, ts, s, [], w1, X1, h0, fitAll_ok.1 e,
          Or.inr ⟨rfl, .noFit (by intro f; rw [ef]; simp)⟩⟩
    | err e' =>
      simp only [andThen, Prod.mk.injEq] at h
      obtain ⟨⟨rfl, rfl⟩, rfl⟩ := h
      exact ⟨rfl, fromAll (by simp) _ rfl⟩
    | panic v =>
      simp only [andThen, Prod.mk.injEq] at h
      obtain ⟨⟨rfl, rfl⟩, rfl⟩ := h
      exact ⟨rfl, fromAll (by simp) _ rfl⟩

/-- C38: before a successful `Fit` or `FitTransform` every use is refused and nothing runs. -/
theorem unfitted_refused (steps : List (Step σ M V)) (X y : M) (w : σ) :
    (Pipe.new steps).predict X w = (w, .err .notFitted) ∧
    (Pipe.new steps).predictProba X w = (w, .err .notFitted) ∧
    (Pipe.new steps).score X y w = (w, .err .notFitted) ∧
    (Pipe.new steps).transform X w = (w, .err .notFitted) ∧
    (Pipe.new steps).inverseTransform X w = (w, .err .notFitted) :=
  ⟨rfl, rfl, rfl, rfl, rfl⟩

/-- C38: `Predict` on a fitted, non-empty pipeline succeeds with `Z` exactly when the transformers,
in order, turn `X` into some `X1` and the last step predicts `Z` for it. -/
theorem predict_ok_iff (p : Pipe σ M V) (hf : p.fitted = true) (ts : List (Step σ M V))
    (s : Step σ M V) (hs : p.steps = ts ++ [s]) (X Z : M) (w w' : σ) :
    p.predict X w = (w', .ok Z) ↔ ∃ w1 X1 g, TransformChain ts w X w1 X1 ∧
      s.est.predict = some g ∧ g X1 w1 = (w', .ok Z) := by
  have hl : p.steps.getLast? = some s := by simp [hs]
  have hd : p.steps.dropLast = ts := by simp [hs]
  simp only [Pipe.predict, hf, Bool.true_eq_false, if_false, hl, hd]
  constructor
  · intro h
    rcases e : transformAll ts X w with ⟨w1, o⟩
    rw [e] at h
    cases o with
    | ok X1 =>
      simp only [andThen] at h
      cases eg : s.est.predict with
      | none => rw [eg] at h; simp at h
      | some g => rw [eg] at h; exact ⟨w1, X1, g, transformAll_ok.1 e, rfl, h⟩
    | err e => simp [andThen] at h
    | panic v => simp [andThen] at h
  · rintro ⟨w1, X1, g, hc, hg, he⟩
    simp [transformAll_ok.2 hc, andThen, hg, he]

/-- C38: when `Predict` on a fitted, non-empty pipeline does not succeed, either the first failing
transformer's failure is returned and no later step runs, or all transformers succeeded and the
result is the last step's own failure (or it has no `Predict`). -/
theorem predict_first_failure (p : Pipe σ M V) (hf : p.fitted = true) (ts : List (Step σ M V))
    (s : Step σ M V) (hs : p.steps = ts ++ [s]) (X : M) (w w' : σ) (o : Outcome M)
    (h : p.predict X w = (w', o)) (ho : ∀ Z, o ≠ .ok Z) :
    (∃ pre u post w1 X1, ts = pre ++ u :: post ∧ TransformChain pre w X w1 X1 ∧
      TransformStepFails u w1 X1 w' o) ∨
    (∃ w1 X1, TransformChain ts w X w1 X1 ∧
      ((∃ g, s.est.predict = some g ∧ g X1 w1 = (w', o)) ∨
       (s.est.predict = none ∧ w' = w1 ∧ o = .err .validation))) := by
  have hl : p.steps.getLast? = some s := by simp [hs]
  have hd : p.steps.dropLast = ts := by simp [hs]
  simp only [Pipe.predict, hf, Bool.true_eq_false, if_false, hl, hd] at h
  rcases e : transformAll ts X w with ⟨w1, o1⟩
  rw [e] at h
  cases o1 with
  | ok X1 =>
    right
    simp only [andThen] at h
    refine ⟨w1, X1, transformAll_ok.1 e, ?_⟩
    cases eg : s.est.predict with
    | none =>
      rw [eg] at h
      simp only [Prod.mk.injEq] at h
      exact Or.inr ⟨rfl, h.1.symm, h.2.symm⟩
    | some g => rw [eg] at h; exact Or.inl ⟨g, rfl, h⟩
  | err e' =>
    left
    simp only [andThen, Prod.mk.injEq] at h
    obtain ⟨rfl, rfl⟩ := h
    exact transformAll_fails e ho
  | panic v =>
    left
    simp only [andThen, Prod.mk.injEq] at h
    obtain ⟨rfl, rfl⟩ := h
    exact transformAll_fails e ho

/-- C38: `PredictProba` and `Score` run the same transformers as `Predict` and then the last
step's method. -/
theorem predictProba_score_ok_iff (p : Pipe σ M V) (hf : p.fitted = true) (ts : List (Step σ M V))
    (s : Step σ M V) (hs : p.steps = ts ++ [s]) (X y Z : M) (v : V) (w w' : σ) :
    (p.predictProba X w = (w', .ok Z) ↔ ∃ w1 X1 g, TransformChain ts w X w1 X1 ∧
      s.est.predictProba = some g ∧ g X1 w1 = (w', .ok Z)) ∧
    (p.score X y w = (w', .ok v) ↔ ∃ w1 X1 g, TransformChain ts w X w1 X1 ∧
      s.est.score = some g ∧ g X1 y w1 = (w', .ok v)) := by
  have hl : p.steps.getLast? = some s := by simp [hs]
  have hd : p.steps.dropLast = ts := by simp [hs]
  simp only [Pipe.predictProba, Pipe.score, hf, Bool.true_eq_false, if_false, hl, hd]
  constructor
  · constructor
    · intro h
      rcases e : transformAll ts X w with ⟨w1, o⟩
      rw [e] at h
      cases o with
      | ok X1 =>
        simp only [andThen] at h
        cases eg : s.est.predictProba with
        | none => rw [eg] at h; simp at h
        | some g => rw [eg] at h; exact ⟨w1, X1, g, transformAll_ok.1 e, rfl, h⟩
      | err e => simp [andThen] at h
      | panic v => simp [andThen] at h
    · rintro ⟨w1, X1, g, hc, hg, he⟩
      simp [transformAll_ok.2 hc, andThen, hg, he]
  · constructor
    · intro h
      rcases e : transformAll ts X w with ⟨w1, o⟩
      rw [e] at h
      cases o with
      | ok X1 =>
        simp only [andThen] at h
        cases eg : s.est.score with
        | none => rw [eg] at h; simp at h
        | some g => rw [eg] at h; exact ⟨w1, X1, g, transformAll_ok.1 e, rfl, h⟩
      | err e => simp [andThen] at h
      | panic v => simp [andThen] at h
    · rintro ⟨w1, X1, g, hc, hg, he⟩
      simp [transformAll_ok.2 hc, andThen, hg, he]

/-- C38: `Transform` on a fitted pipeline succeeds exactly when all steps, in order, transform. -/
theorem transform_ok_iff (p : Pipe σ M V) (hf : p.fitted = true) (X Z : M) (w w' : σ) :
    p.transform X w = (w', .ok Z) ↔ TransformChain p.steps w X w' Z := by
  simp only [Pipe.transform, hf, Bool.true_eq_false, if_false]
  exact transformAll_ok

/-- C38: when `Transform` on a fitted pipeline fails, the first failing step's failure is
returned and no later step runs. -/
theorem transform_first_failure (p : Pipe σ M V) (hf : p.fitted = true) (X : M) (w w' : σ)
    (o : Outcome M) (h : p.transform X w = (w', o)) (ho : ∀ Z, o ≠ .ok Z) :
    ∃ pre s post w1 X1, p.steps = pre ++ s :: post ∧ TransformChain pre w X w1 X1 ∧
      TransformStepFails s w1 X1 w' o := by
  simp only [Pipe.transform, hf, Bool.true_eq_false, if_false] at h
  exact transformAll_fails h ho

/-- C39: if each transformer leaves the world alone and its `InverseTransform` undoes its
`Transform`, then the pipeline's `InverseTransform` undoes the pipeline's `Transform`. -/
theorem inverse_undoes_transform (p : Pipe σ M V) (w : σ)
    (hinv : ∀ s ∈ p.steps, ∀ f t, IsTransformer s f t → ∃ g, s.est.inverse = some g ∧
      ∀ X Z w1, t X w = (w1, .ok Z) → w1 = w ∧ g Z w = (w, .ok X))
    (X Z : M) (w' : σ) (h : p.transform X w = (w', .ok Z)) :
    p.inverseTransform Z w' = (w', .ok X) := by
  have hf : p.fitted = true := by
    cases e : p.fitted with
    | true => rfl
    | false => simp [Pipe.transform, e] at h
  have hc := (transform_ok_iff p hf X Z w w').1 h
  simp only [Pipe.inverseTransform, hf, Bool.true_eq_false, if_false]
  have gen : ∀ (ss : List (Step σ M V)), (∀ s ∈ ss, s ∈ p.steps) → ∀ X Z w',
      TransformChain ss w X w' Z → w' = w ∧ inverseAll ss.reverse Z w = (w, .ok X) := by
    intro ss
    induction ss with
    | nil => intro _ X Z w' hc; cases hc; exact ⟨rfl, rfl⟩
    | cons s ss ih =>
      intro hm X Z w' hc
      cases hc with
      | cons ht h2 h3 =>
        obtain ⟨g, hg, hgi⟩ := hinv s (hm s List.mem_cons_self) _ _ ht
        obtain ⟨rfl, hg2⟩ := hgi _ _ _ h2
        obtain ⟨rfl, h4⟩ := ih (fun u hu => hm u (List.mem_cons_of_mem _ hu)) _ _ _ h3
        refine ⟨rfl, ?_⟩
        rw [List.reverse_cons, inverseAll_append, h4]
        simp [andThen, inverseAll, hg, hg2, wrapErr]
  obtain ⟨rfl, h5⟩ := gen p.steps (fun s hs => hs) X Z w' hc
  exact h5

/-- C77 fails: `FitTransform` is not "`Fit` followed by `Transform`". Whenever `FitTransform`
succeeds on a non-empty pipeline, `Fit` on the same data is rejected: the last step must have the
one-argument `Fit` for the one and the two-argument `Fit` for the other. -/
theorem fitTransform_excludes_fit (p : Pipe σ M V) (hne : p.steps ≠ []) (X y Z : M) (w : σ)
    (h : (p.fitTransform X w).2 = .ok Z) : (p.fit X y w).2 = .err .validation := by
  rcases split_last p.steps with ⟨h0, _⟩ | ⟨ts, s, h0, hl, hd⟩
  · exact absurd h0 hne
  · simp only [Pipe.fitTransform] at h
    rcases e : fitAll p.steps X w with ⟨w1, o⟩
    rw [e] at h
    cases o with
    | err e => simp at h
    | panic v => simp at h
    | ok Z' =>
      have hc := fitAll_ok.1 e
      rw [h0] at hc
      have key : ∀ (ts : List (Step σ M V)) w X w1 Z', FitChain (ts ++ [s]) w X w1 Z' →
          ∃ w2 X2 f, FitChain ts w X w2 X2 ∧ s.est.fit = .one f := by
        intro ts
        induction ts with
        | nil =>
          intro w X w1 Z' hc
          cases hc with
          | cons ht _ _ _ => exact ⟨w, X, _, .nil _ _, ht.1⟩
        | cons u ts ih =>
          intro w X w1 Z' hc
          cases hc with
          | cons ht a b c =>
            obtain ⟨w2, X2, f, g1, g2⟩ := ih _ _ _ _ c
            exact ⟨w2, X2, f, .cons ht a b g1, g2⟩
      obtain ⟨w2, X2, f, g1, g2⟩ := key _ _ _ _ _ hc
      simp [Pipe.fit, hl, hd, fitAll_ok.2 g1, andThen, fitLast, g2]

/-- C77 fails, the other way round: after a successful `Fit` of a non-empty pipeline, `Transform`
never succeeds. -/
theorem fit_excludes_transform (p p' : Pipe σ M V) (hne : p.steps ≠ []) (X y : M) (w w' : σ)
    (h : p.fit X y w = ((w', p'), .ok ())) (Q Z : M) (v v' : σ) :
    p'.transform Q v ≠ (v', .ok Z) := by
  obtain ⟨rfl, ⟨h0, _⟩ | ⟨ts, s, f, w1, X1, h0, _, hf, _⟩⟩ := (fit_ok_iff p p' X y w w').1 h
  · exact absurd h0 hne
  · intro ht
    have hc := (transform_ok_iff { p with fitted := true } rfl Q Z v v').1 ht
    simp only [h0] at hc
    have key : ∀ (ts : List (Step σ M V)) w X w1 Z', TransformChain (ts ++ [s]) w X w1 Z' →
        ∃ g, s.est.fit = .one g := by
      intro ts
      induction ts with
      | nil =>
        intro w X w1 Z' hc
        cases hc with
        | cons ht _ _ => exact ⟨_, ht.1⟩
      | cons u ts ih =>
        intro w X w1 Z' hc
        cases hc with
        | cons _ _ c => exact ih _ _ _ _ c
    obtain ⟨g, hg⟩ := key _ _ _ _ _ hc
    rw [hf] at hg
    cases hg

theorem unaffected_chain {s : Step σ M V} {f : M → Call σ Unit} {t : M → Call σ M}
    (ht : IsTransformer s f t) {ss : List (Step σ M V)} (hro : ∀ u ∈ ss, ReadOnly u)
    (hun : ∀ u ∈ ss, Unaffected s u) {w w' : σ} {X X' : M} (hc : FitChain ss w X w' X') (Q : M) :
    (t Q w').2 = (t Q w).2 := by
  induction ss generalizing w X with
  | nil => cases hc; rfl
  | cons u ss ih =>
    cases hc with
    | cons hu h1 h2 h3 =>
      rename_i fu tu w1 w2 X1
      have e1 := ih (fun v hv => hro v (List.mem_cons_of_mem _ hv))
        (fun v hv => hun v (List.mem_cons_of_mem _ hv)) h3
      have e2 : w2 = w1 := by
        have := hro u List.mem_cons_self _ _ hu X w1
        rw [h2] at this; exact this
      have e3 := hun u List.mem_cons_self _ _ _ _ ht hu Q X w
      rw [h1] at e3
      rw [e1, e2]
      exact e3

/-- C77, the part that holds: when the steps share no state and `Transform` is read-only, the
matrix `FitTransform` returns is the one `Transform` returns for the same data right after.
Missing: `Fit` cannot take the place of `FitTransform` (`fitTransform_excludes_fit`). -/
theorem fitTransform_eq_transform_partial (p p' : Pipe σ M V) (X Z : M) (w w' : σ)
    (hro : ∀ s ∈ p.steps, ReadOnly s) (hun : p.steps.Pairwise Unaffected)
    (h : p.fitTransform X w = ((w', p'), .ok Z)) : p'.transform X w' = (w', .ok Z) := by
  simp only [Pipe.fitTransform] at h
  rcases e : fitAll p.steps X w with ⟨w1, o⟩
  rw [e] at h
  cases o with
  | err e => simp at h
  | panic v => simp at h
  | ok Z' =>
    simp only [Prod.mk.injEq, Outcome.ok.injEq] at h
    obtain ⟨⟨rfl, rfl⟩, rfl⟩ := h
    rw [transform_ok_iff _ rfl]
    have hc := fitAll_ok.1 e
    clear e
    simp only
    generalize p.steps = ss at hro hun hc
    induction ss generalizing w X with
    | nil => cases hc; exact .nil _ _
    | cons s ss ih =>
      cases hc with
      | cons ht h1 h2 h3 =>
        rename_i f t w2 w3 X1
        have e2 : w3 = w2 := by
          have := hro s List.mem_cons_self _ _ ht X w2
          rw [h2] at this; exact this
        subst e2
        rw [List.pairwise_cons] at hun
        have e3 := unaffected_chain ht (fun v hv => hro v (List.mem_cons_of_mem _ hv)) hun.1 h3 X
        have e4 := hro s List.mem_cons_self _ _ ht X w1
        refine .cons (w1 := w1) (X1 := X1) ht ?_
          (ih _ _ (fun v hv => hro v (List.mem_cons_of_mem _ hv)) hun.2 h3)
        rw [h2] at e3
        exact Prod.ext e4 e3

/-- C79: when step names are distinct, `NamedSteps()[name]` is the estimator of the step with that
name; other names are absent. -/
theorem namedStep_distinct (steps : List (Step σ M V)) (hn : (steps.map (·.name)).Nodup) :
    (∀ s ∈ steps, (Pipe.new steps).namedStep s.name = some s.est) ∧
    (∀ name, name ∉ steps.map (·.name) → (Pipe.new steps).namedStep name = none) := by
  have gen : ∀ (l : List (Step σ M V)) (name : String) (r : Option (Est σ M V)),
      name ∉ l.map (·.name) →
      l.foldl (fun r s => if s.name = name then some s.est else r) r = r := by
    intro l
    induction l with
    | nil => intro _ _ _; rfl
    | cons u l ih =>
      intro name r h
      simp only [List.map_cons, List.mem_cons, not_or] at h
      rw [List.foldl_cons, if_neg (fun e => h.1 e.symm)]
      exact ih name r h.2
  refine ⟨?_, fun name h => gen steps name none h⟩
  intro s hs
  obtain ⟨pre, post, rfl⟩ := List.append_of_mem hs
  simp only [Pipe.new, Pipe.namedStep, List.foldl_append, List.foldl_cons, if_true]
  apply gen
  simp only [List.map_append, List.map_cons, List.nodup_append, List.nodup_cons] at hn
  exact hn.2.1.1

/-- C79 fails without that: with two steps of one name, which `New` accepts, the earlier one is
not reachable by name. -/
theorem namedStep_duplicate (pre mid post : List (Step σ M V)) (s u : Step σ M V)
    (hsu : s.name = u.name) (hpost : s.name ∉ post.map (·.name)) :
    (Pipe.new (pre ++ s :: mid ++ u :: post)).namedStep s.name = some u.est := by
  have gen : ∀ (l : List (Step σ M V)) (name : String) (r : Option (Est σ M V)),
      name ∉ l.map (·.name) →
      l.foldl (fun r s => if s.name = name then some s.est else r) r = r := by
    intro l
    induction l with
    | nil => intro _ _ _; rfl
    | cons u l ih =>
      intro name r h
      simp only [List.map_cons, List.mem_cons, not_or] at h
      rw [List.foldl_cons, if_neg (fun e => h.1 e.symm)]
      exact ih name r h.2
  simp only [Pipe.new, Pipe.namedStep, List.foldl_append, List.foldl_cons, hsu, if_true]
  apply gen
  rw [← hsu]; exact hpost

/-- The names that `Make` generates are distinct, so every step is reachable by name. -/
theorem make_names_distinct (es : List (Est σ M V)) :
    ((Pipe.make es).steps.map (·.name)).Nodup := by
  have e : (Pipe.make es).steps.map (·.name)
      = (List.range es.length).map (fun i => "step" ++ toString (i + 1)) := by
    apply List.ext_getElem
    · simp [Pipe.make, Pipe.new]
    · intro i h1 h2; simp [Pipe.make, Pipe.new]
  rw [e]
  refine List.Pairwise.map _ ?_ List.nodup_range
  intro a b hab h
  apply hab
  have := String.append_right_inj "step" |>.1 h
  have h3 : a + 1 = b + 1 := Nat.repr_injective this
  omega

/-! ## Concrete cases -/

section Examples

/-- world: the offset learnt by each of two shifting transformers and the slope of an estimator -/
abbrev W := Nat × Nat × Nat

/-- learns the data value as offset, subtracts it -/
def sh1 : Step W Int Unit :=
  ⟨"a", ⟨.one (fun X w => if X < 0 then (w, .err .value) else ((X.toNat, w.2.1, w.2.2), .ok ())),
    some (fun X w => (w, .ok (X - w.1))), true, none, none, none,
    some (fun X w => (w, .ok (X + w.1)))⟩⟩

/-- learns twice the data value as offset, subtracts it -/
def sh2 : Step W Int Unit :=
  ⟨"b", ⟨.one (fun X w => ((w.1, (2 * X).toNat + 3, w.2.2), .ok ())),
    some (fun X w => (w, .ok (X - w.2.1))), true, none, none, none,
    some (fun X w => (w, .ok (X + w.2.1)))⟩⟩

/-- an estimator: learns `y`, rejects negative `y`, predicts the sum -/
def est : Step W Int Unit :=
  ⟨"c", ⟨.two (fun _ y w => if y < 0 then (w, .err .value)
      else ((w.1, w.2.1, y.toNat), .ok ())),
    none, false, some (fun X w => (w, .ok (X + w.2.2))), none, none, none⟩⟩

example : ((Pipe.new [sh1, sh2, est]).fit 5 7 (0, 0, 0)).2 = .ok () ∧
    ((Pipe.new [sh1, sh2, est]).fit 5 7 (0, 0, 0)).1.1 = (5, 3, 7) := by decide
example : ((Pipe.new [sh1, sh2, est]).fit (-5) 7 (0, 0, 0)).2
    = .err (.wrapped "failed to fit step" "a" .value) := by decide
example : ((Pipe.new [sh1, sh2, est]).fit 5 (-7) (0, 0, 0)).2
    = .err (.wrapped "failed to fit final step" "c" .value) := by decide
example : ((Pipe.new [sh1, est, sh2]).fit 5 7 (0, 0, 0)).2 = .err .validation := by decide
example : ((⟨[sh1, sh2, est], true⟩ : Pipe W Int Unit).predict 11 (5, 3, 7)).2 = .ok 10 := by decide
example : ((Pipe.new [sh1, sh2]).fitTransform 5 (0, 0, 0)).2 = .ok (-3) ∧
    ((Pipe.new [sh1, sh2]).fitTransform 5 (0, 0, 0)).1.1 = (5, 3, 0) := by decide
example : (Pipe.new [sh1, sh2]).fit 5 7 (0, 0, 0)
    = ((((Pipe.new [sh1, sh2]).fit 5 7 (0, 0, 0)).1), .err .validation) :=
  Prod.ext rfl (fitTransform_excludes_fit _ (by simp [Pipe.new]) 5 7 (-3) _ (by decide))

/-- `ReadOnly` and `Unaffected` hold of the two transformers -/
example : (∀ s ∈ [sh1, sh2], ReadOnly s) ∧ [sh1, sh2].Pairwise Unaffected := by
  constructor
  · intro s hs f t ht X w
    simp only [List.mem_cons, List.not_mem_nil, or_false] at hs
    rcases hs with rfl | rfl
    · obtain ⟨_, h, _⟩ := ht
      simp only [sh1, Option.some.injEq] at h
      subst h; rfl
    · obtain ⟨_, h, _⟩ := ht
      simp only [sh2, Option.some.injEq] at h
      subst h; rfl
  · simp only [List.pairwise_cons, List.mem_singleton, List.not_mem_nil, false_implies,
      implies_true, List.Pairwise.nil, and_true]
    rintro u rfl f t f' t' ht ht' X Y w
    obtain ⟨_, h, _⟩ := ht
    obtain ⟨h', _⟩ := ht'
    simp only [sh1, Option.some.injEq] at h
    simp only [sh2, FitM.one.injEq] at h'
    subst h h'
    rfl

/-- the hypothesis of `inverse_undoes_transform` holds of the two transformers -/
example : ((⟨[sh1, sh2], true⟩ : Pipe W Int Unit).inverseTransform (-3) (5, 3, 0)) = ((5, 3, 0), .ok 5) :=
  inverse_undoes_transform ⟨[sh1, sh2], true⟩ (5, 3, 0) (by
    intro s hs f t ht
    simp only [List.mem_cons, List.not_mem_nil, or_false] at hs
    obtain ⟨_, h, _⟩ := ht
    rcases hs with rfl | rfl
    · simp only [sh1, Option.some.injEq] at h
      subst h
      refine ⟨_, rfl, ?_⟩
      intro X Z w1 e
      simp only [Prod.mk.injEq, Outcome.ok.injEq] at e
      obtain ⟨rfl, rfl⟩ := e
      simp
    · simp only [sh2, Option.some.injEq] at h
      subst h
      refine ⟨_, rfl, ?_⟩
      intro X Z w1 e
      simp only [Prod.mk.injEq, Outcome.ok.injEq] at e
      obtain ⟨rfl, rfl⟩ := e
      simp) 5 (-3) (5, 3, 0) (by decide)

/-- C78 fails: after a successful `Fit`, a second `Fit` that is rejected by the last step has
already retrained the transformers; the pipeline still counts as fitted and answers differently. -/
theorem failed_refit_changes_predictions :
    ∃ (p : Pipe W Int Unit) (w : W), p.fitted = true ∧
      (p.fit 9 (-1) w).2 ≠ .ok () ∧ (p.fit 9 (-1) w).1.2 = p ∧
      (p.predict 11 w).2 = .ok 10 ∧ (p.predict 11 (p.fit 9 (-1) w).1.1).2 = .ok 6 := by
  exact ⟨⟨[sh1, sh2, est], true⟩, (5, 3, 7), rfl, by decide, rfl, by decide, by decide⟩

end Examples

/-- C78, the part that holds: a refit that its first step already rejects without changing the
world leaves every answer of the pipeline as it was. Missing: failures of later steps
(`failed_refit_changes_predictions`). -/
theorem failed_refit_first_step_partial (p : Pipe σ M V) (s : Step σ M V) (ss : List (Step σ M V))
    (hs : p.steps = s :: ss) (hss : ss ≠ []) (X y : M) (w : σ)
    (hfail : (∀ f t, ¬ IsTransformer s f t) ∨
      ∃ f t e, IsTransformer s f t ∧ f X w = (w, .err e)) (Q : M) :
    (p.fit X y w).2 ≠ .ok () ∧ (p.fit X y w).1 = (w, p) ∧
    (p.fit X y w).1.2.predict Q (p.fit X y w).1.1 = p.predict Q w := by
  obtain ⟨u, us, rfl⟩ := List.exists_cons_of_ne_nil hss
  have key : ∃ e, p.fit X y w = ((w, p), .err e) := by
    rcases hfail with h | ⟨f, t, e, ht, he⟩
    · refine ⟨.validation, ?_⟩
      simp [Pipe.fit, hs, fitAll, asTransformer_none.2 h, andThen]
    · refine ⟨.wrapped "failed to fit step" s.name e, ?_⟩
      simp [Pipe.fit, hs, fitAll, asTransformer_some.2 ht, he, andThen, wrapErr]
  obtain ⟨e, he⟩ := key
  simp [he]

example := failed_refit_first_step_partial (⟨[sh1, sh2, est], true⟩ : Pipe W Int Unit) sh1
  [sh2, est] rfl (by simp) (-9) 1 (5, 3, 7) (Or.inr ⟨_, _, .value, ⟨rfl, rfl, rfl⟩, by decide⟩) 11

example : ([sh1, sh2, est].map (·.name)).Nodup := by decide
example : ((Pipe.make [sh1.est, sh2.est]).steps.map (·.name)) = ["step1", "step2"] := by decide
example := namedStep_duplicate [] [sh2] [est] sh1 { sh2 with name := "a" } rfl (by decide)

end Scigo.Pipeline
