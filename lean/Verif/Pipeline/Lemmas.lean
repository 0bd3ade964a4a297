import Verif.Pipeline.Spec

/-! Helper lemmas for pipelines. -/

namespace Scigo.Pipeline

open Spec

variable {σ M V : Type _}

theorem asTransformer_some {s : Step σ M V} {f : M → Call σ Unit} {t : M → Call σ M} :
    asTransformer s.est = some (f, t) ↔ IsTransformer s f t := by
  unfold asTransformer IsTransformer
  cases s.est.fit <;> cases s.est.transform <;> cases s.est.hasFitTransform <;> simp

theorem asTransformer_none {s : Step σ M V} :
    asTransformer s.est = none ↔ ∀ f t, ¬ IsTransformer s f t := by
  constructor
  · intro h f t ht
    rw [asTransformer_some.2 ht] at h
    cases h
  · intro h
    cases e : asTransformer s.est with
    | none => rfl
    | some p => exact absurd (asTransformer_some.1 e) (h p.1 p.2)

theorem fitAll_ok {ss : List (Step σ M V)} {w : σ} {X : M} {w' : σ} {X' : M} :
    fitAll ss X w = (w', .ok X') ↔ FitChain ss w X w' X' := by
  induction ss generalizing w X with
  | nil =>
    simp only [fitAll, Prod.mk.injEq, Outcome.ok.injEq]
    constructor
    · rintro ⟨rfl, rfl⟩; exact .nil _ _
    · intro h; cases h; exact ⟨rfl, rfl⟩
  | cons s ss ih =>
    constructor
    · intro h
      simp only [fitAll] at h
      split at h
      · simp at h
      · rename_i f t he
        rcases e1 : f X w with ⟨w1, o1⟩
        rw [e1] at h
        cases o1 with
        | ok u =>
          simp only [wrapErr, andThen] at h
          rcases e2 : t X w1 with ⟨w2, o2⟩
          rw [e2] at h
          cases o2 with
          | ok X1 => exact .cons (asTransformer_some.1 he) e1 e2 (ih.1 h)
          | err e => simp at h
          | panic v => simp at h
        | err e => simp [wrapErr, andThen] at h
        | panic v => simp [wrapErr, andThen] at h
    · intro h
      cases h with
      | cons ht h1 h2 h3 =>
        simp only [fitAll, asTransformer_some.2 ht, h1, h2, wrapErr, andThen]
        exact ih.2 h3

theorem transformAll_ok {ss : List (Step σ M V)} {w : σ} {X : M} {w' : σ} {X' : M} :
    transformAll ss X w = (w', .ok X') ↔ TransformChain ss w X w' X' := by
  induction ss generalizing w X with
  | nil =>
    simp only [transformAll, Prod.mk.injEq, Outcome.ok.injEq]
    constructor
    · rintro ⟨rfl, rfl⟩; exact .nil _ _
    · intro h; cases h; exact ⟨rfl, rfl⟩
  | cons s ss ih =>
    constructor
    · intro h
      simp only [transformAll] at h
      split at h
      · simp at h
      · rename_i f t he
        rcases e2 : t X w with ⟨w2, o2⟩
        rw [e2] at h
        cases o2 with
        | ok X1 =>
          simp only [wrapErr, andThen] at h
          exact .cons (asTransformer_some.1 he) e2 (ih.1 h)
        | err e => simp [wrapErr, andThen] at h
        | panic v => simp [wrapErr, andThen] at h
    · intro h
      cases h with
      | cons ht h2 h3 =>
        simp only [transformAll, asTransformer_some.2 ht, h2, wrapErr, andThen]
        exact ih.2 h3

/-- the same failure at another result type -/
def retype {β γ : Type _} : Outcome β → Outcome γ
  | .ok _ => .panic ""
  | .err e => .err e
  | .panic v => .panic v

theorem fitAll_fails {ss : List (Step σ M V)} {w : σ} {X : M} {w' : σ} {o : Outcome M}
    (h : fitAll ss X w = (w', o)) (ho : ∀ Z, o ≠ .ok Z) :
    ∃ pre s post w1 X1, ss = pre ++ s :: post ∧ FitChain pre w X w1 X1 ∧
      FitStepFails s w1 X1 w' (retype o) := by
  induction ss generalizing w X with
  | nil => simp only [fitAll, Prod.mk.injEq] at h; exact absurd h.2.symm (ho X)
  | cons s ss ih =>
    simp only [fitAll] at h
    split at h
    · rename_i he
      simp only [Prod.mk.injEq] at h
      obtain ⟨rfl, rfl⟩ := h
      exact ⟨[], s, ss, w, X, rfl, .nil _ _, .notTransformer (asTransformer_none.1 he)⟩
    · rename_i f t he
      replace he := asTransformer_some.1 he
      rcases e1 : f X w with ⟨w1, o1⟩
      rw [e1] at h
      cases o1 with
      | ok u =>
        simp only [wrapErr, andThen] at h
        rcases e2 : t X w1 with ⟨w2, o2⟩
        rw [e2] at h
        cases o2 with
        | ok X1 =>
          obtain ⟨pre, s', post, w3, X3, g1, g2, g3⟩ := ih h
          exact ⟨s :: pre, s', post, w3, X3, by rw [g1]; rfl, .cons he e1 e2 g2, g3⟩
        | err e =>
          simp only [Prod.mk.injEq] at h
          obtain ⟨rfl, rfl⟩ := h
          exact ⟨[], s, ss, w, X, rfl, .nil _ _, .transformErr he e1 e2⟩
        | panic v =>
          simp only [Prod.mk.injEq] at h
          obtain ⟨rfl, rfl⟩ := h
          exact ⟨[], s, ss, w, X, rfl, .nil _ _, .transformPanic he e1 e2⟩
      | err e =>
        simp only [wrapErr, andThen, Prod.mk.injEq] at h
        obtain ⟨rfl, rfl⟩ := h
        exact ⟨[], s, ss, w, X, rfl, .nil _ _, .fitErr he e1⟩
      | panic v =>
        simp only [wrapErr, andThen, Prod.mk.injEq] at h
        obtain ⟨rfl, rfl⟩ := h
        exact ⟨[], s, ss, w, X, rfl, .nil _ _, .fitPanic he e1⟩

theorem transformAll_fails {ss : List (Step σ M V)} {w : σ} {X : M} {w' : σ} {o : Outcome M}
    (h : transformAll ss X w = (w', o)) (ho : ∀ Z, o ≠ .ok Z) :
    ∃ pre s post w1 X1, ss = pre ++ s :: post ∧ TransformChain pre w X w1 X1 ∧
      TransformStepFails s w1 X1 w' o := by
  induction ss generalizing w X with
  | nil => simp only [transformAll, Prod.mk.injEq] at h; exact absurd h.2.symm (ho X)
  | cons s ss ih =>
    simp only [transformAll] at h
    split at h
    · rename_i he
      simp only [Prod.mk.injEq] at h
      obtain ⟨rfl, rfl⟩ := h
      exact ⟨[], s, ss, w, X, rfl, .nil _ _, .notTransformer (asTransformer_none.1 he)⟩
    · rename_i f t he
      replace he := asTransformer_some.1 he
      rcases e2 : t X w with ⟨w2, o2⟩
      rw [e2] at h
      cases o2 with
      | ok X1 =>
        simp only [wrapErr, andThen] at h
        obtain ⟨pre, s', post, w3, X3, g1, g2, g3⟩ := ih h
        exact ⟨s :: pre, s', post, w3, X3, by rw [g1]; rfl, .cons he e2 g2, g3⟩
      | err e =>
        simp only [wrapErr, andThen, Prod.mk.injEq] at h
        obtain ⟨rfl, rfl⟩ := h
        exact ⟨[], s, ss, w, X, rfl, .nil _ _, .err he e2⟩
      | panic v =>
        simp only [wrapErr, andThen, Prod.mk.injEq] at h
        obtain ⟨rfl, rfl⟩ := h
        exact ⟨[], s, ss, w, X, rfl, .nil _ _, .panic he e2⟩

theorem inverseAll_append (l r : List (Step σ M V)) (X : M) (w : σ) :
    inverseAll (l ++ r) X w = andThen (inverseAll l X w) (fun Z w1 => inverseAll r Z w1) := by
  induction l generalizing X w with
  | nil => rfl
  | cons s l ih =>
    simp only [List.cons_append, inverseAll]
    split
    · rfl
    · rename_i g _
      rcases g X w with ⟨w1, o⟩
      cases o with
      | ok Z => simp only [wrapErr, andThen]; exact ih Z w1
      | err e => rfl
      | panic v => rfl

/-- nothing or a last step -/
theorem split_last (l : List (Step σ M V)) :
    (l = [] ∧ l.getLast? = none ∧ l.dropLast = []) ∨
    ∃ ts s, l = ts ++ [s] ∧ l.getLast? = some s ∧ l.dropLast = ts := by
  rcases List.eq_nil_or_concat l with h | ⟨ts, s, h⟩
  · subst h; exact Or.inl ⟨rfl, rfl, rfl⟩
  · subst h; exact Or.inr ⟨ts, s, by simp, by simp, by simp⟩

end Scigo.Pipeline
