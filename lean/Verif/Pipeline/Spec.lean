import Verif.Pipeline.Model

/-!
# What a pipeline should do

Independent of the model's loops: relations describing a chain of calls.
-/

namespace Scigo.Pipeline.Spec

variable {σ M V : Type _}

/-- `s` is a transformer with these `Fit` and `Transform` methods -/
def IsTransformer (s : Step σ M V) (f : M → Call σ Unit) (t : M → Call σ M) : Prop :=
  s.est.fit = .one f ∧ s.est.transform = some t ∧ s.est.hasFitTransform = true

/-- each step is fitted on the output of the previous ones and then transforms it; all succeed -/
inductive FitChain : List (Step σ M V) → σ → M → σ → M → Prop
  | nil (w X) : FitChain [] w X w X
  | cons {s ss f t w X w1 w2 X1 w' X'} :
      IsTransformer s f t → f X w = (w1, .ok ()) → t X w1 = (w2, .ok X1) →
      FitChain ss w2 X1 w' X' → FitChain (s :: ss) w X w' X'

/-- each step transforms the output of the previous ones; all succeed -/
inductive TransformChain : List (Step σ M V) → σ → M → σ → M → Prop
  | nil (w X) : TransformChain [] w X w X
  | cons {s ss f t w X w1 X1 w' X'} :
      IsTransformer s f t → t X w = (w1, .ok X1) →
      TransformChain ss w1 X1 w' X' → TransformChain (s :: ss) w X w' X'

/-- step `s`, asked to fit and transform `X` in world `w`, fails with this world and outcome -/
inductive FitStepFails (s : Step σ M V) (w : σ) (X : M) : σ → Outcome Unit → Prop
  | notTransformer : (∀ f t, ¬ IsTransformer s f t) → FitStepFails s w X w (.err .validation)
  | fitErr {f t w1 e} : IsTransformer s f t → f X w = (w1, .err e) →
      FitStepFails s w X w1 (.err (.wrapped "failed to fit step" s.name e))
  | fitPanic {f t w1 v} : IsTransformer s f t → f X w = (w1, .panic v) →
      FitStepFails s w X w1 (.panic v)
  | transformErr {f t w1 w2 e} : IsTransformer s f t → f X w = (w1, .ok ()) →
      t X w1 = (w2, .err e) →
      FitStepFails s w X w2 (.err (.wrapped "failed to transform at step" s.name e))
  | transformPanic {f t w1 w2 v} : IsTransformer s f t → f X w = (w1, .ok ()) →
      t X w1 = (w2, .panic v) → FitStepFails s w X w2 (.panic v)

/-- step `s`, asked to transform `X` in world `w`, fails with this world and outcome -/
inductive TransformStepFails (s : Step σ M V) (w : σ) (X : M) : σ → Outcome M → Prop
  | notTransformer : (∀ f t, ¬ IsTransformer s f t) → TransformStepFails s w X w (.err .validation)
  | err {f t w1 e} : IsTransformer s f t → t X w = (w1, .err e) →
      TransformStepFails s w X w1 (.err (.wrapped "failed to transform at step" s.name e))
  | panic {f t w1 v} : IsTransformer s f t → t X w = (w1, .panic v) →
      TransformStepFails s w X w1 (.panic v)

/-- the final step, asked to fit `X, y` in world `w`, fails with this world and outcome -/
inductive FinalFails (s : Step σ M V) (w : σ) (X y : M) : σ → Outcome Unit → Prop
  | noFit : (∀ f, s.est.fit ≠ .two f) → FinalFails s w X y w (.err .validation)
  | err {f w1 e} : s.est.fit = .two f → f X y w = (w1, .err e) →
      FinalFails s w X y w1 (.err (.wrapped "failed to fit final step" s.name e))
  | panic {f w1 v} : s.est.fit = .two f → f X y w = (w1, .panic v) →
      FinalFails s w X y w1 (.panic v)

/-- transforming does not change the world -/
def ReadOnly (s : Step σ M V) : Prop :=
  ∀ f t, IsTransformer s f t → ∀ X w, (t X w).1 = w

/-- fitting `u` does not change what `s` answers: the steps share no state -/
def Unaffected (s u : Step σ M V) : Prop :=
  ∀ f t f' t', IsTransformer s f t → IsTransformer u f' t' → ∀ X Y w,
    (t X (f' Y w).1).2 = (t X w).2

end Scigo.Pipeline.Spec
