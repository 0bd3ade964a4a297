import Verif.Base.Outcome

/-!
# Pipelines

Model of `sklearn/pipeline/pipeline.go`. Estimators are arbitrary: a Go value is its method set, and
every method acts on a world `σ` that holds the state of all estimators (so two steps may share an
object). `M` is `mat.Matrix`, `V` is `float64`. A Go type has at most one method named `Fit`, so
`Fit(X)` (of `model.Transformer`) and `Fit(X, y)` exclude each other.
Not modelled: logging, `memory`, `verbose`, `GetParams`/`SetParams`.
-/

namespace Scigo.Pipeline

variable {σ M V : Type _}

/-- a call that may change the world (methods of core/model/transformer.go:8) -/
abbrev Call (σ : Type _) (β : Type _) := σ → σ × Outcome β

/-- the method `Fit` of a Go type, if any: one-argument (`core/model/transformer.go:8`) or
two-argument (`sklearn/pipeline/pipeline.go:121-123`) -/
inductive FitM (σ M : Type _)
  | none
  | one (f : M → Call σ Unit)
  | two (f : M → M → Call σ Unit)

/-- the methods a pipeline looks for on `Step.Estimator` (`sklearn/pipeline/pipeline.go:96,121,155,
259,290,396`) -/
structure Est (σ M V : Type _) where
  fit : FitM σ M
  transform : Option (M → Call σ M)
  hasFitTransform : Bool
  predict : Option (M → Call σ M)
  predictProba : Option (M → Call σ M)
  score : Option (M → M → Call σ V)
  inverse : Option (M → Call σ M)

/-- `Step` (`sklearn/pipeline/pipeline.go:19-22`) -/
structure Step (σ M V : Type _) where
  name : String
  est : Est σ M V

/-- `Pipeline` (`sklearn/pipeline/pipeline.go:29-41`) -/
structure Pipe (σ M V : Type _) where
  steps : List (Step σ M V)
  fitted : Bool

/-- the type assertion to `model.Transformer` (`core/model/transformer.go:6-15`,
`sklearn/pipeline/pipeline.go:96,183,219,364`) -/
def asTransformer (e : Est σ M V) : Option ((M → Call σ Unit) × (M → Call σ M)) :=
  match e.fit, e.transform, e.hasFitTransform with
  | .one f, some t, true => some (f, t)
  | _, _, _ => none

/-- continue after success, stop at an error or panic (`sklearn/pipeline/pipeline.go:106-113`) -/
def andThen {β γ : Type _} (r : σ × Outcome β) (k : β → Call σ γ) : σ × Outcome γ :=
  match r with
  | (w, .ok b) => k b w
  | (w, .err e) => (w, .err e)
  | (w, .panic v) => (w, .panic v)

/-- `errors.Wrap(err, "… step 'name'")` (`pkg/errors/errors.go:291-293`,
`sklearn/pipeline/pipeline.go:107,112,125,194,230,236,375,409`) -/
def wrapErr {β : Type _} (msg name : String) (r : σ × Outcome β) : σ × Outcome β :=
  match r with
  | (w, .err e) => (w, .err (.wrapped msg name e))
  | r => r

/-- fit and transform a list of steps (`sklearn/pipeline/pipeline.go:91-114`, `213-238`) -/
def fitAll : List (Step σ M V) → M → Call σ M
  | [], X, w => (w, .ok X)
  | s :: ss, X, w =>
    match asTransformer s.est with
    | none => (w, .err .validation)
    | some (f, t) =>
      andThen (wrapErr "failed to fit step" s.name (f X w)) (fun _ w1 =>
        andThen (wrapErr "failed to transform at step" s.name (t X w1)) (fun X1 w2 =>
          fitAll ss X1 w2))

/-- transform through a list of steps (`sklearn/pipeline/pipeline.go:182-198`, `357-380`) -/
def transformAll : List (Step σ M V) → M → Call σ M
  | [], X, w => (w, .ok X)
  | s :: ss, X, w =>
    match asTransformer s.est with
    | none => (w, .err .validation)
    | some (_, t) =>
      andThen (wrapErr "failed to transform at step" s.name (t X w)) (fun X1 w1 =>
        transformAll ss X1 w1)

/-- `New` (`sklearn/pipeline/pipeline.go:45-65`) -/
def Pipe.new (steps : List (Step σ M V)) : Pipe σ M V := ⟨steps, false⟩

/-- `NamedSteps` (`sklearn/pipeline/pipeline.go:46-49,345-347`): the map built by `New`, later steps
overwrite earlier ones of the same name -/
def Pipe.namedStep (p : Pipe σ M V) (name : String) : Option (Est σ M V) :=
  p.steps.foldl (fun r s => if s.name = name then some s.est else r) none

/-- `Make` (`sklearn/pipeline/pipeline.go:74-82`) -/
def Pipe.make (es : List (Est σ M V)) : Pipe σ M V :=
  Pipe.new (es.mapIdx (fun i e => ⟨"step" ++ toString (i + 1), e⟩))

/-- fit the last step (`sklearn/pipeline/pipeline.go:117-134`) -/
def fitLast (last : Option (Step σ M V)) (X y : M) : Call σ Unit := fun w =>
  match last with
  | none => (w, .ok ())
  | some s =>
    match s.est.fit with
    | .two f => wrapErr "failed to fit final step" s.name (f X y w)
    | _ => (w, .err .validation)

/-- `Fit` (`sklearn/pipeline/pipeline.go:87-138`) -/
def Pipe.fit (p : Pipe σ M V) (X y : M) (w : σ) : (σ × Pipe σ M V) × Outcome Unit :=
  match andThen (fitAll p.steps.dropLast X w) (fun Xt => fitLast p.steps.getLast? Xt y) with
  | (w', .ok _) => ((w', { p with fitted := true }), .ok ())
  | (w', .err e) => ((w', p), .err e)
  | (w', .panic v) => ((w', p), .panic v)

/-- `Predict` (`sklearn/pipeline/pipeline.go:141-169`) -/
def Pipe.predict (p : Pipe σ M V) (X : M) : Call σ M := fun w =>
  if p.fitted = false then (w, .err .notFitted)
  else andThen (transformAll p.steps.dropLast X w) (fun Xt w1 =>
    match p.steps.getLast? with
    | none => (w1, .ok Xt)
    | some s => match s.est.predict with
      | some f => f Xt w1
      | none => (w1, .err .validation))

/-- `PredictProba` (`sklearn/pipeline/pipeline.go:245-273`) -/
def Pipe.predictProba (p : Pipe σ M V) (X : M) : Call σ M := fun w =>
  if p.fitted = false then (w, .err .notFitted)
  else andThen (transformAll p.steps.dropLast X w) (fun Xt w1 =>
    match p.steps.getLast? with
    | none => (w1, .err (.other "pipeline has no steps"))
    | some s => match s.est.predictProba with
      | some f => f Xt w1
      | none => (w1, .err .validation))

/-- `Score` (`sklearn/pipeline/pipeline.go:276-304`) -/
def Pipe.score (p : Pipe σ M V) (X y : M) : Call σ V := fun w =>
  if p.fitted = false then (w, .err .notFitted)
  else andThen (transformAll p.steps.dropLast X w) (fun Xt w1 =>
    match p.steps.getLast? with
    | none => (w1, .err (.other "pipeline has no steps"))
    | some s => match s.est.score with
      | some f => f Xt y w1
      | none => (w1, .err .validation))

/-- `Transform` (`sklearn/pipeline/pipeline.go:173-199`) -/
def Pipe.transform (p : Pipe σ M V) (X : M) : Call σ M := fun w =>
  if p.fitted = false then (w, .err .notFitted) else transformAll p.steps X w

/-- `FitPredict` (`sklearn/pipeline/pipeline.go:203-208`) -/
def Pipe.fitPredict (p : Pipe σ M V) (X y : M) (w : σ) : (σ × Pipe σ M V) × Outcome M :=
  match p.fit X y w with
  | ((w', p'), .ok _) => (((p'.predict X w').1, p'), (p'.predict X w').2)
  | (wp, .err e) => (wp, .err e)
  | (wp, .panic v) => (wp, .panic v)

/-- `FitTransform` (`sklearn/pipeline/pipeline.go:212-242`) -/
def Pipe.fitTransform (p : Pipe σ M V) (X : M) (w : σ) : (σ × Pipe σ M V) × Outcome M :=
  match fitAll p.steps X w with
  | (w', .ok Xt) => ((w', { p with fitted := true }), .ok Xt)
  | (w', .err e) => ((w', p), .err e)
  | (w', .panic v) => ((w', p), .panic v)

/-- inverse transforms of a list of steps, in the order given
(`sklearn/pipeline/pipeline.go:393-411`) -/
def inverseAll : List (Step σ M V) → M → Call σ M
  | [], X, w => (w, .ok X)
  | s :: ss, X, w =>
    match s.est.inverse with
    | none => (w, .err .validation)
    | some g =>
      andThen (wrapErr "failed to inverse transform at step" s.name (g X w)) (fun X1 w1 =>
        inverseAll ss X1 w1)

/-- `InverseTransform` (`sklearn/pipeline/pipeline.go:384-414`) -/
def Pipe.inverseTransform (p : Pipe σ M V) (X : M) : Call σ M := fun w =>
  if p.fitted = false then (w, .err .notFitted) else inverseAll p.steps.reverse X w

end Scigo.Pipeline
