import Verif.Base.Outcome

/-!
# FitStream, PredictStream and FitPredictStream

The stream methods of `SGDRegressor` (`sklearn/linear_model/sgd_regressor.go:462-550`),
`SGDClassifier` (`sklearn/linear_model/sgd_classifier.go:530-618`), the passive-aggressive models
(`sklearn/linear_model/passive_aggressive.go:555-585`, `FitStream` only) and `MiniBatchKMeans`
(`sklearn/cluster/minibatch_kmeans.go:350-399`, no `FitPredictStream`) are the same three loops around
the model's own `Predict` and `PartialFit`. They are modelled once, as transition systems, for
arbitrary `Predict`/`PartialFit`.

The environment may at any moment send a batch, close the input channel or cancel the context; the
consumer of the output channel may or may not be ready. When several cases of a `select` are ready
the Go runtime picks any of them, so each ready case is a transition of its own. `Predict` and
`PartialFit` are single transitions: while one runs the environment can act before or after it with
the same effect, since it does not touch the model. Simplification: no other goroutine uses the same
model object, and the sequence of consumer receives is not distinguished from the sequence of sends
(an unbuffered channel).
-/

namespace Scigo.Stream

/-- an estimator as the stream loops use it: `IsFitted`, `Predict`, `PartialFit` (sklearn/linear_model/sgd_regressor.go:462-476) -/
structure Est (M B P : Type) where
  fitted : M → Bool
  predict : M → B → Outcome P
  partialFit : M → B → M × Outcome Unit

variable {M B P : Type}

/-- the channel side: batches waiting in the input channel, whether it is closed, whether the context
is cancelled; `sent` is the history of everything ever sent into it (sklearn/linear_model/sgd_regressor.go:462-476) -/
structure Env (B : Type) where
  queue : List B
  sent : List B
  closed : Bool
  cancelled : Bool

/-- an unused channel (sklearn/linear_model/sgd_regressor.go:462-476) -/
def Env.new : Env B := ⟨[], [], false, false⟩

/-- what the producer and the owner of the context may do at any time (sklearn/linear_model/sgd_regressor.go:462-476) -/
inductive EnvStep : Env B → Env B → Prop
  | send (e : Env B) (b : B) (h : e.closed = false) :
      EnvStep e { e with queue := e.queue ++ [b], sent := e.sent ++ [b] }
  | close (e : Env B) (h : e.closed = false) : EnvStep e { e with closed := true }
  | cancel (e : Env B) : EnvStep e { e with cancelled := true }

/-! ## FitStream -/

/-- where the `FitStream` call is: in its loop, returned `nil`, returned `ctx.Err()`, returned the
error of `PartialFit`, or panicking (sklearn/linear_model/sgd_regressor.go:462-476) -/
inductive FitPc
  | loop
  | returnedNil
  | returnedCtx
  | returnedErr (e : GoErr)
  | panicked

/-- state of a `FitStream` call; `trained` is the history of batches given to `PartialFit` (sklearn/linear_model/sgd_regressor.go:462-476) -/
structure FitSt (M B : Type) where
  env : Env B
  pc : FitPc
  model : M
  trained : List B

/-- where the loop goes after `PartialFit` (`sklearn/linear_model/sgd_regressor.go:471-473`) -/
def afterFit : Outcome Unit → FitPc
  | .ok _ => .loop
  | .err e => .returnedErr e
  | .panic _ => .panicked

/-- one step of the goroutine running `FitStream` (`sklearn/linear_model/sgd_regressor.go:463-475`) -/
inductive FitOwn (E : Est M B P) : FitSt M B → FitSt M B → Prop
  | ctx (s : FitSt M B) (hp : s.pc = .loop) (h : s.env.cancelled = true) :
      FitOwn E s { s with pc := .returnedCtx }
  | eof (s : FitSt M B) (hp : s.pc = .loop) (hq : s.env.queue = []) (h : s.env.closed = true) :
      FitOwn E s { s with pc := .returnedNil }
  | recv (s : FitSt M B) (b : B) (q : List B) (hp : s.pc = .loop) (hq : s.env.queue = b :: q) :
      FitOwn E s { env := { s.env with queue := q }
                   pc := afterFit (E.partialFit s.model b).2
                   model := (E.partialFit s.model b).1
                   trained := s.trained ++ [b] }

/-- every state a call `FitStream(ctx, ch)` on model `m₀` can be in, whatever the environment does (sklearn/linear_model/sgd_regressor.go:462-476) -/
inductive FitReach (E : Est M B P) (m₀ : M) : FitSt M B → Prop
  | start : FitReach E m₀ ⟨.new, .loop, m₀, []⟩
  | env {s : FitSt M B} {e : Env B} : FitReach E m₀ s → EnvStep s.env e →
      FitReach E m₀ { s with env := e }
  | own {s s' : FitSt M B} : FitReach E m₀ s → FitOwn E s s' → FitReach E m₀ s'

/-! ## PredictStream and FitPredictStream -/

/-- where the goroutine is: waiting in the outer `select`, trying to hand over a prediction for batch
`b`, finished (output channel closed), or panicking (sklearn/linear_model/sgd_regressor.go:479-550) -/
inductive Pc (B P : Type)
  | waiting
  | sending (b : B) (p : P)
  | finished
  | panicked

/-- state of a streaming goroutine; `out` is what the consumer has received, `done` the history of
batches fully dealt with (sklearn/linear_model/sgd_regressor.go:479-550) -/
structure St (M B P : Type) where
  env : Env B
  pc : Pc B P
  model : M
  done : List B
  out : List P

/-- reaction of `PredictStream` to a received batch (`sklearn/linear_model/sgd_regressor.go:494-498`): a failing `Predict`
is skipped -/
def predictRecv (E : Est M B P) (s : St M B P) (b : B) (q : List B) : St M B P :=
  let s' := { s with env := { s.env with queue := q } }
  match E.predict s.model b with
  | .ok p => { s' with pc := .sending b p }
  | .err _ => { s' with done := s.done ++ [b] }
  | .panic _ => { s' with pc := .panicked }

/-- one step of the goroutine of `PredictStream` (`sklearn/linear_model/sgd_regressor.go:482-507`) -/
inductive PredOwn (E : Est M B P) : St M B P → St M B P → Prop
  | ctx (s : St M B P) (hp : s.pc = .waiting) (h : s.env.cancelled = true) :
      PredOwn E s { s with pc := .finished }
  | eof (s : St M B P) (hp : s.pc = .waiting) (hq : s.env.queue = []) (h : s.env.closed = true) :
      PredOwn E s { s with pc := .finished }
  | recv (s : St M B P) (b : B) (q : List B) (hp : s.pc = .waiting) (hq : s.env.queue = b :: q) :
      PredOwn E s (predictRecv E s b q)
  | deliver (s : St M B P) (b : B) (p : P) (hp : s.pc = .sending b p) :
      PredOwn E s { s with pc := .waiting, out := s.out ++ [p], done := s.done ++ [b] }
  | abort (s : St M B P) (b : B) (p : P) (hp : s.pc = .sending b p) (h : s.env.cancelled = true) :
      PredOwn E s { s with pc := .finished }

/-- where the goroutine goes after training (`sklearn/linear_model/sgd_regressor.go:541-544`): an error is ignored -/
def afterTrain : Outcome Unit → Pc B P
  | .panic _ => .panicked
  | _ => .waiting

/-- training on a batch at the end of a round of `FitPredictStream` (`sklearn/linear_model/sgd_regressor.go:541-544`) -/
def trainOn (E : Est M B P) (s : St M B P) (b : B) : St M B P :=
  { s with
    model := (E.partialFit s.model b).1
    done := s.done ++ [b]
    pc := afterTrain (E.partialFit s.model b).2 }

/-- reaction of `FitPredictStream` to a received batch (`sklearn/linear_model/sgd_regressor.go:529-544`): predict if fitted,
and if that works go on to send, otherwise train at once -/
def fitPredictRecv (E : Est M B P) (s : St M B P) (b : B) (q : List B) : St M B P :=
  let s' := { s with env := { s.env with queue := q } }
  if E.fitted s.model then
    match E.predict s.model b with
    | .ok p => { s' with pc := .sending b p }
    | .err _ => trainOn E s' b
    | .panic _ => { s' with pc := .panicked }
  else trainOn E s' b

/-- one step of the goroutine of `FitPredictStream` (`sklearn/linear_model/sgd_regressor.go:516-547`) -/
inductive FitPredOwn (E : Est M B P) : St M B P → St M B P → Prop
  | ctx (s : St M B P) (hp : s.pc = .waiting) (h : s.env.cancelled = true) :
      FitPredOwn E s { s with pc := .finished }
  | eof (s : St M B P) (hp : s.pc = .waiting) (hq : s.env.queue = []) (h : s.env.closed = true) :
      FitPredOwn E s { s with pc := .finished }
  | recv (s : St M B P) (b : B) (q : List B) (hp : s.pc = .waiting) (hq : s.env.queue = b :: q) :
      FitPredOwn E s (fitPredictRecv E s b q)
  | deliver (s : St M B P) (b : B) (p : P) (hp : s.pc = .sending b p) :
      FitPredOwn E s (trainOn E { s with out := s.out ++ [p] } b)
  | abort (s : St M B P) (b : B) (p : P) (hp : s.pc = .sending b p) (h : s.env.cancelled = true) :
      FitPredOwn E s { s with pc := .finished }

/-- every state the goroutine with own steps `own`, started on model `m₀`, can be in (sklearn/linear_model/sgd_regressor.go:479-550) -/
inductive Reach (own : St M B P → St M B P → Prop) (m₀ : M) : St M B P → Prop
  | start : Reach own m₀ ⟨.new, .waiting, m₀, [], []⟩
  | env {s : St M B P} {e : Env B} : Reach own m₀ s → EnvStep s.env e →
      Reach own m₀ { s with env := e }
  | own {s s' : St M B P} : Reach own m₀ s → own s s' → Reach own m₀ s'

end Scigo.Stream
