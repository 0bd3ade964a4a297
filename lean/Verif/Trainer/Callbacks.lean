import Verif.Boost.EarlyStop

/-!
# Callbacks of the trainer

Model of `sklearn/lightgbm/callbacks.go` and of the part of `Trainer.Fit` that calls them
(`sklearn/lightgbm/trainer.go:453-550`). The trainer is any machine `M` that makes one iteration at a time; a
callback may change everything it can reach: the environment it is given and its own state (captured
variables, files, the terminal), all of which is in `own`. A panic or an error ends the run, the state at that
moment stays visible. Not modelled: a callback that writes into the nodes of the trees of `env.Model`, which
are shared with the trainer.
-/

namespace Scigo.Trainer.Callbacks

/-- what the callbacks of the library read and write of `env.Model`: sklearn/lightgbm/trainer.go:1383-1390 -/
structure Snap (τ α : Type) where
  trees : List τ
  rate : α
  leaves : Int
  deriving DecidableEq

/-- `CallbackEnv` without the two times, which nothing reads; the entries of `EvalResults` are listed in the
order in which `range` meets them, a value is `none` if it is NaN: sklearn/lightgbm/callbacks.go:12-19 -/
structure Env (τ α β : Type) where
  model : Option (Snap τ α)
  iteration : Nat
  eval : List (String × Option β)
  stop : Bool

/-- the environment and everything else a callback can reach: sklearn/lightgbm/callbacks.go:12-22 -/
structure St (τ α β κ : Type) where
  env : Env τ α β
  own : κ

/-- `Callback`: sklearn/lightgbm/callbacks.go:22 -/
abbrev Call (S : Type) := S → S × Outcome Unit

variable {τ α β κ T : Type}

/-- the loop of `BeforeIteration`: sklearn/lightgbm/callbacks.go:143-151 -/
def runBefore : List (Call (St τ α β κ)) → Call (St τ α β κ)
  | [], s => (s, .ok ())
  | c :: cs, s =>
    match (c s).2 with
    | .ok _ => if (c s).1.env.stop then ((c s).1, .ok ()) else runBefore cs (c s).1
    | e => ((c s).1, e)

/-- the loop of `AfterIteration`: sklearn/lightgbm/callbacks.go:162-167 -/
def runAfter : List (Call (St τ α β κ)) → Call (St τ α β κ)
  | [], s => (s, .ok ())
  | c :: cs, s =>
    match (c s).2 with
    | .ok _ => runAfter cs (c s).1
    | e => ((c s).1, e)

/-- the assignments of `BeforeIteration`: sklearn/lightgbm/callbacks.go:138-142 -/
def St.before (s : St τ α β κ) (iter : Nat) (m : Snap τ α) : St τ α β κ :=
  { s with env := { s.env with iteration := iter, model := some m } }

/-- the assignments of `AfterIteration`: sklearn/lightgbm/callbacks.go:156-161 -/
def St.after (s : St τ α β κ) (iter : Nat) (m : Snap τ α) (e : List (String × Option β)) : St τ α β κ :=
  { s with env := { s.env with iteration := iter, model := some m, eval := e } }

/-- the trainer as the loop sees it: one iteration without callbacks, `GetModel` and the results of the
iteration: sklearn/lightgbm/trainer.go:472-517, 1383-1401 -/
structure Machine (T τ α β : Type) where
  step : Nat → T → Outcome T
  snap : T → Snap τ α
  eval : T → List (String × Option β)

/-- the training loop, `n` iterations from `iter` on; the trainer and the callback list after it, and the error
returned: sklearn/lightgbm/trainer.go:453-550. An error of a callback is wrapped in Go (`%w`). -/
def fitLoop (M : Machine T τ α β) (cbs : List (Call (St τ α β κ))) :
    Nat → Nat → T → St τ α β κ → T × St τ α β κ × Outcome Unit
  | 0, _, t, s => (t, s, .ok ())
  | n + 1, iter, t, s =>
    match (runBefore cbs (s.before iter (M.snap t))).2 with
    | .ok _ =>
      if (runBefore cbs (s.before iter (M.snap t))).1.env.stop then
        (t, (runBefore cbs (s.before iter (M.snap t))).1, .ok ())
      else
        match M.step iter t with
        | .ok t' =>
          match (runAfter cbs ((runBefore cbs (s.before iter (M.snap t))).1.after iter (M.snap t') (M.eval t'))).2 with
          | .ok _ =>
            if (runAfter cbs ((runBefore cbs (s.before iter (M.snap t))).1.after iter (M.snap t') (M.eval t'))).1.env.stop then
              (t', (runAfter cbs ((runBefore cbs (s.before iter (M.snap t))).1.after iter (M.snap t') (M.eval t'))).1, .ok ())
            else
              fitLoop M cbs n (iter + 1) t'
                (runAfter cbs ((runBefore cbs (s.before iter (M.snap t))).1.after iter (M.snap t') (M.eval t'))).1
          | e => (t', (runAfter cbs ((runBefore cbs (s.before iter (M.snap t))).1.after iter (M.snap t') (M.eval t'))).1, e)
        | .err e => (t, (runBefore cbs (s.before iter (M.snap t))).1, .err e)
        | .panic v => (t, (runBefore cbs (s.before iter (M.snap t))).1, .panic v)
    | e => (t, (runBefore cbs (s.before iter (M.snap t))).1, e)

/-- `NewCallbackList`: sklearn/lightgbm/callbacks.go:128-135 -/
def St.fresh (own : κ) : St τ α β κ := ⟨⟨none, 0, [], false⟩, own⟩

/-- `Fit` with the callback list `s` after the preparations: sklearn/lightgbm/trainer.go:453-553 -/
def fit (M : Machine T τ α β) (cbs : List (Call (St τ α β κ))) (n : Nat) (t : T) (s : St τ α β κ) :
    T × St τ α β κ × Outcome Unit :=
  fitLoop M cbs n 0 t s

/-- `FitWithCallbacks`: a new list each time: sklearn/lightgbm/callbacks.go:224-234 -/
def fitWithCallbacks (M : Machine T τ α β) (cbs : List (Call (St τ α β κ))) (n : Nat) (t : T) (own : κ) :
    T × St τ α β κ × Outcome Unit :=
  fit M cbs n t (St.fresh own)

/-! ## The callbacks of the library

Each has its own state in a component `χ` of everything (`get`, `set`). -/

/-- a component of `κ`, the variables captured by one callback: sklearn/lightgbm/callbacks.go:52-58 -/
structure Part (κ χ : Type) where
  get : κ → χ
  set : χ → κ → κ

variable {χ : Type}

/-- a callback that sees the environment and its own variables: sklearn/lightgbm/callbacks.go:22 -/
abbrev Lib (τ α β χ : Type) := Env τ α β → χ → (Env τ α β × χ) × Outcome Unit

/-- the callback as part of a program with more state (`sklearn/lightgbm/callbacks.go:22`) -/
def Lib.on (p : Part κ χ) (f : Lib τ α β χ) : Call (St τ α β κ) := fun s =>
  (⟨(f s.env (p.get s.own)).1.1, p.set (f s.env (p.get s.own)).1.2 s.own⟩, (f s.env (p.get s.own)).2)

/-- Go's `a % b` of non-negative operands, which panics for 0: sklearn/lightgbm/callbacks.go:26, 182, 195 -/
def goMod (a : Nat) (b : Int) : Option Int := if b = 0 then none else some ((a : Int).tmod b)

/-- `PrintEvaluation(period)`; the own state are the lines printed: sklearn/lightgbm/callbacks.go:25-36 -/
def printEvaluation (period : Int) : Lib τ α β (List (Nat × List (String × Option β))) := fun e lines =>
  match goMod e.iteration period with
  | none => ((e, lines), .panic "integer divide by zero")
  | some r => ((e, if r = 0 then lines ++ [(e.iteration, e.eval)] else lines), .ok ())

/-- `TimeLimit(maxDuration)`; `clock` are the readings of the clock in order, the own state counts them,
`start` is the reading at the creation: sklearn/lightgbm/callbacks.go:87-96 -/
def timeLimit (clock : Nat → Int) (start maxDuration : Int) : Lib τ α β Nat := fun e k =>
  ((if maxDuration < clock k - start then { e with stop := true } else e, k + 1), .ok ())

/-- a value of a parameter map: sklearn/lightgbm/callbacks.go:105-113 -/
inductive PVal (α : Type)
  | float (v : α)
  | int (v : Int)
  | other

/-- one entry of the parameter map applied to the model: sklearn/lightgbm/callbacks.go:104-115 -/
def Snap.apply (m : Snap τ α) (key : String) (v : PVal α) : Snap τ α :=
  if key = "learning_rate" then (match v with | .float x => { m with rate := x } | _ => m)
  else if key = "num_leaves" then (match v with | .int x => { m with leaves := x } | _ => m)
  else m

/-- `ResetParameter(paramFunc)`; the map is given by its entries: sklearn/lightgbm/callbacks.go:99-118. A nil
model is dereferenced only when a parameter is set. -/
def resetParameter (params : Nat → List (String × PVal α)) : Lib τ α β Unit := fun e u =>
  match e.model with
  | none => ((e, u), if (params e.iteration).isEmpty then .ok () else .panic "nil dereference")
  | some m => (({ e with model := some ((params e.iteration).foldl (fun m p => m.apply p.1 p.2) m) }, u), .ok ())

/-- `LearningRateSchedule(decayRate, decaySteps)`; the own state is `initialLR`: sklearn/lightgbm/callbacks.go:175-190 -/
def learningRateSchedule [LT α] [DecidableLT α] [Zero α] [Mul α] (decayRate : α) (decaySteps : Int) : Lib τ α β α :=
  fun e initial =>
  match e.model with
  | none => ((e, initial), .panic "nil dereference")
  | some m =>
    let initial' := if initial < 0 then m.rate else initial
    if 0 < e.iteration then
      match goMod e.iteration decaySteps with
      | none => ((e, initial'), .panic "integer divide by zero")
      | some r => (({ e with model := some (if r = 0 then { m with rate := m.rate * decayRate } else m) }, initial'), .ok ())
    else ((e, initial'), .ok ())

/-- the variables of `ModelCheckpoint`: the best score and the files, newest first; the file
`<path>_iter_<k>.json` is identified by `k`: sklearn/lightgbm/callbacks.go:193-194, 213 -/
structure Checkpoints (τ α β : Type) where
  best : Option β
  files : List (Nat × Snap τ α)

/-- the content of a file: sklearn/lightgbm/loader.go:457-463 -/
def Checkpoints.read (c : Checkpoints τ α β) (k : Nat) : Option (Snap τ α) := c.files.lookup k

section
variable [LT β] [DecidableRel (α := β) (· < ·)]

/-- the decision of `saveOnlyImproved`: the new best score and whether to save, by the first entry met:
sklearn/lightgbm/callbacks.go:199-210 -/
def firstImproves (best : Option β) : List (String × Option β) → Option β × Bool
  | [] => (best, true)
  | (_, v) :: _ => if Boost.below v best then (v, true) else (best, false)

/-- `ModelCheckpoint(filepath, period, saveOnlyImproved)`; `disk k` tells whether the file of iteration `k` can
be written: sklearn/lightgbm/callbacks.go:193-221 -/
def modelCheckpoint (disk : Nat → Bool) (period : Int) (saveOnlyImproved : Bool) : Lib τ α β (Checkpoints τ α β) :=
  fun e c =>
  match goMod e.iteration period with
  | none => ((e, c), .panic "integer divide by zero")
  | some r =>
    if r ≠ 0 then ((e, c), .ok ())
    else
      let d := if saveOnlyImproved then firstImproves c.best e.eval else (c.best, true)
      if d.2 then
        match e.model with
        | none => ((e, { c with best := d.1 }), .panic "nil dereference")
        | some m =>
          if disk e.iteration then ((e, ⟨d.1, (e.iteration, m) :: c.files⟩), .ok ())
          else ((e, { c with best := d.1 }), .err (.other "failed to save checkpoint"))
      else ((e, { c with best := d.1 }), .ok ())

end

end Scigo.Trainer.Callbacks
