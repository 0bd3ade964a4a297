import Mathlib.Data.List.Basic

/-!
# Who owns the slices that go in and out of the estimators

Slices are addresses of buffers, so that sharing is visible.  There are two kinds of buffers, as in
the code: `[]float64` or `[]int` (`row`), and `[][]float64` (`tab`, whose entries are nil or the
address of a row).  A nil slice is `none`.  Simplified: a slice is a whole buffer (offset 0, length
= capacity); no accessor modelled here re-slices.  Integers and floating point numbers share one
carrier `α`.
-/

namespace Scigo.Own

/-- The memory: rows (`[]float64`, `[]int`) and tables (`[][]float64`); addresses below `nextR`,
`nextT` are allocated.  Models Go's heap as far as the slices of
`sklearn/linear_model/sgd_classifier.go:698-743`, `sklearn/naive_bayes/multinomial_nb.go:404-452`
and `sklearn/cluster/minibatch_kmeans.go:419-443` need it. -/
structure Heap (α : Type) where
  nextR : Nat
  row : Nat → List α
  nextT : Nat
  tab : Nat → List (Option Nat)

/-- Changes a memory at one address.  Models slice assignment such as
`sklearn/naive_bayes/multinomial_nb.go:434`. -/
def upd {β : Type} (m : Nat → β) (p : Nat) (b : β) : Nat → β := fun q => if q = p then b else m q

variable {α : Type}

/-- `make([]float64, len(src))` followed by `copy(dst, src)`; a nil source has length 0.
Models `sklearn/linear_model/sgd_regressor.go:640-642`. -/
def Heap.copyRow (h : Heap α) (p : Option Nat) : Heap α × Nat :=
  ({ h with nextR := h.nextR + 1,
            row := upd h.row h.nextR (match p with | some q => h.row q | none => []) }, h.nextR)

/-- The loop `coef[i] = make(...); copy(coef[i], src[i])` over the entries `l` of the source; `acc`
are the entries already made.  Models `sklearn/linear_model/sgd_classifier.go:712-715`. -/
def Heap.copyRows (h : Heap α) : List (Option Nat) → List (Option Nat) → Heap α × List (Option Nat)
  | [], acc => (h, acc)
  | p :: l, acc => ((h.copyRow p).1).copyRows l (acc ++ [some (h.copyRow p).2])

/-- `make([][]float64, len(src))` and a copy of every row.
Models `sklearn/linear_model/sgd_classifier.go:711-716` and
`sklearn/naive_bayes/multinomial_nb.go:434-439`. -/
def Heap.copyTab (h : Heap α) (p : Option Nat) : Heap α × Nat :=
  let r := h.copyRows (match p with | some q => h.tab q | none => []) []
  ({ r.1 with nextT := r.1.nextT + 1, tab := upd r.1.tab r.1.nextT r.2 }, r.1.nextT)

/-- The slice fields of the estimators with one level.
Models `sklearn/linear_model/sgd_classifier.go:42-55`, `sklearn/linear_model/sgd_regressor.go:43-52`,
`sklearn/naive_bayes/multinomial_nb.go:28-38`, `sklearn/cluster/minibatch_kmeans.go:43-47`,
`sklearn/tree/tree.go:44-49` and `sklearn/linear_model/linear_regression.go:33-34`. -/
inductive F1
  | coef | avgCoef | intercept | avgIntercept | classes | lossHistory
  | labels | classLogPrior | classCount | classPrior | importances
  deriving DecidableEq

/-- The slice fields with two levels.  Models the same structures. -/
inductive F2
  | coefs | avgCoefs | centers | featureLogProb | featureCount
  deriving DecidableEq

/-- An estimator: the slices in its fields and the option `average`.
Models the structures cited at `F1`; an estimator uses the fields of its own structure only. -/
structure Est where
  s1 : F1 → Option Nat
  s2 : F2 → Option Nat
  average : Bool

/-- What an accessor hands out: nil, or the address of a row or table.
Models the result types `[]float64`, `[]int` and `[][]float64`. -/
inductive Out
  | null
  | row (p : Nat)
  | tab (p : Nat)
  deriving DecidableEq

/-- The accessors of learned attributes. -/
inductive Acc
  /-- Models `sklearn/linear_model/sgd_regressor.go:630-643` (`Coef`). -/
  | sgdRegCoef
  /-- Models `sklearn/linear_model/sgd_regressor.go:585-592` and
  `sklearn/linear_model/sgd_classifier.go:653-660` (`GetLossHistory`). -/
  | lossHistory
  /-- Models `sklearn/linear_model/sgd_classifier.go:698-717` (`Coef`). -/
  | sgdClfCoef
  /-- Models `sklearn/linear_model/sgd_classifier.go:720-733` (`Intercept`). -/
  | sgdClfIntercept
  /-- Models `sklearn/linear_model/sgd_classifier.go:736-743` (`Classes`). -/
  | sgdClfClasses
  /-- Models `sklearn/linear_model/linear_regression.go:257-264` (`Coef`). -/
  | linCoef
  /-- Models `sklearn/cluster/minibatch_kmeans.go:419-429` (`ClusterCenters`). -/
  | clusterCenters
  /-- Models `sklearn/cluster/minibatch_kmeans.go:432-443` (`Labels`). -/
  | labels
  /-- Models `sklearn/naive_bayes/multinomial_nb.go:404-415` (`Classes`). -/
  | nbClasses
  /-- Models `sklearn/naive_bayes/multinomial_nb.go:425-440` (`FeatureLogProb`). -/
  | featureLogProb
  /-- Models `sklearn/naive_bayes/multinomial_nb.go:443-454` (`ClassLogPrior`). -/
  | classLogPrior
  /-- Models `sklearn/tree/tree.go:572-581` (`GetFeatureImportances`). -/
  | importances
  deriving DecidableEq

/-- `if x == nil { return nil }`, then a copy.  Models
`sklearn/naive_bayes/multinomial_nb.go:447-453`. -/
def copyRowUnlessNil (h : Heap α) : Option Nat → Heap α × Out
  | none => (h, .null)
  | some p => ((h.copyRow (some p)).1, .row (h.copyRow (some p)).2)

/-- The same for two levels.  Models `sklearn/naive_bayes/multinomial_nb.go:429-439`. -/
def copyTabUnlessNil (h : Heap α) : Option Nat → Heap α × Out
  | none => (h, .null)
  | some p => ((h.copyTab (some p)).1, .tab (h.copyTab (some p)).2)

/-- What each accessor does.  Models the functions cited at the constructors of `Acc`. -/
def Acc.run (h : Heap α) (e : Est) : Acc → Heap α × Out
  | .sgdRegCoef =>
    if e.average && (e.s1 .avgCoef).isSome then
      ((h.copyRow (e.s1 .avgCoef)).1, .row (h.copyRow (e.s1 .avgCoef)).2)
    else ((h.copyRow (e.s1 .coef)).1, .row (h.copyRow (e.s1 .coef)).2)
  | .lossHistory => ((h.copyRow (e.s1 .lossHistory)).1, .row (h.copyRow (e.s1 .lossHistory)).2)
  | .sgdClfCoef =>
    if e.average && (e.s2 .avgCoefs).isSome then
      ((h.copyTab (e.s2 .avgCoefs)).1, .tab (h.copyTab (e.s2 .avgCoefs)).2)
    else ((h.copyTab (e.s2 .coefs)).1, .tab (h.copyTab (e.s2 .coefs)).2)
  | .sgdClfIntercept =>
    if e.average && (e.s1 .avgIntercept).isSome then
      ((h.copyRow (e.s1 .avgIntercept)).1, .row (h.copyRow (e.s1 .avgIntercept)).2)
    else ((h.copyRow (e.s1 .intercept)).1, .row (h.copyRow (e.s1 .intercept)).2)
  | .sgdClfClasses => ((h.copyRow (e.s1 .classes)).1, .row (h.copyRow (e.s1 .classes)).2)
  | .linCoef => copyRowUnlessNil h (e.s1 .coef)
  | .clusterCenters => ((h.copyTab (e.s2 .centers)).1, .tab (h.copyTab (e.s2 .centers)).2)
  | .labels => copyRowUnlessNil h (e.s1 .labels)
  | .nbClasses => copyRowUnlessNil h (e.s1 .classes)
  | .featureLogProb => copyTabUnlessNil h (e.s2 .featureLogProb)
  | .classLogPrior => copyRowUnlessNil h (e.s1 .classLogPrior)
  | .importances => copyRowUnlessNil h (e.s1 .importances)

/-- Memory, one estimator, and the addresses the caller holds. -/
structure World (α : Type) where
  heap : Heap α
  est : Est
  rows : List Nat
  tabs : List Nat

/-- What the caller can do with the slices it holds, besides calling the estimator. -/
inductive Client (α : Type)
  /-- call an accessor and keep the result -/
  | call (a : Acc)
  /-- make a slice of its own -/
  | newRow (l : List α)
  /-- take the row `t[i]` out of a table it holds -/
  | look (t i : Nat)
  /-- assign `r[i] = x` -/
  | write (r i : Nat) (x : α)
  /-- assign `t[i] = r`, or `t[i] = nil` -/
  | store (t i : Nat) (r : Option Nat)

/-- Adds an accessor's result to the addresses the caller holds. -/
def World.learn (w : World α) (h : Heap α) : Out → World α
  | .null => { w with heap := h }
  | .row p => { w with heap := h, rows := p :: w.rows }
  | .tab p => { w with heap := h, tabs := p :: w.tabs }

/-- One action of the caller.  A slice it does not hold cannot be touched, and an index out of
range panics in Go: in both cases nothing changes. -/
def World.client (w : World α) : Client α → World α
  | .call a => w.learn (a.run w.heap w.est).1 (a.run w.heap w.est).2
  | .newRow l => { w with heap := { w.heap with nextR := w.heap.nextR + 1,
                                                row := upd w.heap.row w.heap.nextR l },
                          rows := w.heap.nextR :: w.rows }
  | .look t i =>
    if t ∈ w.tabs then
      match (w.heap.tab t)[i]? with
      | some (some p) => { w with rows := p :: w.rows }
      | _ => w
    else w
  | .write r i x =>
    if r ∈ w.rows then
      { w with heap := { w.heap with row := upd w.heap.row r ((w.heap.row r).set i x) } }
    else w
  | .store t i r =>
    if t ∈ w.tabs ∧ (∀ p, r = some p → p ∈ w.rows) then
      { w with heap := { w.heap with tab := upd w.heap.tab t ((w.heap.tab t).set i r) } }
    else w

/-- What training does to the slices of the estimator.  Every assignment to a field listed here is
of one of these kinds: in-place updates (`sklearn/linear_model/sgd_classifier.go:377`,
`sklearn/cluster/minibatch_kmeans.go:278`, `sklearn/naive_bayes/multinomial_nb.go:189`), fresh
slices (`sklearn/linear_model/sgd_classifier.go:796-805`), an append to the loss history
(`sklearn/linear_model/sgd_regressor.go:219`; modelled as a fresh slice), copies of what the caller
passes (`sklearn/linear_model/sgd_classifier.go:237-238`,
`sklearn/naive_bayes/multinomial_nb.go:156-157`, `sklearn/linear_model/linear_regression.go:351-352`)
and nil on reset (`sklearn/linear_model/sgd_classifier.go:868-872`).  The values written are
arbitrary. -/
inductive Train (α : Type)
  | set1 (f : F1) (i : Nat) (x : α)
  | set2 (f : F2) (i j : Nat) (x : α)
  | fresh1 (f : F1) (l : List α)
  | fresh2 (f : F2) (l : List (List α))
  | drop1 (f : F1)
  | drop2 (f : F2)
  /-- copy a slice the caller passes (`classes` of `PartialFit`, `Coefficients` of
  `ImportWeights`) -/
  | copyArg (f : F1) (p : Nat)

/-- Puts an address into a field of the estimator. -/
def Est.put1 (e : Est) (f : F1) (p : Option Nat) : Est :=
  { e with s1 := fun g => if g = f then p else e.s1 g }

/-- Puts an address into a field of the estimator. -/
def Est.put2 (e : Est) (f : F2) (p : Option Nat) : Est :=
  { e with s2 := fun g => if g = f then p else e.s2 g }

/-- Makes rows with the given contents.
Models `sklearn/linear_model/sgd_classifier.go:802-808`. -/
def Heap.newRows (h : Heap α) : List (List α) → List (Option Nat) → Heap α × List (Option Nat)
  | [], acc => (h, acc)
  | l :: ls, acc =>
    Heap.newRows { h with nextR := h.nextR + 1, row := upd h.row h.nextR l } ls
      (acc ++ [some h.nextR])

/-- One action of training.  Models the assignments cited at `Train`. -/
def World.train (w : World α) : Train α → World α
  | .set1 f i x =>
    match w.est.s1 f with
    | some p => { w with heap := { w.heap with row := upd w.heap.row p ((w.heap.row p).set i x) } }
    | none => w
  | .set2 f i j x =>
    match w.est.s2 f with
    | some t =>
      match (w.heap.tab t)[i]? with
      | some (some p) =>
        { w with heap := { w.heap with row := upd w.heap.row p ((w.heap.row p).set j x) } }
      | _ => w
    | none => w
  | .fresh1 f l =>
    { w with heap := { w.heap with nextR := w.heap.nextR + 1,
                                   row := upd w.heap.row w.heap.nextR l },
             est := w.est.put1 f (some w.heap.nextR) }
  | .fresh2 f l =>
    { w with heap := { (w.heap.newRows l []).1 with
                         nextT := (w.heap.newRows l []).1.nextT + 1,
                         tab := upd (w.heap.newRows l []).1.tab (w.heap.newRows l []).1.nextT
                                  (w.heap.newRows l []).2 },
             est := w.est.put2 f (some (w.heap.newRows l []).1.nextT) }
  | .drop1 f => { w with est := w.est.put1 f none }
  | .drop2 f => { w with est := w.est.put2 f none }
  | .copyArg f p =>
    if p ∈ w.rows then
      { w with heap := (w.heap.copyRow (some p)).1,
               est := w.est.put1 f (some (w.heap.copyRow (some p)).2) }
    else w

/-- `WithClassPrior(prior)`: the option keeps the caller's slice itself.
Models `sklearn/naive_bayes/multinomial_nb.go:83-87`. -/
def World.keepPrior (w : World α) (p : Nat) : World α :=
  if p ∈ w.rows then { w with est := w.est.put1 .classPrior (some p) } else w

/-- A step of the program: the caller or training. -/
inductive Op (α : Type)
  | client (c : Client α)
  | train (t : Train α)

/-- One step. -/
def World.step (w : World α) : Op α → World α
  | .client c => w.client c
  | .train t => w.train t

/-- A program: any number of steps. -/
def World.run (w : World α) (l : List (Op α)) : World α := l.foldl World.step w

/-- A new estimator: empty memory, all fields nil, the caller holds nothing.
Models `sklearn/linear_model/sgd_classifier.go:62-100` and the other constructors. -/
def World.start (average : Bool) : World α where
  heap := ⟨0, fun _ => [], 0, fun _ => []⟩
  est := ⟨fun _ => none, fun _ => none, average⟩
  rows := []
  tabs := []

/-- The contents behind a slice with one level (nil shows as empty). -/
def Heap.see1 (h : Heap α) : Option Nat → List α
  | none => []
  | some p => h.row p

/-- The contents behind a slice with two levels. -/
def Heap.see2 (h : Heap α) : Option Nat → List (List α)
  | none => []
  | some t => (h.tab t).map h.see1

/-- All that the slices of an estimator contain, now. -/
def World.shows (w : World α) : (F1 → List α) × (F2 → List (List α)) :=
  (fun f => w.heap.see1 (w.est.s1 f), fun f => w.heap.see2 (w.est.s2 f))

end Scigo.Own
