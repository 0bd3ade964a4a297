import Verif.CV.Model
import Verif.Parallel.Model

/-!
# Cross-validation

Model of `CrossValidate` (`sklearn/lightgbm/cross_validation.go:242-398`): one goroutine per fold, each
writing only the cells of its own fold. Training, prediction and the metric are parameters that return a
value or an error; times and messages are left out. A panic inside a goroutine ends the program, so this
describes runs without one.
-/

namespace Scigo.CV

open Scigo.Parallel

variable {α μ : Type _}

/-- `extractSubset` (`sklearn/lightgbm/cross_validation.go:374-398`): the rows in increasing order of index;
`mat.NewDense` panics without rows or columns -/
def subset (X : Mat α) (indices : List Nat) : Outcome (Mat α) :=
  if indices = [] ∨ X.c = 0 then .panic "mat: zero length in matrix dimension"
  else .ok ⟨indices.length, X.c, fun i j => X.at' ((indices.mergeSort (fun a b => decide (a ≤ b))).getD i 0) j⟩

/-- the cells of one fold in the result (`sklearn/lightgbm/cross_validation.go:248-254,270`) -/
structure Cell (α μ : Type _) where
  model : Option μ
  train : α
  test : α
  err : Option GoErr

/-- what the training of a fold sees: the training rows, and the test rows as validation data when early
stopping is on (`sklearn/lightgbm/cross_validation.go:286-305`) -/
structure Learner (α μ : Type _) where
  fit : Mat α → Mat α → Except GoErr μ
  fitValid : Mat α → Mat α → Mat α → Mat α → Except GoErr μ
  predict : μ → Mat α → Except GoErr (Mat α)
  score : Mat α → Mat α → α

/-- training a fold (`sklearn/lightgbm/cross_validation.go:284-305`) -/
def Learner.train (L : Learner α μ) (early : Bool) (trX trY teX teY : Mat α) : Except GoErr μ :=
  if early then L.fitValid trX trY teX teY else L.fit trX trY

/-- the writes of the goroutine of a fold after its data was extracted
(`sklearn/lightgbm/cross_validation.go:283-327`) -/
def Learner.program (L : Learner α μ) (early : Bool) (trX trY teX teY : Mat α) : List (Cell α μ → Cell α μ) :=
  match L.train early trX trY teX teY with
  | .error e => [fun c => { c with err := some e }]
  | .ok m =>
    (fun c => { c with model := some m }) ::
      match L.predict m trX with
      | .error e => [fun c => { c with err := some e }]
      | .ok p =>
        (fun c => { c with train := L.score trY p }) ::
          match L.predict m teX with
          | .error e => [fun c => { c with err := some e }]
          | .ok q => [fun c => { c with test := L.score teY q }]

/-- the goroutine of fold `k` on the extracted data (`sklearn/lightgbm/cross_validation.go:274-333`) -/
def Learner.body (L : Learner α μ) (early : Bool) (data : Nat → Mat α × Mat α × Mat α × Mat α) (k : Nat) :
    List (Cell α μ → Cell α μ) :=
  L.program early (data k).1 (data k).2.1 (data k).2.2.1 (data k).2.2.2

/-- the start: all goroutines still to be spawned, one per fold (`sklearn/lightgbm/cross_validation.go:269-274`) -/
def cvStart (nFolds : Nat) (m : Memory (Cell α μ)) : Config (Cell α μ) :=
  ⟨(List.range nFolds).map fun i => (i, i + 1), [], 0, m, false⟩

/-- the empty result (`sklearn/lightgbm/cross_validation.go:248-254`) -/
def emptyCells (zero : α) : Memory (Cell α μ) := fun _ => ⟨none, zero, zero, none⟩

/-- the comparison of scores (`sklearn/lightgbm/cross_validation.go:350-361`) -/
def better [LT α] [DecidableRel (α := α) (· < ·)] (loss : Bool) (new best : α) : Bool :=
  if loss then decide (new < best) else decide (best < new)

/-- the search for the best fold (`sklearn/lightgbm/cross_validation.go:346-362`) -/
def bestFold [LT α] [DecidableRel (α := α) (· < ·)] (loss : Bool) (score : Nat → α) (nFolds : Nat) : Nat × α :=
  (List.range' 1 (nFolds - 1)).foldl
    (fun b i => if better loss (score i) b.2 then (i, score i) else b) (0, score 0)

/-- `CVResult` (`sklearn/lightgbm/cross_validation.go:203-211`) -/
structure CVResult (α μ : Type _) where
  models : List (Option μ)
  train : List α
  test : List α
  best : Nat × α

/-- what is returned after `wg.Wait()` (`sklearn/lightgbm/cross_validation.go:338-370`): the first error in
fold order, otherwise the result -/
def collect [LT α] [DecidableRel (α := α) (· < ·)] (loss : Bool) (nFolds : Nat) (m : Memory (Cell α μ)) :
    Outcome (CVResult α μ) :=
  match (List.range nFolds).findSome? fun i => (m i).err with
  | some e => .err e
  | none =>
    if nFolds = 0 then .panic "index out of range"
    else .ok ⟨(List.range nFolds).map fun i => (m i).model, (List.range nFolds).map fun i => (m i).train,
      (List.range nFolds).map fun i => (m i).test, bestFold loss (fun i => (m i).test) nFolds⟩

/-- `isLossMetric` (`sklearn/lightgbm/cross_validation.go:470-479`) -/
def isLossMetric (metric : String) : Bool :=
  !(metric == "accuracy" || metric == "auc" || metric == "r2")

end Scigo.CV
