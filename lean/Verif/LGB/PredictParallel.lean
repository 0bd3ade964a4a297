import Verif.LGB.Ensemble
import Verif.Parallel.Model

/-!
# `Predictor.predictParallel`

The goroutines of `sklearn/lightgbm/predictor.go:105-141`. The memory cell of row `i` is the row of the
prediction matrix, written entry by entry.
-/

set_option linter.unusedSectionVars false

namespace Scigo.LGB

open Scigo.Parallel (Action Memory Config callActions)

/-- `numWorkers` (`sklearn/lightgbm/predictor.go:109-112`) -/
def pWorkers (threads rows : Nat) : Nat := if threads > rows then rows else threads

/-- `chunkSize` (`sklearn/lightgbm/predictor.go:114`) -/
def pChunk (threads rows : Nat) : Nat := (rows + pWorkers threads rows - 1) / pWorkers threads rows

/-- the rows of worker `w` (`sklearn/lightgbm/predictor.go:119-123`); may be empty -/
def pRange (threads rows w : Nat) : Nat × Nat :=
  (w * pChunk threads rows,
    if w * pChunk threads rows + pChunk threads rows > rows then rows
    else w * pChunk threads rows + pChunk threads rows)

/-- the ranges handed to the goroutines, in the order of their start
(`sklearn/lightgbm/predictor.go:118-137`) -/
def pRanges (threads rows : Nat) : List (Nat × Nat) :=
  (List.range (pWorkers threads rows)).map (pRange threads rows)

variable {β : Type _}

/-- one step of some goroutine of `predictParallel` (`sklearn/lightgbm/predictor.go:116-140`): unlike
`Parallelize`, `wg.Add(numWorkers)` happens before the loop and starting a goroutine leaves the counter alone -/
inductive PStep (body : Nat → List (β → β)) : Config β → Config β → Prop
  | spawn (r rest ws n m) :
      PStep body ⟨r :: rest, ws, n, m, false⟩ ⟨rest, ws ++ [callActions body r], n, m, false⟩
  | work (pend A a p B n m) :
      PStep body ⟨pend, A ++ (a :: p) :: B, n, m, false⟩ ⟨pend, A ++ p :: B, n, a.run m, false⟩
  | done (pend A B n m) :
      PStep body ⟨pend, A ++ [] :: B, n + 1, m, false⟩ ⟨pend, A ++ B, n, m, false⟩
  | wait (ws m) :
      PStep body ⟨[], ws, 0, m, false⟩ ⟨[], ws, 0, m, true⟩

/-- start of `predictParallel` (`sklearn/lightgbm/predictor.go:105-116`) -/
def pStart (threads rows : Nat) (m : Memory β) : Config β :=
  ⟨pRanges threads rows, [], pWorkers threads rows, m, false⟩

/-- reachability under an arbitrary scheduler (sklearn/lightgbm/predictor.go:105-135) -/
def PReaches (body : Nat → List (β → β)) : Config β → Config β → Prop :=
  Relation.ReflTransGen (PStep body)

variable {α : Type _} [BEq α] [LE α] [DecidableLE α] [LT α] [DecidableLT α] [Zero α] [One α] [Add α] [Sub α]
  [Neg α] [Mul α] [Div α]

/-- the writes of one row: `SetRow` or `Set` (`sklearn/lightgbm/predictor.go:128-135`). Simplified: the
prediction of the row, which reads only `X` and the model, counts as part of the first write; a row whose
prediction panics ends the process, which is left out here. -/
def rowWrites (m : Model α) (X : Mat α) (f : List α → Outcome (List α)) (i : Nat) :
    List (List α → List α) :=
  match f (rowOf X i) with
  | .ok p => (List.range m.outCols).map (fun j row => row.set j (p.getD j 0))
  | _ => []

/-- the zero matrix `mat.NewDense(rows, outputCols, nil)` (`sklearn/lightgbm/predictor.go:60`) -/
def zeroRows (m : Model α) : Memory (List α) := fun _ => List.replicate m.outCols 0

end Scigo.LGB
