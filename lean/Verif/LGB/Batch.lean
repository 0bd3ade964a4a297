import Verif.LGB.Ensemble
import Verif.LGB.LeafIndex

/-!
# Matrices of leaf indices and the batch prediction of `SimplePredictor`
-/

set_option linter.unusedSectionVars false

namespace Scigo.LGB

/-- a loop that fills one entry per element; the first error or panic ends it
(`sklearn/lightgbm/predictor_extended.go:84-91,132-135`, `sklearn/lightgbm/predictor.go:487-490,538-553`) -/
def eachO {β γ : Type _} (f : β → Outcome γ) : List β → Outcome (List γ)
  | [] => .ok []
  | b :: bs => (f b).bind fun y => (eachO f bs).bind fun ys => .ok (y :: ys)

section
variable {α : Type _} [BEq α] [LE α] [DecidableLE α] [LT α] [DecidableLT α] [Zero α] [One α] [Add α] [Sub α]
  [Neg α] [Mul α] [Div α]

/-- `SimplePredictor.Predict` (`sklearn/lightgbm/simple_predictor.go:143-175`) -/
def Model.sPredict (N : ENum α) (m : Model α) (X : Mat α) : Outcome (Mat α) := m.batch X (m.sSample N)

/-- `predictSingleSampleLeaves` (`sklearn/lightgbm/predictor_extended.go:129-138`) -/
def Model.leavesOf (toInt : α → Int) (m : Model α) (x : List α) : Outcome (List Nat) :=
  eachO (fun t => t.predictLeaf toInt x) m.trees

/-- `PredictLeaf` (`sklearn/lightgbm/predictor_extended.go:61-96`); `ofNat` is the conversion to `float64`; `mat.NewDense` panics
without rows or without trees -/
def Model.predictLeaf (ofNat : Nat → α) (toInt : α → Int) (m : Model α) (X : Mat α) : Outcome (Mat α) :=
  if (X.c : Int) ≠ m.numFeatures then .err (.other "feature dimension mismatch")
  else if X.r = 0 ∨ m.trees.length = 0 then .panic "mat: zero length in matrix dimension"
  else (eachO (fun i => m.leavesOf toInt (rowOf X i)) (List.range X.r)).bind fun rows =>
    .ok ⟨X.r, m.trees.length, fun i j => ofNat ((rows.getD i []).getD j 0)⟩

/-- `getLeafIndices` (`sklearn/lightgbm/predictor.go:535-556`) -/
def Model.leafIndicesOf (P : PNum α) (m : Model α) (x : List α) : Outcome (List Nat) :=
  eachO (fun t => t.leafIndex P x) m.trees

/-- `PredictLeafIndex` (`sklearn/lightgbm/predictor.go:479-493`) -/
def Model.predictLeafIndex (P : PNum α) (m : Model α) (X : Mat α) : Outcome (List (List Nat)) :=
  if (X.c : Int) ≠ m.numFeatures then .err (.other "feature dimension mismatch")
  else eachO (fun i => m.leafIndicesOf P (rowOf X i)) (List.range X.r)

end

end Scigo.LGB
