import Verif.LGB.Tree

/-!
# LightGBM ensembles

Model of `Model.Predict` (`sklearn/lightgbm/model.go`), `Predictor.Predict`, `PredictProba`
(`predictor.go`) and `PredictRawScore` (`predictor_extended.go`), `SimplePredictor` (`simple_predictor.go`).
-/

set_option linter.unusedSectionVars false

namespace Scigo.LGB

variable {α : Type _}

/-- `Model` (`sklearn/lightgbm/model.go:173-203`). Simplified: without `BoostingType`, `NumLeaves`,
`MaxDepth`, `FeatureNames`, `FeatureImportance`, `Version`, `Parameters`, `Sigmoid`, `RandomSeed`, which no
prediction reads. -/
structure Model (α : Type _) where
  objective : String
  numClass : Int
  numIteration : Int
  learningRate : α
  trees : List (Tree α)
  numFeatures : Int
  bestIteration : Int
  initScore : α
  deterministic : Bool

/-- literals and `math` functions (`sklearn/lightgbm/model.go:471-517`,
`sklearn/lightgbm/predictor.go:378-437`) -/
structure ENum (α : Type _) extends PNum α where
  exp : α → α
  ofNat : Nat → α
  huge : α      -- 1e308
  c700 : α
  c500 : α
  inf : α

section

variable [BEq α] [LE α] [DecidableLE α] [LT α] [DecidableLT α] [Zero α] [One α] [Add α] [Sub α] [Neg α]
  [Mul α] [Div α]

/-- the starting scores: one per class for more than two classes, otherwise one
(`sklearn/lightgbm/model.go:256-266`, `sklearn/lightgbm/predictor.go:156-166`, `sklearn/lightgbm/predictor_extended.go:100-109`) -/
def Model.start (m : Model α) : List α :=
  if m.numClass > 2 then List.replicate m.numClass.toNat m.initScore else [m.initScore]

/-- the score a tree adds to: tree `i` belongs to class `i % NumClass`
(`sklearn/lightgbm/model.go:273-279`) -/
def Model.slot (m : Model α) (i : Nat) : Nat := if m.numClass > 2 then i % m.numClass.toNat else 0

/-- accumulate the outputs of a list of trees, `upd` adding one output to a score
(`sklearn/lightgbm/model.go:269-280`) -/
def Model.accumulate (m : Model α) (out : Tree α → Outcome α) (upd : Tree α → α → α → α) :
    List (Tree α × Nat) → List α → Outcome (List α)
  | [], p => .ok p
  | (t, i) :: ts, p =>
    match out t with
    | .ok v => m.accumulate out upd ts (p.modify (m.slot i) (fun s => upd t s v))
    | .err e => .err e
    | .panic s => .panic s

/-- the sum of the first `k` trees as `PredictSingle` computes it (`sklearn/lightgbm/model.go:256-280`) -/
def Model.raw (toInt : α → Int) (m : Model α) (k : Nat) (x : List α) : Outcome (List α) :=
  m.accumulate (fun t => t.predict toInt x) (fun _ s v => s + v) (m.trees.take k).zipIdx m.start

/-- `exp` (`sklearn/lightgbm/model.go:475-494`): the first 21 terms of the power series -/
def taylorExp (N : ENum α) (x : α) : α :=
  if N.c700 < x then N.huge
  else if x < -N.c700 then 0
  else ((List.range 20).foldl (fun (s : α × α) i =>
    let term := s.1 * (x / N.ofNat (i + 1))
    (term, s.2 + term)) (1, 1)).2

/-- `sigmoid` (`sklearn/lightgbm/model.go:471-473`) -/
def taylorSigmoid (N : ENum α) (x : α) : α := 1 / (1 + taylorExp N (-x))

/-- the largest entry, starting from the first (`sklearn/lightgbm/model.go:498-503`) -/
def maxOf (l : List α) : α := l.tail.foldl (fun m v => if m < v then v else m) (l.headD 0)

/-- `softmax` (`sklearn/lightgbm/model.go:496-519`) for a given exponential; the lists it is applied to
are never empty -/
def softmaxWith (exp : α → α) (l : List α) : List α :=
  let e := l.map (fun v => exp (v - maxOf l))
  e.map (fun v => v / sumOver e id)

/-- the final transformation of `PredictSingle` (`sklearn/lightgbm/model.go:282-290`) -/
def Model.link (N : ENum α) (m : Model α) (p : List α) : List α :=
  if m.objective = "binary" ∨ m.objective = "cross_entropy" then p.modify 0 (taylorSigmoid N)
  else if m.objective = "multiclass" then softmaxWith (taylorExp N) p
  else p

/-- `PredictSingle` (`sklearn/lightgbm/model.go:251-293`); a negative number of iterations means all -/
def Model.predictSingle (N : ENum α) (toInt : α → Int) (m : Model α) (x : List α) (k : Int) : Outcome (List α) :=
  let n := if k < 0 ∨ k > m.trees.length then m.trees.length else k.toNat
  (m.raw toInt n x).map (m.link N)

/-- number of output columns (`sklearn/lightgbm/model.go:223-229`) -/
def Model.outCols (m : Model α) : Nat := if m.numClass > 2 then m.numClass.toNat else 1

/-- row `i` as a slice, `mat.Row(nil, i, X)` (`sklearn/lightgbm/model.go:234`) -/
def rowOf (X : Mat α) (i : Nat) : List α := (List.range X.c).map (X.at' i)

/-- the loop over the rows: run `f` on every row in order, the first panic ends it
(`sklearn/lightgbm/model.go:233-244`) -/
def forRows (X : Mat α) (f : List α → Outcome (List α)) : Nat → Outcome (List (List α))
  | 0 => .ok []
  | n + 1 =>
    match forRows X f n with
    | .ok rows => match f (rowOf X n) with
      | .ok p => .ok (rows ++ [p])
      | .err e => .err e
      | .panic s => .panic s
    | .err e => .err e
    | .panic s => .panic s

/-- the checks before and the matrix after the loop over the rows: a wrong width is an error,
`mat.NewDense(0, …)` panics (`sklearn/lightgbm/model.go:217-247`) -/
def Model.batch (m : Model α) (X : Mat α) (f : List α → Outcome (List α)) : Outcome (Mat α) :=
  if (X.c : Int) ≠ m.numFeatures then .err (.other "feature dimension mismatch")
  else if X.r = 0 then .panic "mat: zero length in matrix dimension"
  else match forRows X f X.r with
    | .ok rows => .ok ⟨X.r, m.outCols, fun i j => (rows.getD i []).getD j 0⟩
    | .err e => .err e
    | .panic s => .panic s

/-- `Model.Predict` (`sklearn/lightgbm/model.go:217-247`) -/
def Model.predict (N : ENum α) (toInt : α → Int) (m : Model α) (X : Mat α) : Outcome (Mat α) :=
  m.batch X (fun x => m.predictSingle N toInt x (-1))

/-- `PredictRawScore` (`sklearn/lightgbm/predictor_extended.go:13-57,98-126`) -/
def Model.predictRawScore (toInt : α → Int) (m : Model α) (X : Mat α) : Outcome (Mat α) :=
  m.batch X (fun x => m.raw toInt m.trees.length x)

/-! ## Predictor -/

/-- `stableSigmoid` (`sklearn/lightgbm/predictor.go:378-395`) -/
def stableSigmoid (N : ENum α) (x : α) : α :=
  if N.c500 < x then 1
  else if x < -N.c500 then 0
  else if 0 ≤ x then N.toPNum.ensure (1 / (1 + N.exp (-x)))
  else N.toPNum.ensure (N.exp x / (1 + N.exp x))

/-- `stableExp` (`sklearn/lightgbm/predictor.go:398-409`) -/
def stableExp (N : ENum α) (x : α) : α :=
  if N.c700 < x then N.inf else if x < -N.c700 then 0 else N.toPNum.ensure (N.exp x)

/-- `stableSoftmax` (`sklearn/lightgbm/predictor.go:412-437`) -/
def stableSoftmax (N : ENum α) (l : List α) : List α :=
  let e := l.map (fun v => stableExp N (v - maxOf l))
  if 0 < sumOver e id then e.map (fun v => N.toPNum.ensure (v / sumOver e id)) else e

/-- `applyObjectiveTransformation` (`sklearn/lightgbm/predictor.go:317-343`) -/
def Model.pLink (N : ENum α) (m : Model α) (p : List α) : List α :=
  if m.objective = "binary" ∨ m.objective = "cross_entropy" then p.modify 0 (stableSigmoid N)
  else if m.objective = "multiclass" then stableSoftmax N p
  else if m.objective = "poisson" ∨ m.objective = "gamma" ∨ m.objective = "tweedie" then p.map (stableExp N)
  else p

/-- the shrinkage applied to a tree (`sklearn/lightgbm/predictor.go:187-190`) -/
def Model.rate (m : Model α) (t : Tree α) : α := if t.shrinkage == 0 then m.learningRate else t.shrinkage

/-- the number of trees used (`sklearn/lightgbm/predictor.go:168-180`) -/
def Model.usedTrees (m : Model α) : Nat :=
  let n := if m.bestIteration > 0 ∧ m.bestIteration < m.numIteration then m.bestIteration else m.numIteration
  if n = 0 then m.trees.length else n.toNat

/-- missing values become 0 (`sklearn/lightgbm/predictor.go:146-151`) -/
def fillMissing (x : List α) : List α := x.map (fun v => if isNaN v then 0 else v)

/-- the scores before the final transformation (`sklearn/lightgbm/predictor.go:144-199`) -/
def Model.pRaw (N : ENum α) (m : Model α) (x : List α) : Outcome (List α) :=
  m.accumulate (fun t => t.pPredict N.toPNum (fillMissing x))
    (fun t s v => N.toPNum.ensure (s + v * m.rate t)) (m.trees.take m.usedTrees).zipIdx m.start

/-- `predictSingleSample` (`sklearn/lightgbm/predictor.go:144-205`) -/
def Model.pSample (N : ENum α) (m : Model α) (x : List α) : Outcome (List α) :=
  (m.pRaw N x).map (m.pLink N)

/-- `Predictor.Predict` without goroutines (`sklearn/lightgbm/predictor.go:46-102`) -/
def Model.pPredict (N : ENum α) (m : Model α) (X : Mat α) : Outcome (Mat α) := m.batch X (m.pSample N)

/-! ## SimplePredictor -/

/-- the scores (`sklearn/lightgbm/simple_predictor.go:226-256`) -/
def Model.sRaw (m : Model α) (x : List α) : Outcome (List α) :=
  m.accumulate (fun t => t.sPredict x) (fun _ s v => s + v) m.trees.zipIdx m.start

/-- `sigmoid` (`sklearn/lightgbm/simple_predictor.go:177-195`) -/
def simpleSigmoid (N : ENum α) (x : α) : α :=
  if N.c500 < x then 1
  else if x < -N.c500 then 0
  else if 0 ≤ x then 1 / (1 + N.exp (-x))
  else N.exp x / (1 + N.exp x)

/-- `softmax` (`sklearn/lightgbm/simple_predictor.go:198-223`) -/
def simpleSoftmax (N : ENum α) (l : List α) : List α :=
  let e := l.map (fun v => N.exp (v - maxOf l))
  if 0 < sumOver e id then e.map (fun v => v / sumOver e id) else e

/-- `SimplePredictor.PredictSingle` (`sklearn/lightgbm/simple_predictor.go:24-62`): more than two classes
always get the softmax -/
def Model.sSample (N : ENum α) (m : Model α) (x : List α) : Outcome (List α) :=
  (m.sRaw x).map (fun p =>
    if m.numClass > 2 then simpleSoftmax N p
    else if m.objective = "binary" ∨ m.objective = "cross_entropy" then p.modify 0 (simpleSigmoid N)
    else p)

end

end Scigo.LGB
