import Verif.Base.Outcome
import Verif.Base.Sort
import Verif.Base.Mat
import Mathlib.Logic.Function.Basic

/-!
# LightGBM evaluation metrics (`sklearn/lightgbm/evaluation_metrics.go`)

The regression functions of this file (`MSE`, `MAE`, `R2Score`, `MAPE`, `ExplainedVarianceScore`) repeat those of package
`metrics`, which are modelled in `Verif.Metrics.Model`. The reports are in `Verif.Eval.Report`.
-/

namespace Scigo.Eval

section
variable {α : Type} [Add α] [Sub α] [Mul α] [Div α] [Neg α] [Zero α] [One α] [NatCast α] [LT α] [DecidableLT α] [BEq α]

/-- `ClassificationMetrics` (`sklearn/lightgbm/evaluation_metrics.go:14-21`); `nClasses` and `nSamples` are the lengths of
`classes` and `yTrue` -/
structure ClsMetrics (α : Type) where
  yTrue : List Int
  yPred : List Int
  yProba : Option (List α)
  classes : List Int
  deriving DecidableEq

/-- `NewClassificationMetrics` (`sklearn/lightgbm/evaluation_metrics.go:24-61`); `iter` is the iteration over the set of labels,
`srt` is `sort.Ints` -/
def ClsMetrics.new (srt iter : List Int → List Int) (yTrue yPred : List Int) (yProba : Option (List α)) :
    Outcome (ClsMetrics α) :=
  if yTrue.length = 0 then .err .value
  else if yTrue.length ≠ yPred.length then .err (.dimension yTrue.length yPred.length 0)
  else if yProba.any (fun q => decide (q.length ≠ yTrue.length)) then
    .err (.dimension yTrue.length ((yProba.getD []).length) 0)
  else .ok ⟨yTrue, yPred, yProba, srt (iter (yTrue ++ yPred))⟩

/-- the pairs `(yTrue[i], yPred[i])` in order (sklearn/lightgbm/evaluation_metrics.go:24-61) -/
def ClsMetrics.pairs (m : ClsMetrics α) : List (Int × Int) := m.yTrue.zip m.yPred

/-- `Accuracy` (`sklearn/lightgbm/evaluation_metrics.go:64-72`) -/
def ClsMetrics.accuracy (m : ClsMetrics α) : α :=
  ((m.pairs.foldl (fun s x => if x.1 = x.2 then s + 1 else s) 0 : Nat) : α) / (m.yTrue.length : α)

/-- true and false positives of a label (`sklearn/lightgbm/evaluation_metrics.go:262-275`) -/
def tpfp (label : Int) (z : List (Int × Int)) : Nat × Nat :=
  z.foldl (fun s x => if x.2 = label then (if x.1 = label then (s.1 + 1, s.2) else (s.1, s.2 + 1)) else s) (0, 0)

/-- `classPrecision` (`sklearn/lightgbm/evaluation_metrics.go:260-280`); callers pass an index below `nClasses` -/
def ClsMetrics.classPrecision (m : ClsMetrics α) (k : Nat) : α :=
  let s := tpfp (m.classes.getD k 0) m.pairs
  if s.1 + s.2 = 0 then 0 else (s.1 : α) / ((s.1 + s.2 : Nat) : α)

/-- true positives and false negatives of a label (`sklearn/lightgbm/evaluation_metrics.go:285-298`) -/
def tpfn (label : Int) (z : List (Int × Int)) : Nat × Nat :=
  z.foldl (fun s x => if x.1 = label then (if x.2 = label then (s.1 + 1, s.2) else (s.1, s.2 + 1)) else s) (0, 0)

/-- `classRecall` (`sklearn/lightgbm/evaluation_metrics.go:282-302`) -/
def ClsMetrics.classRecall (m : ClsMetrics α) (k : Nat) : α :=
  let s := tpfn (m.classes.getD k 0) m.pairs
  if s.1 + s.2 = 0 then 0 else (s.1 : α) / ((s.1 + s.2 : Nat) : α)

/-- the harmonic mean guarded against zero (`sklearn/lightgbm/evaluation_metrics.go:98-102,311-315`) -/
def harmonic (two p r : α) : α := if p + r == 0 then 0 else two * (p * r) / (p + r)

/-- `classF1Score` (`sklearn/lightgbm/evaluation_metrics.go:304-313`) -/
def ClsMetrics.classF1 (two : α) (m : ClsMetrics α) (k : Nat) : α := harmonic two (m.classPrecision k) (m.classRecall k)

/-- `classSupport` (`sklearn/lightgbm/evaluation_metrics.go:315-326`) -/
def ClsMetrics.classSupport (m : ClsMetrics α) (k : Nat) : Nat :=
  m.yTrue.foldl (fun s y => if y = m.classes.getD k 0 then s + 1 else s) 0

/-- average over the classes (`sklearn/lightgbm/evaluation_metrics.go:245-259`) -/
def ClsMetrics.macroAvg (m : ClsMetrics α) (f : Nat → α) : α :=
  (List.range m.classes.length).foldl (fun s k => s + f k) 0 / (m.classes.length : α)

/-- `Precision` (`sklearn/lightgbm/evaluation_metrics.go:76-81,237-239`) -/
def ClsMetrics.precision (m : ClsMetrics α) : α :=
  if m.classes.length = 2 then m.classPrecision 1 else m.macroAvg m.classPrecision

/-- `Recall` (`sklearn/lightgbm/evaluation_metrics.go:85-90,241-243`) -/
def ClsMetrics.recall (m : ClsMetrics α) : α :=
  if m.classes.length = 2 then m.classRecall 1 else m.macroAvg m.classRecall

/-- `F1Score` (`sklearn/lightgbm/evaluation_metrics.go:94-103`) -/
def ClsMetrics.f1 (two : α) (m : ClsMetrics α) : α := harmonic two m.precision m.recall

/-- the map from class to position (`sklearn/lightgbm/evaluation_metrics.go:188-191`) -/
def classIndex (classes : List Int) : Int → Option Nat :=
  classes.zipIdx.foldl (fun f x => Function.update f x.1 (some x.2)) (fun _ => none)

/-- one count of the matrix (`sklearn/lightgbm/evaluation_metrics.go:195-198`); a missing key reads as `0` -/
def bump (idx : Int → Option Nat) (M : Nat → Nat → α) (x : Int × Int) : Nat → Nat → α :=
  fun i j => if i = (idx x.1).getD 0 ∧ j = (idx x.2).getD 0 then M i j + 1 else M i j

/-- `ConfusionMatrix` (`sklearn/lightgbm/evaluation_metrics.go:180-198`) -/
def ClsMetrics.confusion (m : ClsMetrics α) : Mat α :=
  ⟨m.classes.length, m.classes.length, m.pairs.foldl (bump (classIndex m.classes)) (fun _ _ => 0)⟩

/-- number of samples of a label (`sklearn/lightgbm/evaluation_metrics.go:133-138`) -/
def countLabel (label : Int) (l : List Int) : Nat := l.foldl (fun s y => if y = label then s + 1 else s) 0

/-- the pair loop of `AUC` (`sklearn/lightgbm/evaluation_metrics.go:148-161`) -/
def aucPairs (half : α) (c0 c1 : Int) (z : List (Int × α)) : α :=
  z.foldl (fun s x => if x.1 = c1 then
    z.foldl (fun s y => if y.1 = c0 then
      (if y.2 < x.2 then s + 1 else if x.2 == y.2 then s + half else s) else s) s else s) 0

/-- `AUC` (`sklearn/lightgbm/evaluation_metrics.go:106-164`); the sorted `pairs` slice is never read -/
def ClsMetrics.auc (half : α) (m : ClsMetrics α) : Outcome α :=
  if m.classes.length ≠ 2 then .err (.other "binary only")
  else match m.yProba with
    | none => .err (.other "requires probabilities")
    | some q =>
      let pos := countLabel (m.classes.getD 1 0) m.yTrue
      let neg := m.yTrue.length - pos
      if pos = 0 ∨ neg = 0 then .ok half
      else .ok (aucPairs half (m.classes.getD 0 0) (m.classes.getD 1 0) (m.yTrue.zip q) / ((pos : α) * (neg : α)))

/-- `math.Max(eps, math.Min(1-eps, p))` (`sklearn/lightgbm/evaluation_metrics.go:337`) -/
def clip (eps p : α) : α :=
  let lo := if p < 1 - eps then p else 1 - eps
  if eps < lo then lo else eps

/-- `binaryLogLoss` (`sklearn/lightgbm/evaluation_metrics.go:328-344`) -/
def binaryLogLoss (log : α → α) (eps : α) (c1 : Int) (z : List (Int × α)) : α :=
  -(z.foldl (fun s x => if x.1 = c1 then s + log (clip eps x.2) else s + log (1 - clip eps x.2)) 0) / (z.length : α)

/-- `LogLoss` (`sklearn/lightgbm/evaluation_metrics.go:167-177`) -/
def ClsMetrics.logLoss (log : α → α) (eps : α) (m : ClsMetrics α) : Outcome α :=
  match m.yProba with
  | none => .err (.other "requires probabilities")
  | some q =>
    if m.classes.length = 2 then .ok (binaryLogLoss log eps (m.classes.getD 1 0) (m.yTrue.zip q))
    else .err (.other "not implemented")

end

end Scigo.Eval
