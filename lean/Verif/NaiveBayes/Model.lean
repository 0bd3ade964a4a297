import Verif.Base.Mat
import Verif.Base.Outcome
import Verif.Base.Sort
import Mathlib.Algebra.Order.Field.Basic

/-!
# Model of `sklearn/naive_bayes/multinomial_nb.go`

Carrier `α` with separate operations; `math.Log`, `math.Exp` and `-Inf` are parameters, as is
the conversion `int(float64)` (`toInt`). The logger is left out. Every exported method takes the
model's lock for its whole body (`PredictProba` calls one such method), so calls are atomic steps.
-/

namespace Scigo.NaiveBayes

variable {α : Type _}

/-- `MultinomialNB` (sklearn/naive_bayes/multinomial_nb.go:20-42). `nClasses_` is `len(classes_)` throughout and is
not stored; `classes_ == nil` is `none`. -/
structure NB (α : Type _) where
  alpha : α
  fitPrior : Bool
  classPrior : Option (List α)
  classes : Option (List Int)
  logPrior : List α
  featLogProb : List (List α)
  featureCount : List (List α)
  classCount : List α
  nFeatures : Nat
  nSeen : Nat
  fitted : Bool
deriving DecidableEq

/-- `NewMultinomialNB` with its options applied (sklearn/naive_bayes/multinomial_nb.go:45-88) -/
def NB.new (alpha : α) (fitPrior : Bool) (classPrior : Option (List α)) : NB α :=
  ⟨alpha, fitPrior, classPrior, none, [], [], [], [], 0, 0, false⟩

/-- `reset` (sklearn/naive_bayes/multinomial_nb.go:521-531) -/
def NB.reset (s : NB α) : NB α := NB.new s.alpha s.fitPrior s.classPrior

/-- number of classes (`nClasses_`) (sklearn/naive_bayes/multinomial_nb.go:302-322) -/
def NB.nClasses (s : NB α) : Nat := (s.classes.getD []).length

/-- `getClassIndex` (sklearn/naive_bayes/multinomial_nb.go:511-518); `-1` is `none` -/
def NB.classIndex (s : NB α) (cls : Int) : Option Nat := (s.classes.getD []).idxOf? cls

section
variable [Add α] [Sub α] [Mul α] [Div α] [Zero α] [One α] [NatCast α] [IntCast α]
  [LT α] [DecidableLT α]

/-- some entry is negative (loops at sklearn/naive_bayes/multinomial_nb.go:470-477 and 268-272) -/
def hasNegative (X : Mat α) : Bool :=
  (List.range X.r).any (fun i => (List.range X.c).any (fun j => decide (X.at' i j < 0)))

/-- `validateInput` (sklearn/naive_bayes/multinomial_nb.go:457-480) -/
def validateInput (X y : Mat α) : Outcome Unit :=
  if X.r ≠ y.r then .err (.other "x and y must have the same number of samples")
  else if y.c ≠ 1 then .err (.other "y must be a column vector")
  else if hasNegative X then .err .value
  else .ok ()

/-- `extractClasses` (sklearn/naive_bayes/multinomial_nb.go:483-508): distinct labels, in the map's iteration
order `iter`, then the hand-written sort -/
def extractClasses (toInt : α → Int) (iter : List Int → List Int) (y : Mat α) : List Int :=
  exchangeSort (iter ((List.range y.r).map (fun i => toInt (y.at' i 0))))

/-- allocate zero counts for `classes` (sklearn/naive_bayes/multinomial_nb.go:108-113, 166-171) -/
def NB.initCounts (s : NB α) (cls : List Int) (cols : Nat) : NB α :=
  { s with classes := some cls, nFeatures := cols,
           featureCount := List.replicate cls.length (List.replicate cols 0),
           classCount := List.replicate cls.length 0 }

/-- loop body for row `i` (sklearn/naive_bayes/multinomial_nb.go:116-129 and 180-192). The row of counts has
`nFeatures = cols` entries at this point, so no index is out of range. -/
def NB.countRow (toInt : α → Int) (X y : Mat α) (s : NB α) (i : Nat) : NB α :=
  match s.classIndex (toInt (y.at' i 0)) with
  | none => s
  | some k =>
    { s with classCount := s.classCount.modify k (· + 1), nSeen := s.nSeen + 1,
             featureCount := s.featureCount.modify k (fun row => List.zipWith (· + ·) row (X.row i)) }

/-- class log priors (sklearn/naive_bayes/multinomial_nb.go:203-227) -/
def NB.priors (log : α → α) (s : NB α) : List α :=
  if s.fitPrior then
    let total := s.classCount.foldl (· + ·) 0
    s.classCount.map (fun n => log (n / total))
  else
    match s.classPrior with
    | some pr => (List.range s.nClasses).map (fun i => if h : i < pr.length then log pr[i] else 0)
    | none => List.replicate s.nClasses (log (1 / (s.nClasses : α)))

/-- feature log probabilities of one class (sklearn/naive_bayes/multinomial_nb.go:232-243) -/
def featRow (log : α → α) (alpha : α) (row : List α) : List α :=
  let total := row.foldl (fun t c => t + (c + alpha)) 0
  row.map (fun c => log ((c + alpha) / total))

/-- `updateModel` (sklearn/naive_bayes/multinomial_nb.go:201-245) and `SetFitted` (sklearn/naive_bayes/multinomial_nb.go:134, 196) -/
def NB.updateModel (log : α → α) (s : NB α) : NB α :=
  { s with logPrior := s.priors log, featLogProb := s.featureCount.map (featRow log s.alpha),
           fitted := true }

/-- `Fit` (sklearn/naive_bayes/multinomial_nb.go:91-136) -/
def NB.fit (log : α → α) (toInt : α → Int) (iter : List Int → List Int) (X y : Mat α) (s : NB α) :
    NB α × Outcome Unit :=
  let s := s.reset
  match validateInput X y with
  | .ok () =>
    let s := s.initCounts (extractClasses toInt iter y) X.c
    (((List.range X.r).foldl (NB.countRow toInt X y) s).updateModel log, .ok ())
  | e => (s, e)

/-- first-call block of `PartialFit` (sklearn/naive_bayes/multinomial_nb.go:151-172) -/
def NB.begin (toInt : α → Int) (iter : List Int → List Int) (X y : Mat α)
    (classes : Option (List Int)) (s : NB α) : NB α :=
  match s.classes with
  | some _ => s
  | none => s.initCounts (classes.getD (extractClasses toInt iter y)) X.c

/-- `PartialFit` (sklearn/naive_bayes/multinomial_nb.go:139-198); `classes == nil` is `none` -/
def NB.partialFit (log : α → α) (toInt : α → Int) (iter : List Int → List Int) (X y : Mat α)
    (classes : Option (List Int)) (s : NB α) : NB α × Outcome Unit :=
  match validateInput X y with
  | .ok () =>
    let s := s.begin toInt iter X y classes
    if X.c ≠ s.nFeatures then (s, .err (.dimension s.nFeatures X.c 1))
    else (((List.range X.r).foldl (NB.countRow toInt X y) s).updateModel log, .ok ())
  | e => (s, e)

/-- joint log probability of row `x` and class `c` (sklearn/naive_bayes/multinomial_nb.go:264-274, 349-357) -/
def NB.joint (s : NB α) (c : Nat) (x : List α) : α :=
  (List.zip x (s.featLogProb.getD c [])).foldl (fun acc p => acc + p.1 * p.2) (s.logPrior.getD c 0)

/-- the scan keeping the first class with the greatest value (sklearn/naive_bayes/multinomial_nb.go:261-281) -/
def argmaxScan (ninf : α) (c0 : Int) (l : List (α × Int)) : α × Int :=
  l.foldl (fun best p => if best.1 < p.1 then p else best) (ninf, c0)

/-- `Predict` (sklearn/naive_bayes/multinomial_nb.go:248-289). `mat.NewDense(0, 1, nil)` panics, and so does
`classes_[0]` on an empty class list. -/
def NB.predict (ninf : α) (X : Mat α) (s : NB α) : Outcome (Mat α) :=
  if !s.fitted then .err .notFitted
  else if X.c ≠ s.nFeatures then .err (.dimension s.nFeatures X.c 1)
  else if X.r = 0 then .panic "mat: zero length in matrix dimension"
  else match s.classes.getD [] with
    | [] => .panic "index out of range"
    | c0 :: cs =>
      if hasNegative X then .err .value
      else .ok ⟨X.r, 1, fun i _ =>
        (((argmaxScan ninf c0 ((c0 :: cs).zipIdx.map (fun p => (s.joint p.2 (X.row i), p.1)))).2 : Int) : α)⟩

/-- running maximum from `-Inf` (sklearn/naive_bayes/multinomial_nb.go:304-309, 363-367) -/
def maxFrom (ninf : α) (l : List α) : α := l.foldl (fun m x => if m < x then x else m) ninf

/-- normalised log probabilities of one row (sklearn/naive_bayes/multinomial_nb.go:361-378) -/
def logNormalize (log exp : α → α) (ninf : α) (l : List α) : List α :=
  let m := maxFrom ninf l
  let sumExp := l.foldl (fun t x => t + exp (x - m)) 0
  let lse := log sumExp + m
  l.map (· - lse)

/-- softmax of one row of log probabilities (sklearn/naive_bayes/multinomial_nb.go:302-322) -/
def softmaxRow (exp : α → α) (ninf : α) (l : List α) : List α :=
  let m := maxFrom ninf l
  let e := l.map (fun x => exp (x - m))
  let sum := e.foldl (· + ·) 0
  e.map (· / sum)

/-- unnormalised log probabilities of all classes for a row (sklearn/naive_bayes/multinomial_nb.go:302-322) -/
def NB.jointRow (s : NB α) (x : List α) : List α := (List.range s.nClasses).map (fun c => s.joint c x)

/-- `PredictLogProba` (sklearn/naive_bayes/multinomial_nb.go:329-382) -/
def NB.predictLogProba (log exp : α → α) (ninf : α) (X : Mat α) (s : NB α) : Outcome (Mat α) :=
  if !s.fitted then .err .notFitted
  else if X.c ≠ s.nFeatures then .err (.dimension s.nFeatures X.c 1)
  else if X.r = 0 ∨ s.nClasses = 0 then .panic "mat: zero length in matrix dimension"
  else if hasNegative X then .err .value
  else .ok ⟨X.r, s.nClasses, fun i c =>
    (logNormalize log exp ninf (s.jointRow (X.row i))).getD c 0⟩

/-- `PredictProba` (sklearn/naive_bayes/multinomial_nb.go:292-326) -/
def NB.predictProba (log exp : α → α) (ninf : α) (X : Mat α) (s : NB α) : Outcome (Mat α) :=
  (s.predictLogProba log exp ninf X).bind fun L =>
    .ok ⟨L.r, L.c, fun i c => (softmaxRow exp ninf (L.row i)).getD c 0⟩

/-- `Score` (sklearn/naive_bayes/multinomial_nb.go:385-401). `predictions.At(i, 0)` panics beyond the predicted rows;
`0/0` for `y` without rows is left to the carrier's division. -/
def NB.score (toInt : α → Int) (ninf : α) (X y : Mat α) (s : NB α) : Outcome α :=
  (s.predict ninf X).bind fun P =>
    if P.r < y.r then .panic "mat: row index out of range"
    else if y.c = 0 ∧ 0 < y.r then .panic "mat: column index out of range"
    else .ok (((List.range y.r).countP (fun i => toInt (P.at' i 0) = toInt (y.at' i 0)) : α) / (y.r : α))

end

end Scigo.NaiveBayes
