import Mathlib.Analysis.SpecialFunctions.Log.Base
import Mathlib.Analysis.SpecialFunctions.Pow.Real
import Mathlib.Analysis.SpecialFunctions.Log.Basic
import Mathlib.Algebra.Order.Field.Basic
import Mathlib.Algebra.BigOperators.Group.List.Basic

/-!
# Textbook definitions the metrics are compared with
-/

namespace Scigo.Metrics

variable {K : Type _} [Field K]

/-- mean of a list -/
def mean (a : List K) : K := a.sum / a.length

/-- total sum of squares -/
def totalSS (a : List K) : K := (a.map (fun x => (x - mean a) ^ 2)).sum

/-- residual sum of squares -/
def residualSS (a b : List K) : K := ((a.zip b).map (fun x => (x.1 - x.2) ^ 2)).sum

/-- textbook DCG at cutoff `k` of relevances listed in ranked order:
`Σ_{i<k} (2^{relᵢ} - 1) / log₂(i+2)` -/
noncomputable def dcgAt (k : Nat) (rel : List ℝ) : ℝ :=
  ∑ i ∈ Finset.range k, ((2 : ℝ) ^ (rel.getD i 0) - 1) / Real.logb 2 (i + 2)

/-- scores of the samples whose label is `l` -/
def scoresOf [DecidableEq K] (l : K) (labels scores : List K) : List K :=
  ((labels.zip scores).filter (fun x => decide (x.1 = l))).map Prod.snd

/-- Mann-Whitney statistic: wins plus half the ties over all (positive, negative) pairs -/
def mannWhitney [LinearOrder K] (ps ns : List K) : K :=
  (ps.map (fun p => (ns.map (fun q =>
    if q < p then (1 : K) else if p = q then 1 / 2 else 0)).sum)).sum

/-- cross-entropy of one sample: minus the log of the probability given to the true label,
the probability being clipped to `[eps, 1-eps]` -/
noncomputable def crossEntropy (eps y p : ℝ) : ℝ :=
  if y = 1 then -Real.log (max eps (min p (1 - eps))) else -Real.log (1 - max eps (min p (1 - eps)))

end Scigo.Metrics
