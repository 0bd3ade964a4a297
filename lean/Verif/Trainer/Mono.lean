import Verif.Trainer.Fit

/-!
# Split search on node histograms, with monotone constraints

Model of `satisfiesMonotoneConstraint`, `findBestSplitWithHistogram`, `findBestSplitForFeatureWithHistogram` (`trainer.go`) and
`CalculateSplitGain` (`trainer_params.go`). `buildNode` does not call them: `Fit` searches its splits with the histogram builder
(`findBestSplit`, `Verif/Trainer/Grow.lean`).
-/

set_option linter.unusedSectionVars false

namespace Scigo.Trainer

variable {α : Type}

section
variable [DecidableEq α] [LT α] [DecidableLT α] [LE α] [DecidableLE α] [Zero α] [One α] [Add α] [Sub α] [Neg α] [Mul α] [Div α]

/-- `satisfiesMonotoneConstraint`; `eps` is 1e-15, a feature beyond the list has no constraint: sklearn/lightgbm/trainer.go:360-385 -/
def allowed (eps : α) (monotone : List Int) (feature : Nat) (lg lh rg rh : α) : Bool :=
  match monotone[feature]? with
  | none => true
  | some c =>
    if c = 1 then decide (-lg / (lh + eps) ≤ -rg / (rh + eps))
    else if c = -1 then decide (-rg / (rh + eps) ≤ -lg / (lh + eps))
    else true

/-- `calculateScore`; `eps` is 1e-10, `special` is `IsNaN || IsInf`: sklearn/lightgbm/trainer_params.go:174-214 -/
def score (eps half l1 l2 : α) (special : α → Bool) (g h : α) : α :=
  if special g ∨ special h then 0
  else
    let denominator := h + l2 + eps
    if Hist.abs' denominator < eps then 0
    else if 0 < l1 ∧ ¬ l1 < g ∧ ¬ g < -l1 then 0
    else
      let numerator := if 0 < l1 then (if l1 < g then g - l1 else g + l1) else g
      let s := half * numerator * numerator / denominator
      if special s then 0 else s

/-- `CalculateSplitGain`: sklearn/lightgbm/trainer_params.go:161-171 -/
def splitGain (eps half l1 l2 : α) (special : α → Bool) (lg lh rg rh pg ph : α) : α :=
  score eps half l1 l2 special lg lh + score eps half l1 l2 special rg rh - score eps half l1 l2 special pg ph

/-- one round of the scan; `gain` is `calculateSplitGain`, `ok` the monotone constraint of the feature; `tg`, `th`, `tc` are the totals of
the node: sklearn/lightgbm/trainer.go:1217-1249. Every bin has two bounds (sklearn/lightgbm/trainer.go:641). -/
def histStep (gain : α → α → α → α → α) (ok : α → α → α → α → Bool) (tg th : α) (tc minData : Int) (s : Hist.Scan α) (b : Hist.Bin α) : Hist.Scan α :=
  let lg := s.lg + b.grad
  let lh := s.lh + b.hess
  let lc := s.lc + b.count
  if lc < minData ∨ tc - lc < minData then ⟨s.best, lg, lh, lc⟩
  else if ok lg lh (tg - lg) (th - lh) = false then ⟨s.best, lg, lh, lc⟩
  else if s.best.gain < gain lg lh (tg - lg) (th - lh) then
    ⟨⟨s.best.feature, b.hi, gain lg lh (tg - lg) (th - lh), lc, tc - lc, lg, tg - lg, lh, th - lh, s.best.leftCategories⟩, lg, lh, lc⟩
  else ⟨s.best, lg, lh, lc⟩

/-- `findBestSplitForFeatureWithHistogram` for a feature with a histogram; `lowest` is -1e10: sklearn/lightgbm/trainer.go:1199-1253 -/
def histSplit (lowest : α) (gain : α → α → α → α → α) (ok : α → α → α → α → Bool) (tg th : α) (tc minData : Int) (feature : Nat)
    (bins : List (Hist.Bin α)) : Hist.Split α :=
  ((bins.take (bins.length - 1)).foldl (histStep gain ok tg th tc minData) ⟨Hist.noSplit feature lowest, 0, 0, 0⟩).best

/-- the collecting loop of `findBestSplitWithHistogram`; `arrived` are the results in the order in which the goroutines deliver them:
sklearn/lightgbm/trainer.go:1188-1194 -/
def collectBest (lowest : α) (arrived : List (Hist.Split α)) : Hist.Split α :=
  arrived.foldl (fun best s => if best.gain < s.gain then s else best) (Hist.noSplit 0 lowest)

end
end Scigo.Trainer
