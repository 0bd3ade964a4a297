import Verif.Trainer.Mono

/-!
# Split search for categorical features without histograms

Model of `findBestCategoricalSplit` (`trainer.go`). Only `findBestSplitWithHistogram` calls it, which `Fit` does not use; the categories of such a
split come from `getCategoriesForSplit` (`getCategories`, `Verif/Trainer/Grow.lean`).
-/

set_option linter.unusedSectionVars false

namespace Scigo.Trainer

variable {α : Type}

section
variable [DecidableEq α] [LT α] [DecidableLT α] [LE α] [DecidableLE α] [Zero α] [One α] [Add α] [Sub α] [Neg α] [Mul α] [Div α]

/-- the categories as the scan sees them: the threshold after the `i`-th is `float64(i + 1)`: sklearn/lightgbm/trainer.go:1461-1478 -/
def catBins (ofNat : Nat → α) (cats : List (Hist.Cat α)) : List (Hist.Bin α) :=
  cats.zipIdx.map fun p => ⟨0, ofNat (p.2 + 1), p.1.count, p.1.grad, p.1.hess⟩

/-- the scan over the sorted categories, all but the last; the loop is that of `findBestSplitForFeatureWithHistogram` without monotone constraints; `ratio` is
`sort.Slice` by `SumGrad / (SumHess + CatSmooth)`; `iter` and `iter'` are the orders in which the two ranges visit the map; `lowest` is -1e10; `gain` is
`calculateSplitGain`. Simplified: a first gradient or hessian of -0 becomes 0, `catStats` adds it to 0: sklearn/lightgbm/trainer.go:1404-1487 -/
def findBestCategorical (toInt : α → Int) (ofNat : Nat → α) (iter iter' ratio : List (Hist.Cat α) → List (Hist.Cat α)) (lowest : α)
    (gain : α → α → α → α → α → α → α) (minData : Int) (feature : Nat) (x g h : Nat → α) (indices : List Nat) : Hist.Split α :=
  let stats := Hist.catStats toInt x g h indices
  let tg := sumOver (iter stats) (·.grad)
  let th := sumOver (iter stats) (·.hess)
  let tc := (iter stats).foldl (fun n c => n + c.count) 0
  if stats.length < 2 then Hist.noSplit feature lowest
  else histSplit lowest (fun lg lh rg rh => gain lg lh rg rh tg th) (fun _ _ _ _ => true) tg th tc minData feature (catBins ofNat (ratio (iter' stats)))

end
end Scigo.Trainer
