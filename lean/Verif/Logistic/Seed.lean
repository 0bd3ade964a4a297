import Verif.Logistic.Model
import Verif.Base.Rand

/-!
# LogisticRegression and its random seed

The seed option of `sklearn/linear_model/logistic.go` and where the initial weights come from.
-/

set_option linter.unusedSectionVars false

namespace Scigo.Logistic

open Scigo.Online

variable {α : Type _}

/-- the fields `randomState` and `randomSeed` after the constructor; `system` is the number read from `crypto/rand`
(sklearn/linear_model/logistic.go:68, 83-90, 163-166) -/
def seeds (options : List Int) (system : Int) : Int × Int :=
  (randomState options, if 0 ≤ randomState options then randomState options else system)

/-- the numbers of one row of `initializeWeights`: `cryptoNormalFloat64() * 0.01` (sklearn/linear_model/logistic.go:296-300); `e` is the sequence of
values of `cryptoNormalFloat64`, `i` the number of calls before -/
def cryptoRow [Mul α] (hundredth : α) (e : Nat → α) (i cols : Nat) : List α := (List.range cols).map fun j => e (i + j) * hundredth

/-- `initializeWeights`: `k` rows from `crypto/rand` (sklearn/linear_model/logistic.go:278-301) -/
def cryptoWeights [Mul α] (hundredth : α) (e : Nat → α) (k cols : Nat) : List (List α) :=
  (List.range k).map fun i => cryptoRow hundredth e (i * cols) cols

section
variable [Zero α] [One α] [Add α] [Sub α] [Neg α] [Mul α] [Div α] [LT α] [LE α] [DecidableLT α]
  [DecidableLE α] [BEq α]

/-- `Fit` of an estimator whose constructor got the seed options; the stored seeds are not read (sklearn/linear_model/logistic.go:212-301, 939-956) -/
def LR.fitSeeded (N : Num α) (eps hundredth : α) (mini : Minimizer α) (toInt : α → Int) (iter : List Int → List Int) (m : LR α)
    (_seed : Int × Int) (e : Nat → α) (X y : Mat α) : LR α × Outcome Unit :=
  m.fit N eps mini toInt iter (cryptoWeights hundredth e) X y

end

end Scigo.Logistic
