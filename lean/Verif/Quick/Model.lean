import Verif.Dataset.Model

/-!
# Quick training helpers

Model of `sklearn/lightgbm/quick.go`. Training and scoring are parameters.
-/

namespace Scigo.Quick

open Scigo.Dataset

variable {α : Type}

/-- `detectTaskType` of the first target column: true for classification (sklearn/lightgbm/quick.go:349-372); `isInt v` is `val == float64(int(val))` -/
def detectTaskType [BEq α] (isInt : α → Bool) (ys : List α) : Bool :=
  match scan (ys.length / 4) [] ys with
  | none => false
  | some keys => if keys.all isInt then decide (keys.length < 20) else false

/-- one round of the search of `AutoFit`: the best score and model so far, the score of this configuration (`none`: `Fit` failed; the value
of a failed `Score` is whatever it returned with the error) (sklearn/lightgbm/quick.go:203-238) -/
def autoStep {M : Type} [LT α] [DecidableLT α] (best : α × Option M) (r : Option (α × M)) : α × Option M :=
  match r with
  | none => best
  | some (s, m) => if best.1 < s then (s, some m) else best

/-- `AutoFit`: score and model of the result; a nil model when no score exceeds the initial 0 (sklearn/lightgbm/quick.go:176-257) -/
def autoFit {M : Type} [LT α] [DecidableLT α] [Zero α] (results : List (Option (α × M))) : α × Option M :=
  results.foldl autoStep (0, none)

/-- `QuickResult.Predict`: the type assertion on a nil model panics (sklearn/lightgbm/quick.go:22-27) -/
def predict {M β : Type} (run : M → Outcome β) (model : Option M) : Outcome β :=
  match model with
  | none => .panic "interface conversion: interface {} is nil"
  | some m => run m

/-- the number of folds used (sklearn/lightgbm/quick.go:278-280) -/
def folds (n : Int) : Nat := if n < 2 then 5 else n.toNat

/-- the scores of the folds: each fold trains and scores on all rows (sklearn/lightgbm/quick.go:291-323); `fitScore` is that score, 0 if `Fit` fails -/
def foldScores {D : Type} (fitScore : D → α) (data : D) (n : Int) : List α := (List.range (folds n)).map (fun _ => fitScore data)

/-- `QuickCrossValidate`: mean and "std" of the scores, the latter without the square root (sklearn/lightgbm/quick.go:277-346) -/
def summary [Zero α] [Add α] [Sub α] [Mul α] [Div α] [NatCast α] (scores : List α) : α × α :=
  let mean := scores.foldl (· + ·) 0 / (scores.length : α)
  (mean, scores.foldl (fun v s => v + (s - mean) * (s - mean)) 0 / (scores.length : α))

/-- `QuickCrossValidate` (sklearn/lightgbm/quick.go:277-346) -/
def quickCV {D : Type} [Zero α] [Add α] [Sub α] [Mul α] [Div α] [NatCast α] (fitScore : D → α) (data : D) (n : Int) : α × α :=
  summary (foldScores fitScore data n)

/-- the inner loop of the sort in `PrintSummary`: position `i` is compared with every later position and swapped if smaller (sklearn/lightgbm/quick.go:84-88) -/
def pass [LT α] [DecidableLT α] (imp : Nat → α) (a : Nat) : List Nat → Nat × List Nat
  | [] => (a, [])
  | b :: rest =>
    if imp a < imp b then
      let (m, r) := pass imp b rest
      (m, a :: r)
    else
      let (m, r) := pass imp a rest
      (m, b :: r)

/-- the outer loop (sklearn/lightgbm/quick.go:83-89); the fuel is the number of positions left -/
def exchangeSort [LT α] [DecidableLT α] (imp : Nat → α) : Nat → List Nat → List Nat
  | 0, l => l
  | _ + 1, [] => []
  | k + 1, a :: rest =>
    let (m, r) := pass imp a rest
    m :: exchangeSort imp k r

/-- the features listed by `PrintSummary`: the first five of the sorted indices (sklearn/lightgbm/quick.go:66-99) -/
def topFeatures [LT α] [DecidableLT α] (imp : List α) (d : α) : List Nat :=
  (exchangeSort (fun i => imp.getD i d) imp.length (List.range imp.length)).take 5

end Scigo.Quick
