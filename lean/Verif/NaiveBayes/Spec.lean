import Verif.NaiveBayes.Model
import Verif.Base.XReal
import Mathlib.Analysis.SpecialFunctions.Pow.Real

/-!
# Specification for the naive Bayes classifier
-/

namespace Scigo.NaiveBayes

variable {α : Type _}

/-- two tables of equally many columns, one below the other -/
def appendRows (A B : Mat α) : Mat α :=
  ⟨A.r + B.r, A.c, fun i j => if i < A.r then A.at' i j else B.at' (i - A.r) j⟩

/-- all batches below each other -/
def stack : Mat α × Mat α → List (Mat α × Mat α) → Mat α × Mat α
  | b, [] => b
  | b, b' :: bs => let t := stack b' bs; (appendRows b.1 t.1, appendRows b.2 t.2)

/-- data that validation accepts: as many labels as rows, one label column, no negative entry -/
def ValidData [LT α] [Zero α] (X y : Mat α) : Prop :=
  X.r = y.r ∧ y.c = 1 ∧ ∀ i < X.r, ∀ j < X.c, ¬ X.at' i j < 0

/-- a training call -/
inductive NBCall (α : Type _)
  | fit (X y : Mat α)
  | partialFit (X y : Mat α) (classes : Option (List Int))

/-- run a history of training calls -/
def runNB [Add α] [Sub α] [Mul α] [Div α] [Zero α] [One α] [NatCast α] [IntCast α] [LT α]
    [DecidableLT α] (log : α → α) (toInt : α → Int) (iter : List Int → List Int)
    (hist : List (NBCall α)) (s : NB α) : NB α :=
  hist.foldl (fun s c => match c with
    | .fit X y => (s.fit log toInt iter X y).1
    | .partialFit X y cls => (s.partialFit log toInt iter X y cls).1) s

/-- no NaN or infinity among the entries -/
def FiniteMat (X : Mat XReal) : Prop := ∀ i < X.r, ∀ j < X.c, ∃ x : ℝ, X.at' i j = .fin x

/-- the data of a training call has no NaN or infinity -/
def NBCall.Finite : NBCall XReal → Prop
  | .fit X _ => FiniteMat X
  | .partialFit X _ _ => FiniteMat X

/-- smoothed probability of feature `j` given the class with feature counts `F` -/
noncomputable def theta (a : ℝ) (F : List ℝ) (j : Nat) : ℝ :=
  (F.getD j 0 + a) / (F.map (· + a)).sum

/-- joint weight `prior * ∏ θ_j ^ x_j` -/
noncomputable def weight (a prior : ℝ) (F x : List ℝ) : ℝ :=
  prior * ((List.range F.length).map (fun j => theta a F j ^ (x.getD j 0))).prod

/-- class priors: relative frequencies, or uniform, or the given ones -/
noncomputable def priorsOf (fitPrior : Bool) (given : Option (List ℝ)) (N : List Nat) : List ℝ :=
  if fitPrior then N.map (fun n : Nat => (n : ℝ) / (N.sum : ℝ))
  else match given with
    | some q => q.take N.length
    | none => List.replicate N.length (1 / (N.length : ℝ))

/-- joint weights of all classes for a sample -/
noncomputable def weights (a : ℝ) (pri : List ℝ) (F : List (List ℝ)) (x : List ℝ) : List ℝ :=
  List.zipWith (fun p f => weight a p f x) pri F

/-- `k` is the first position of the greatest value -/
def FirstMax (ws : List ℝ) (k : Nat) : Prop :=
  k < ws.length ∧ (∀ j < ws.length, ws.getD j 0 ≤ ws.getD k 0) ∧ ∀ j < k, ws.getD j 0 < ws.getD k 0

end Scigo.NaiveBayes
