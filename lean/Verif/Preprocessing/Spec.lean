import Verif.Preprocessing.Model
import Mathlib.Algebra.Field.Defs

/-!
# What the preprocessing theorems compare the code with
-/

namespace Scigo.Preprocessing

variable {α κ : Type _}

/-- Calls a user can make on one scaler. -/
inductive Call (X : Type _) : Type _
  | fit (x : X)
  | transform (x : X)
  | inverse (x : X)
  | fitTransform (x : X)
  | reset

/-- The data of the last successful fit since the last reset, over a history of calls;
`ok x` says the data is acceptable. -/
def lastFit {X : Type _} (ok : X → Bool) : List (Call X) → Option X → Option X
  | [], cur => cur
  | .fit x :: h, cur => lastFit ok h (if ok x then some x else cur)
  | .fitTransform x :: h, cur => lastFit ok h (if ok x then some x else cur)
  | .reset :: h, _ => lastFit ok h none
  | .transform _ :: h, cur => lastFit ok h cur
  | .inverse _ :: h, cur => lastFit ok h cur

/-- a matrix with rows and columns -/
def nonEmpty (X : Mat α) : Bool := decide (0 < X.r ∧ 0 < X.c)

/-- state after a history of calls on a `StandardScaler` -/
def runStd [Add α] [Sub α] [Mul α] [Div α] [Zero α] [One α] [NatCast α] [LT α] [DecidableLT α]
    (sqrt abs : α → α) (eps : α) : List (Call (Mat α)) → StdScaler α → StdScaler α
  | [], s => s
  | .fit X :: h, s => runStd sqrt abs eps h (s.fit sqrt abs eps X).1
  | .fitTransform X :: h, s => runStd sqrt abs eps h (s.fitTransform sqrt abs eps X).1
  | .reset :: h, s => runStd sqrt abs eps h s.reset
  | .transform _ :: h, s => runStd sqrt abs eps h s
  | .inverse _ :: h, s => runStd sqrt abs eps h s

/-- state after a history of calls on a `MinMaxScaler` -/
def runMinMax [Add α] [Sub α] [Mul α] [Div α] [Zero α] [One α] [LT α] [DecidableLT α]
    (abs : α → α) (eps : α) : List (Call (Mat α)) → MinMax α → MinMax α
  | [], s => s
  | .fit X :: h, s => runMinMax abs eps h (s.fit abs eps X).1
  | .fitTransform X :: h, s => runMinMax abs eps h (s.fitTransform abs eps X).1
  | .reset :: h, s => runMinMax abs eps h s.reset
  | .transform _ :: h, s => runMinMax abs eps h s
  | .inverse _ :: h, s => runMinMax abs eps h s

/-- state after a history of calls on a `OneHotEncoder` (it has no inverse) -/
def runEnc [DecidableEq κ] (srt iter : List κ → List κ) :
    List (Call (List (List κ))) → Encoder κ → Encoder κ
  | [], e => e
  | .fit X :: h, e => runEnc srt iter h (e.fit srt iter X).1
  | .fitTransform X :: h, e => runEnc srt iter h (e.fitTransform (α := Nat) srt iter X).1
  | .reset :: h, e => runEnc srt iter h e.reset
  | .transform _ :: h, e => runEnc srt iter h e
  | .inverse _ :: h, e => runEnc srt iter h e

/-- mean of a column -/
def meanOf [DivisionRing α] (X : Mat α) (j : Nat) : α :=
  (∑ i ∈ Finset.range X.r, X.at' i j) / X.r

/-- non-empty table whose rows all have the same non-zero length -/
def rectangular (data : List (List κ)) : Bool :=
  match data with
  | [] => false
  | r0 :: _ => decide (r0.length ≠ 0) && data.all (fun r => decide (r.length = r0.length))

/-- number of columns of a rectangular table -/
def width (data : List (List κ)) : Nat := (data.headD []).length

/-- the one-hot code of a row: for each feature, the category list with `1` at the row's
value and `0` elsewhere -/
def oneHot [DecidableEq κ] [One α] [Zero α] (cats : List (List κ)) (row : List κ) : List α :=
  (List.zipWith (fun cs x => cs.map (fun c => if c = x then (1 : α) else 0)) cats row).flatten

/-- `cats` lists, in increasing order and without repetition, exactly the values in column
`j` of the table -/
def IsCategories [LT κ] (data : List (List κ)) (j : Nat) (cats : List κ) : Prop :=
  cats.Pairwise (· < ·) ∧ ∀ x, x ∈ cats ↔ ∃ row ∈ data, row[j]? = some x

end Scigo.Preprocessing
