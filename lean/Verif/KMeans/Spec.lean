import Verif.KMeans.Model
import Mathlib.Algebra.Order.Field.Basic
import Mathlib.Algebra.BigOperators.Group.List.Basic

/-!
# What mini-batch k-means should compute

Independent of the model: nearest centre, running means, histories of calls.
-/

namespace Scigo.KMeans.Spec

variable {K : Type _}

section
variable [Field K] [LinearOrder K]

/-- squared Euclidean distance -/
def sqDist (a b : List K) : K := (List.zipWith (fun x y => (x - y) * (x - y)) a b).sum

/-- `k` is the first index at minimal distance from `x` -/
def IsNearest (centers : List (List K)) (x : List K) (k : Nat) : Prop :=
  k < centers.length ∧
  (∀ c < centers.length, sqDist x (centers.getD k []) ≤ sqDist x (centers.getD c [])) ∧
  (∀ c < k, sqDist x (centers.getD k []) < sqDist x (centers.getD c []))

/-- the samples a history of assignments gives to cluster `k` -/
def members (p : List (List K × Nat)) (k : Nat) : List (List K) :=
  (p.filter (fun q => q.2 == k)).map (·.1)

/-- the coordinate-wise mean of `A` -/
def meanVec (c : Nat) (A : List (List K)) : List K :=
  (List.range c).map (fun j => (A.map (fun x => x.getD j 0)).sum / (A.length : K))

/-- the centres after a history: the mean of the members, the initial centre if there are none -/
def centersOf (init : List (List K)) (p : List (List K × Nat)) : List (List K) :=
  init.mapIdx (fun k c => if (members p k).isEmpty then c else meanVec c.length (members p k))

/-- the number of members of each cluster -/
def countsOf (n : Nat) (p : List (List K × Nat)) : List Nat :=
  (List.range n).map (fun k => (members p k).length)

/-- each sample of the history goes to the centre nearest at that time -/
def Trace (init : List (List K)) (p : List (List K × Nat)) : Prop :=
  ∀ pre x k post, p = pre ++ (x, k) :: post → IsNearest (centersOf init pre) x k

/-- the vector has `c` coordinates, coordinate `j` in `[lo j, hi j]` -/
def InBox (lo hi : Nat → K) (c : Nat) (x : List K) : Prop :=
  x.length = c ∧ ∀ j < c, lo j ≤ x.getD j 0 ∧ x.getD j 0 ≤ hi j

/-- an exact square root -/
def IsSqrt (sqrt : K → K) : Prop := ∀ a, 0 ≤ a → 0 ≤ sqrt a ∧ sqrt a * sqrt a = a

/-- distances between points of the box do not overflow -/
def NoOverflow (sqrt : K → K) (inf : K) (lo hi : Nat → K) (c : Nat) : Prop :=
  ∀ a b, InBox lo hi c a → InBox lo hi c b → sqrt (sqDist a b) < inf

end

section
variable {α : Type _} [Add α] [Sub α] [Mul α] [Div α] [Zero α] [One α] [NatCast α]
  [LT α] [LE α] [DecidableLT α] [DecidableLE α]

/-- a history of `PartialFit` calls: final state and the outcome of every call -/
def runPartial (sqrt : α → α) (inf : α) (o : Rng α) (P : Params α) :
    List (Mat α) → KM α → KM α × List (Outcome Unit)
  | [], s => (s, [])
  | X :: Xs, s =>
    let r := s.partialFit sqrt inf o P X
    let t := runPartial sqrt inf o P Xs r.1
    (t.1, r.2 :: t.2)

end

end Scigo.KMeans.Spec
