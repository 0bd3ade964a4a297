import Verif.Base.Outcome
import Verif.Base.Mat
import Verif.Base.Rand

/-!
# Mini-batch k-means

Model of `sklearn/cluster/minibatch_kmeans.go`. Every method holds the estimator's mutex, so calls
are atomic steps. The random generator is arbitrary.
Not modelled: `FitStream`/`PredictStream` (loops around `PartialFit` and `Predict`), logging and
`verbose` output, negative `nClusters`, `batchSize`, `maxIter` or `nInit` (the first two panic in
`make` and in slicing, the others mean 0), and the state left behind by a panic.
-/

namespace Scigo.KMeans

variable {α : Type _}

/-- Hyper-parameters (`sklearn/cluster/minibatch_kmeans.go:28-39`) that the code uses. -/
structure Params (α : Type _) where
  nClusters : Nat
  init : String
  maxIter : Nat
  batchSize : Nat
  computeLabels : Bool
  tol : α
  maxNoImprovement : Int
  nInit : Nat

/-- Estimator state (`sklearn/cluster/minibatch_kmeans.go:42-52`); `none` is a nil slice.
`pos` is the state of the generator `rng`. -/
structure KM (α : Type _) where
  centers : Option (List (List α))
  labels : Option (List Nat)
  inertia : α
  nIter : Nat
  counts : Option (List Nat)
  nFeatures : Nat
  nSamples : Nat
  fitted : Bool
  pos : Nat

section
variable [Add α] [Sub α] [Mul α] [Div α] [Zero α] [One α] [NatCast α]
  [LT α] [LE α] [DecidableLT α] [DecidableLE α]

/-- `NewMiniBatchKMeans` with a generator in state `pos` (`sklearn/cluster/minibatch_kmeans.go:56-96`) -/
def KM.new (pos : Nat) : KM α := ⟨none, none, 0, 0, none, 0, 0, false, pos⟩

/-- `rng.IntN(n)`: any value below `n`; panics for `n = 0`
(`sklearn/cluster/minibatch_kmeans.go:465,484,545`) -/
def intN (o : Rng α) (pos n : Nat) : Outcome (Nat × Nat) :=
  if n = 0 then .panic "invalid argument to IntN" else .ok ((o.int pos n).1 % n, (o.int pos n).2)

/-- `euclideanDistance` (`sklearn/cluster/minibatch_kmeans.go:586-598`) -/
def dist (sqrt : α → α) (inf : α) (a b : List α) : α :=
  if a.length ≠ b.length then inf
  else sqrt ((List.zip a b).foldl (fun s p => s + (p.1 - p.2) * (p.1 - p.2)) 0)

/-- `findNearestCluster` (`sklearn/cluster/minibatch_kmeans.go:553-566`) -/
def nearest (sqrt : α → α) (inf : α) (sample : List α) (centers : List (List α)) : Nat :=
  (centers.zipIdx.foldl (fun (b : α × Nat) p =>
    if dist sqrt inf sample p.1 < b.1 then (dist sqrt inf sample p.1, p.2) else b) (inf, 0)).2

/-- `computeInertia` (`sklearn/cluster/minibatch_kmeans.go:569-581`); with no centres the lookup
`centers[0]` panics, see `fitSingleRun` -/
def computeInertia (sqrt : α → α) (inf : α) (rows : List (List α)) (centers : List (List α)) : α :=
  rows.foldl (fun s x =>
    s + dist sqrt inf x (centers.getD (nearest sqrt inf x centers) [])
      * dist sqrt inf x (centers.getD (nearest sqrt inf x centers) [])) 0

/-- move a centre towards a sample (`sklearn/cluster/minibatch_kmeans.go:211-213`): the first
`cols` coordinates -/
def move (eta : α) (center sample : List α) : List α :=
  List.zipWith (fun v x => (1 - eta) * v + eta * x) center sample ++ center.drop sample.length

/-- assign one sample and update its centre (`sklearn/cluster/minibatch_kmeans.go:203-214`,
`269-280`); indexing a missing cluster or coordinate panics -/
def step (sqrt : α → α) (inf : α) (cs : List (List α) × List Nat) (sample : List α) :
    Outcome (List (List α) × List Nat) :=
  let k := nearest sqrt inf sample cs.1
  if k < cs.2.length ∧ k < cs.1.length ∧ sample.length ≤ (cs.1.getD k []).length then
    let counts := cs.2.modify k (· + 1)
    let eta : α := 1 / ((counts.getD k 0 : Nat) : α)
    .ok (cs.1.modify k (fun c => move eta c sample), counts)
  else .panic "index out of range"

/-- all samples of a batch in order (`sklearn/cluster/minibatch_kmeans.go:203-214`) -/
def steps (sqrt : α → α) (inf : α) (cs : List (List α) × List Nat) (samples : List (List α)) :
    Outcome (List (List α) × List Nat) :=
  samples.foldl (fun o x => o.bind (fun cs => step sqrt inf cs x)) (.ok cs)

/-- `n` random rows (`sklearn/cluster/minibatch_kmeans.go:463-468`) -/
def initRandom (o : Rng α) (rows : List (List α)) : Nat → Nat → Outcome (List (List α) × Nat)
  | 0, pos => .ok ([], pos)
  | n + 1, pos => (initRandom o rows n pos).bind (fun r =>
      (intN o r.2 rows.length).bind (fun d => .ok (r.1 ++ [rows.getD d.1 []], d.2)))

/-- first index where the running sum reaches the target, else 0
(`sklearn/cluster/minibatch_kmeans.go:511-520`) -/
def pickIdx (target : α) : List α → Nat → α → Nat
  | [], _, _ => 0
  | d :: ds, i, cum => if target ≤ cum + d then i else pickIdx target ds (i + 1) (cum + d)

/-- squared distance to the nearest of the centres so far
(`sklearn/cluster/minibatch_kmeans.go:494-507`) -/
def minSq (sqrt : α → α) (inf : α) (centers : List (List α)) (x : List α) : α :=
  let m := centers.foldl (fun m c => if dist sqrt inf x c < m then dist sqrt inf x c else m) inf
  m * m

/-- one further k-means++ centre (`sklearn/cluster/minibatch_kmeans.go:489-525`) -/
def ppNext (sqrt : α → α) (inf : α) (o : Rng α) (rows : List (List α))
    (r : List (List α) × Nat) : List (List α) × Nat :=
  let ds := rows.map (minSq sqrt inf r.1)
  let target := (o.flt r.2).1 * ds.foldl (· + ·) 0
  (r.1 ++ [rows.getD (pickIdx target ds 0 0) []], (o.flt r.2).2)

/-- `k` further centres (`sklearn/cluster/minibatch_kmeans.go:489-525`) -/
def ppMore (sqrt : α → α) (inf : α) (o : Rng α) (rows : List (List α)) :
    Nat → List (List α) × Nat → List (List α) × Nat
  | 0, r => r
  | k + 1, r => ppMore sqrt inf o rows k (ppNext sqrt inf o rows r)

/-- `initializeCenters` (`sklearn/cluster/minibatch_kmeans.go:455-528`) -/
def initCenters (sqrt : α → α) (inf : α) (o : Rng α) (P : Params α) (rows : List (List α))
    (pos : Nat) : Outcome (List (List α) × Nat) :=
  if P.init = "random" then initRandom o rows P.nClusters pos
  else match P.nClusters with
    | 0 => .panic "index out of range"
    | k + 1 => (intN o pos rows.length).map (fun d =>
        ppMore sqrt inf o rows k ([rows.getD d.1 []], d.2))

/-- swap two entries (`sklearn/cluster/minibatch_kmeans.go:546`) -/
def swap (l : List Nat) (i j : Nat) : List Nat := (l.set i (l.getD j 0)).set j (l.getD i 0)

/-- Fisher–Yates, from position `i` down to 1 (`sklearn/cluster/minibatch_kmeans.go:544-547`) -/
def shuffle (o : Rng α) : Nat → List Nat → Nat → List Nat × Nat
  | 0, l, pos => (l, pos)
  | i + 1, l, pos => shuffle o i (swap l (i + 1) ((o.int pos (i + 2)).1 % (i + 2))) (o.int pos (i + 2)).2

/-- `selectMiniBatch` (`sklearn/cluster/minibatch_kmeans.go:531-550`) -/
def selectMiniBatch (o : Rng α) (batchSize n : Nat) (pos : Nat) : List Nat × Nat :=
  let r := shuffle o (n - 1) (List.range n) pos
  (r.1.take (if n < batchSize then n else batchSize), r.2)

/-- state of a run between iterations (`sklearn/cluster/minibatch_kmeans.go:190-195`) -/
structure Run (α : Type _) where
  centers : List (List α)
  counts : List Nat
  prevInertia : α
  noImprovement : Nat
  finalIter : Nat
  pos : Nat

/-- iterations `iter, …` with `left` of them allowed
(`sklearn/cluster/minibatch_kmeans.go:197-234`) -/
def iterate (sqrt : α → α) (inf : α) (o : Rng α) (P : Params α) (rows : List (List α)) :
    Nat → Nat → Run α → Outcome (Run α)
  | 0, _, r => .ok r
  | left + 1, iter, r =>
    let b := selectMiniBatch o P.batchSize rows.length r.pos
    (steps sqrt inf (r.centers, r.counts) (b.1.map (fun i => rows.getD i []))).bind (fun cs =>
      let inertia := computeInertia sqrt inf rows cs.1
      if r.prevInertia - inertia < P.tol then
        if P.maxNoImprovement ≤ ((r.noImprovement + 1 : Nat) : Int) then
          .ok ⟨cs.1, cs.2, r.prevInertia, r.noImprovement + 1, iter, b.2⟩
        else iterate sqrt inf o P rows left (iter + 1)
          ⟨cs.1, cs.2, inertia, r.noImprovement + 1, iter, b.2⟩
      else iterate sqrt inf o P rows left (iter + 1) ⟨cs.1, cs.2, inertia, 0, iter, b.2⟩)

/-- what a run returns: centres, labels, inertia, iterations
(`sklearn/cluster/minibatch_kmeans.go:186-248`) -/
structure Fitted (α : Type _) where
  centers : List (List α)
  labels : Option (List Nat)
  inertia : α
  nIter : Nat

/-- `fitSingleRun` (`sklearn/cluster/minibatch_kmeans.go:186-248`); with rows but no centres some
lookup `counts[0]` or `centers[0]` panics, here at once -/
def fitSingleRun (sqrt : α → α) (inf : α) (o : Rng α) (P : Params α) (rows : List (List α))
    (pos : Nat) : Outcome (Fitted α × Nat) :=
  (initCenters sqrt inf o P rows pos).bind (fun i =>
    if i.1.isEmpty && !rows.isEmpty then .panic "index out of range" else
    (iterate sqrt inf o P rows P.maxIter 0
      ⟨i.1, List.replicate P.nClusters 0, inf, 0, 0, i.2⟩).map (fun r =>
        (⟨r.centers,
          if P.computeLabels then some (rows.map (fun x => nearest sqrt inf x r.centers)) else none,
          computeInertia sqrt inf rows r.centers, r.finalIter⟩, r.pos)))

/-- best of `n` runs, started from `best` (`none`: no run below `+Inf` yet)
(`sklearn/cluster/minibatch_kmeans.go:160-174`) -/
def bestOf (sqrt : α → α) (inf : α) (o : Rng α) (P : Params α) (rows : List (List α)) :
    Nat → Option (Fitted α) → Nat → Outcome (Option (Fitted α) × Nat)
  | 0, best, pos => .ok (best, pos)
  | n + 1, best, pos => (fitSingleRun sqrt inf o P rows pos).bind (fun r =>
      bestOf sqrt inf o P rows n
        (if r.1.inertia < (best.map (·.inertia)).getD inf then some r.1 else best) r.2)

/-- the rows of a matrix (`mat.Row(nil, i, X)`, `sklearn/cluster/minibatch_kmeans.go:270`) -/
def rowsOf (X : Mat α) : List (List α) := (List.range X.r).map X.row

/-- `Fit` (`sklearn/cluster/minibatch_kmeans.go:147-183`). Simplified: after a panic the state is
the one before the call. -/
def KM.fit (sqrt : α → α) (inf : α) (o : Rng α) (P : Params α) (X : Mat α) (s : KM α) :
    KM α × Outcome Unit :=
  let s1 := { s with nSamples := X.r, nFeatures := X.c }
  if X.r < P.nClusters then (s1, .err (.other "number of samples is less than number of clusters"))
  else match bestOf sqrt inf o P (rowsOf X) P.nInit none s.pos with
    | .ok (best, pos) =>
      ({ s1 with
          centers := best.map (·.centers)
          labels := best.bind (·.labels)
          inertia := (best.map (·.inertia)).getD inf
          nIter := (best.map (·.nIter)).getD 0
          fitted := true
          pos := pos }, .ok ())
    | .err e => (s, .err e)
    | .panic v => (s, .panic v)

/-- initialisation on the first `PartialFit` (`sklearn/cluster/minibatch_kmeans.go:257-262`) -/
def KM.begin (sqrt : α → α) (inf : α) (o : Rng α) (P : Params α) (X : Mat α) (s : KM α) :
    Outcome (KM α) :=
  match s.centers with
  | none => (initCenters sqrt inf o P (rowsOf X) s.pos).map (fun i =>
      { s with nFeatures := X.c, centers := some i.1, counts := some (List.replicate P.nClusters 0),
               pos := i.2 })
  | some _ => .ok s

/-- the update part of `PartialFit` (`sklearn/cluster/minibatch_kmeans.go:264-283`); indexing nil
counts panics -/
def KM.update (sqrt : α → α) (inf : α) (X : Mat α) (s1 : KM α) : KM α × Outcome Unit :=
  if X.c ≠ s1.nFeatures then (s1, .err (.dimension s1.nFeatures X.c 1))
  else match steps sqrt inf (s1.centers.getD [], s1.counts.getD []) (rowsOf X) with
    | .ok cs =>
      ({ s1 with centers := some cs.1, counts := if s1.counts.isNone then none else some cs.2,
                 fitted := true }, .ok ())
    | .err e => (s1, .err e)
    | .panic v => (s1, .panic v)

/-- `PartialFit` (`sklearn/cluster/minibatch_kmeans.go:251-284`). Simplified: after a panic the
state is the one before the call or before the batch. -/
def KM.partialFit (sqrt : α → α) (inf : α) (o : Rng α) (P : Params α) (X : Mat α) (s : KM α) :
    KM α × Outcome Unit :=
  match s.begin sqrt inf o P X with
  | .ok s1 => s1.update sqrt inf X
  | .err e => (s, .err e)
  | .panic v => (s, .panic v)

/-- `Transform` (`sklearn/cluster/minibatch_kmeans.go:287-311`); `mat.NewDense` panics on a zero
dimension, indexing a missing centre panics -/
def KM.transform (sqrt : α → α) (inf : α) (P : Params α) (X : Mat α) (s : KM α) :
    Outcome (Mat α) :=
  if s.fitted = false then .err (.other "model is not fitted")
  else if X.c ≠ s.nFeatures then .err (.other "feature dimension mismatch")
  else if X.r = 0 ∨ P.nClusters = 0 then .panic "mat: zero length in matrix dimension"
  else if (s.centers.getD []).length < P.nClusters then .panic "index out of range"
  else .ok ⟨X.r, P.nClusters, fun i c => dist sqrt inf (X.row i) ((s.centers.getD []).getD c [])⟩

/-- `Predict` (`sklearn/cluster/minibatch_kmeans.go:314-336`), labels as numbers -/
def KM.predict (sqrt : α → α) (inf : α) (X : Mat α) (s : KM α) : Outcome (List Nat) :=
  if s.fitted = false then .err (.other "model is not fitted")
  else if X.c ≠ s.nFeatures then .err (.other "feature dimension mismatch")
  else if X.r = 0 then .panic "mat: zero length in matrix dimension"
  else .ok ((rowsOf X).map (fun x => nearest sqrt inf x (s.centers.getD [])))

/-- `FitPredict` (`sklearn/cluster/minibatch_kmeans.go:339-345`) -/
def KM.fitPredict (sqrt : α → α) (inf : α) (o : Rng α) (P : Params α) (X : Mat α) (s : KM α) :
    KM α × Outcome (List Nat) :=
  let r := s.fit sqrt inf o P X
  (r.1, r.2.bind (fun _ => r.1.predict sqrt inf X))

end

end Scigo.KMeans
