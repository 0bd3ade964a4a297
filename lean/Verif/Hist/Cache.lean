import Verif.Base.Outcome
import Verif.Base.Sort

/-!
# The cache of sorted feature values

Model of `GetCachedFeatureValues` and `ClearCache` of the optimized split finder
(sklearn/lightgbm/histogram_optimization.go:540-576), called from any number of goroutines. The two critical sections of a call are one step
each, as the read-write lock makes them.
-/

namespace Scigo.Hist.Cache

variable {α : Type}

/-- the arguments of a call: the matrix (`none` where `At` panics), the column and the rows (sklearn/lightgbm/histogram_optimization.go:541-543) -/
structure Req (α : Type) where
  at' : Nat → Nat → Option α
  feature : Nat
  indices : List Nat

/-- the values of the column in the given rows; `none` if `X.At` panics (sklearn/lightgbm/histogram_optimization.go:560-563) -/
def column (r : Req α) : Option (List α) := r.indices.mapM fun i => r.at' i r.feature

/-- a goroutine: outside of the cache, between the two critical sections of a call, or back from a call with its result
(sklearn/lightgbm/histogram_optimization.go:544-569) -/
inductive Th (α : Type)
  | idle
  | missed (r : Req α)
  | back (r : Req α) (res : Outcome (List α))

/-- the cache and the goroutines (sklearn/lightgbm/histogram_optimization.go:544-569) -/
structure S (α : Type) where
  cache : Nat → Option (List α)
  th : Nat → Th α

/-- goroutine `g` is now `t` -/
def setTh (th : Nat → Th α) (g : Nat) (t : Th α) : Nat → Th α := fun k => if k = g then t else th k

/-- `featureCache[f] = v` (sklearn/lightgbm/histogram_optimization.go:567) -/
def setCache (c : Nat → Option (List α)) (f : Nat) (v : List α) : Nat → Option (List α) := fun k => if k = f then some v else c k

/-- the first critical section, under the read lock (sklearn/lightgbm/histogram_optimization.go:544-549) -/
def lookup (s : S α) (g : Nat) (r : Req α) : S α :=
  match s.cache r.feature with
  | some v => { s with th := setTh s.th g (.back r (.ok v)) }
  | none => { s with th := setTh s.th g (.missed r) }

/-- the second critical section, under the write lock, which is released also if `X.At` panics
(sklearn/lightgbm/histogram_optimization.go:552-568) -/
def fillIn (srt : List α → List α) (s : S α) (g : Nat) (r : Req α) : S α :=
  match s.cache r.feature with
  | some v => { s with th := setTh s.th g (.back r (.ok v)) }
  | none => match column r with
    | none => { s with th := setTh s.th g (.back r (.panic "mat: index out of range")) }
    | some vs => { cache := setCache s.cache r.feature (srt vs), th := setTh s.th g (.back r (.ok (srt vs))) }

/-- `ClearCache` (sklearn/lightgbm/histogram_optimization.go:572-576) -/
def clear (s : S α) : S α := { s with cache := fun _ => none }

/-- executions whose requests satisfy `A`: a goroutine enters a call, passes its second critical section, or anybody clears the cache
(sklearn/lightgbm/histogram_optimization.go:540-576) -/
inductive Run (srt : List α → List α) (A : Req α → Prop) : S α → S α → Prop
  | refl (s : S α) : Run srt A s s
  | enter {s t : S α} (g : Nat) (r : Req α) (hr : A r) (h : ∀ r', t.th g ≠ .missed r') (hs : Run srt A s t) : Run srt A s (lookup t g r)
  | finish {s t : S α} (g : Nat) (r : Req α) (h : t.th g = .missed r) (hs : Run srt A s t) : Run srt A s (fillIn srt t g r)
  | clear {s t : S α} (hs : Run srt A s t) : Run srt A s (clear t)

/-- `NewOptimizedSplitFinder`: an empty cache (sklearn/lightgbm/histogram_optimization.go:485-490) -/
def start : S α := ⟨fun _ => none, fun _ => .idle⟩

end Scigo.Hist.Cache
