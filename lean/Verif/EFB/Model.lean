import Verif.Base.Mat
import Verif.Base.Outcome
import Verif.Base.Sort
import Verif.Base.Loop

/-!
# Exclusive feature bundling

Model of `sklearn/lightgbm/efb.go`. The fields `Values` and `Conflicts` of a bundle, which nothing sets, are left out: a bundle is the list of its
features. `IsEFBBeneficial` and the fluent setters are in `Verif.EFB.Benefit`.
-/

set_option linter.unusedSectionVars false

namespace Scigo.EFB

variable {α : Type}

/-- literals and conversions: `tiny` is 1e-10, `base` is 1000, `ofNat n` is `float64(n)`: sklearn/lightgbm/efb.go:84-88, 320 -/
structure Lits (α : Type) where
  tiny : α
  base : α
  ofNat : Nat → α

/-- `EFBOptimizer`: sklearn/lightgbm/efb.go:21-25 -/
structure Optimizer (α : Type) where
  maxConflictRate : α
  maxBundles : Int
  sparsityRatio : α

section
variable [LT α] [DecidableLT α] [LE α] [DecidableLE α] [Zero α] [Add α] [Sub α] [Neg α] [Mul α] [Div α]

/-- `math.Abs`: sklearn/lightgbm/efb.go:84 -/
def abs' (v : α) : α := if v < 0 then -v else v

/-- the test for zero of `calculateSparsity` and `unbundleValue`: sklearn/lightgbm/efb.go:84, 378 -/
def isZero (L : Lits α) (v : α) : Bool := decide (abs' v < L.tiny)

/-- the test for a value to encode: sklearn/lightgbm/efb.go:118-119, 324 -/
def nonZero (L : Lits α) (v : α) : Bool := decide (L.tiny < abs' v)

/-- `calculateSparsity` of column `j`: sklearn/lightgbm/efb.go:77-92 -/
def sparsity (L : Lits α) (X : Mat α) (j : Nat) : α :=
  L.ofNat ((List.range X.r).countP fun i => isZero L (X.at' i j)) / L.ofNat X.r

/-- the columns that may be bundled: sklearn/lightgbm/efb.go:51-56 -/
def sparseColumns (L : Lits α) (o : Optimizer α) (X : Mat α) : List Nat :=
  (List.range X.c).filter fun j => decide (o.sparsityRatio ≤ sparsity L X j)

/-- rows where at least one of two columns is not zero: sklearn/lightgbm/efb.go:121-122 -/
def eitherCount (L : Lits α) (X : Mat α) (f g : Nat) : Nat := (List.range X.r).countP fun i => nonZero L (X.at' i f) || nonZero L (X.at' i g)

/-- rows where both are not zero: sklearn/lightgbm/efb.go:123-125 -/
def bothCount (L : Lits α) (X : Mat α) (f g : Nat) : Nat := (List.range X.r).countP fun i => nonZero L (X.at' i f) && nonZero L (X.at' i g)

/-- the conflict rate of two columns: sklearn/lightgbm/efb.go:95-140. Simplified: addressed by the columns themselves, not by their positions in the list of
sparse columns, which are one-to-one. -/
def conflictRate (L : Lits α) (X : Mat α) (f g : Nat) : α :=
  if 0 < eitherCount L X f g then L.ofNat (bothCount L X f g) / L.ofNat (eitherCount L X f g) else 0

/-- number of columns in conflict with `f`: sklearn/lightgbm/efb.go:156-162 -/
def degree (bad : Nat → Nat → Bool) (features : List Nat) (f : Nat) : Nat := features.countP fun g => decide (f ≠ g) && bad f g

/-- the loop adding compatible columns to a bundle; `rest` are the unused columns in order. Result: the bundle and the columns still unused:
sklearn/lightgbm/efb.go:193-222 -/
def fill (bad : Nat → Nat → Bool) : List Nat → List Nat → List Nat × List Nat
  | bundle, [] => (bundle, [])
  | bundle, i :: rest =>
    if bundle.all fun b => !bad i b then fill bad (bundle ++ [i]) rest
    else ((fill bad bundle rest).1, i :: (fill bad bundle rest).2)

/-- the main loop: seed a bundle with the first unused column, fill it, keep it if it has more than one column. `fuel` bounds the number of rounds;
every round uses a column, so the number of columns suffices (`rounds_fuel`): sklearn/lightgbm/efb.go:171-228 -/
def rounds (bad : Nat → Nat → Bool) (maxBundles : Int) (n : Nat) : Nat → List (List Nat) → List Nat → List (List Nat)
  | 0, bundles, _ => bundles
  | fuel + 1, bundles, rest =>
    if (bundles.length : Int) < maxBundles ∧ bundles.length < n then
      match rest with
      | [] => bundles
      | s :: l => rounds bad maxBundles n fuel (if 1 < (fill bad [s] l).1.length then bundles ++ [(fill bad [s] l).1] else bundles) (fill bad [s] l).2
    else bundles

/-- `greedyBundling`; `srt key` sorts by `key` (`sort.Slice`, any order of equal keys): sklearn/lightgbm/efb.go:143-231 -/
def greedy (srt : (Nat → Nat) → List Nat → List Nat) (bad : Nat → Nat → Bool) (maxBundles : Int) (features : List Nat) : List (List Nat) :=
  rounds bad maxBundles features.length features.length [] (srt (degree bad features) features)

/-- the first loop of `createFeatureMapping`: consecutive positions for the columns outside all bundles. Result: the positions, and how many:
sklearn/lightgbm/efb.go:245-254 -/
def plain (bundled : List Nat) : Nat → List Nat × Nat
  | 0 => ([], 0)
  | n + 1 =>
    let p := plain bundled n
    if n ∈ bundled then (p.1 ++ [0], p.2) else (p.1 ++ [p.2], p.2 + 1)

/-- `mapping[f] = c` for all columns of a bundle, writing outside the slice panics: sklearn/lightgbm/efb.go:259-261 -/
def assign (c : Nat) : List Nat → List Nat → Outcome (List Nat)
  | [], m => .ok m
  | f :: fs, m => if f < m.length then assign c fs (m.set f c) else .panic "index out of range"

/-- the second loop of `createFeatureMapping`: sklearn/lightgbm/efb.go:257-262 -/
def assignAll (first : Nat) : List (List Nat) → Nat → List Nat → Outcome (List Nat)
  | [], _, m => .ok m
  | b :: bs, k, m => (assign (first + k) b m).bind fun m' => assignAll first bs (k + 1) m'

/-- `createFeatureMapping`: sklearn/lightgbm/efb.go:234-265 -/
def createMapping (bundles : List (List Nat)) (total : Nat) : Outcome (List Nat) :=
  assignAll (plain bundles.flatten total).2 bundles 0 (plain bundles.flatten total).1

/-- `CreateBundles`: the bundles, the mapping, and the optimizer afterwards (`MaxBundles` is filled in): sklearn/lightgbm/efb.go:37-74. With fewer than two sparse
columns the mapping returned is all zero. -/
def createBundles (L : Lits α) (srt : (Nat → Nat) → List Nat → List Nat) (o : Optimizer α) (X : Mat α) :
    Outcome (List (List Nat) × List Nat × Optimizer α) :=
  let o' : Optimizer α := { o with maxBundles := if o.maxBundles = 0 then (if X.c / 3 < 1 then 1 else (X.c / 3 : Nat)) else o.maxBundles }
  let sparse := sparseColumns L o X
  if sparse.length < 2 then .ok ([], List.replicate X.c 0, o')
  else
    let bundles := greedy srt (fun f g => decide (o.maxConflictRate < conflictRate L X f g)) o'.maxBundles sparse
    (createMapping bundles X.c).map fun m => (bundles, m, o')

/-- `createBundleValue`, position `k` onwards: sklearn/lightgbm/efb.go:316-333 -/
def encode (L : Lits α) (value : Nat → α) : Nat → List Nat → α
  | _, [] => 0
  | k, f :: fs => if nonZero L (value f) then L.base * L.ofNat (k + 1) + value f else encode L value (k + 1) fs

/-- copy the columns outside all bundles: sklearn/lightgbm/efb.go:291-300 -/
def copyPlain (X : Mat α) (bundled mapping : List Nat) : Nat → (Nat → Nat → α) → Outcome (Nat → Nat → α)
  | 0, M => .ok M
  | n + 1, M => (copyPlain X bundled mapping n M).bind fun M =>
    if n ∈ bundled then .ok M
    else match mapping[n]? with
      | none => .panic "index out of range"
      | some c => .ok fun i j => if j = c then X.at' i n else M i j

/-- write the bundle columns: sklearn/lightgbm/efb.go:302-310. Simplified: a bundle naming a column outside `X` panics at once, the code only if a row reaches it. -/
def writeBundles (L : Lits α) (X : Mat α) (mapping : List Nat) : List (List Nat) → (Nat → Nat → α) → Outcome (Nat → Nat → α)
  | [], M => .ok M
  | [] :: _, _ => .panic "index out of range"
  | (f :: fs) :: bs, M =>
    match mapping[f]? with
    | none => .panic "index out of range"
    | some c =>
      if (f :: fs).all (fun g => decide (g < X.c)) then
        writeBundles L X mapping bs fun i j => if j = c then encode L (X.at' i) 0 (f :: fs) else M i j
      else .panic "mat: column index out of range"

/-- `BundleFeatures`: sklearn/lightgbm/efb.go:268-313 -/
def bundleFeatures (L : Lits α) (X : Mat α) (bundles : List (List Nat)) (mapping : List Nat) : Outcome (Mat α) :=
  if X.r = 0 then .panic "mat: zero length in matrix dimension"
  else
    (copyPlain X bundles.flatten mapping X.c (fun _ _ => 0)).bind fun M =>
    (writeBundles L X mapping bundles M).bind fun M =>
    .ok ⟨X.r, mapping.foldl max 0 + 1, M⟩

/-- the position whose range contains the value: sklearn/lightgbm/efb.go:394-405 -/
def position (L : Lits α) (v : α) (n : Nat) : Option Nat :=
  (List.range n).find? fun i => decide (L.base * L.ofNat (i + 1) ≤ v) && decide (v < L.base * L.ofNat (i + 1) + L.base)

/-- `unbundleValue`: the value written for column `f` of the bundle: sklearn/lightgbm/efb.go:377-418. The columns of a bundle are distinct. -/
def decode (L : Lits α) (features : List Nat) (v : α) (f : Nat) : α :=
  if isZero L v then 0
  else match position L v features.length with
    | none => 0
    | some i => if features[i]? = some f then v - L.base * L.ofNat (i + 1) else 0

/-- copy the columns outside all bundles back: sklearn/lightgbm/efb.go:353-361 -/
def restorePlain (B : Mat α) (bundled mapping : List Nat) : Nat → (Nat → Nat → α) → Outcome (Nat → Nat → α)
  | 0, M => .ok M
  | n + 1, M => (restorePlain B bundled mapping n M).bind fun M =>
    if n ∈ bundled then .ok M
    else match mapping[n]? with
      | none => .panic "index out of range"
      | some c => if c < B.c then .ok fun i j => if j = n then B.at' i c else M i j else .panic "mat: column index out of range"

/-- decode the bundle columns: sklearn/lightgbm/efb.go:363-371 -/
def restoreBundles (L : Lits α) (B : Mat α) (mapping : List Nat) : List (List Nat) → (Nat → Nat → α) → Outcome (Nat → Nat → α)
  | [], M => .ok M
  | [] :: _, _ => .panic "index out of range"
  | (f :: fs) :: bs, M =>
    match mapping[f]? with
    | none => .panic "index out of range"
    | some c =>
      if c < B.c then
        restoreBundles L B mapping bs fun i j => if j ∈ f :: fs then decode L (f :: fs) (B.at' i c) j else M i j
      else .panic "mat: column index out of range"

/-- `UnbundleFeatures`: sklearn/lightgbm/efb.go:336-374 -/
def unbundleFeatures (L : Lits α) (B : Mat α) (bundles : List (List Nat)) (originalCols : Nat) : Outcome (Mat α) :=
  if B.r = 0 ∨ originalCols = 0 then .panic "mat: zero length in matrix dimension"
  else
    (createMapping bundles originalCols).bind fun mapping =>
    (restorePlain B bundles.flatten mapping originalCols (fun _ _ => 0)).bind fun M =>
    (restoreBundles L B mapping bundles M).bind fun M =>
    .ok ⟨B.r, originalCols, M⟩

/-- `GetBundlingInfo`: the number of columns after bundling: sklearn/lightgbm/efb.go:430-446 -/
def bundledColumns (bundles : List (List Nat)) (originalCols : Nat) : Int :=
  (originalCols : Int) - (bundles.map List.length).sum + bundles.length

end
end Scigo.EFB
