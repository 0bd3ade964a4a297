import Verif.Trainer.Grow
import Verif.Base.Sort
import Mathlib.Data.List.Dedup

/-!
# Sampling, dropped trees and class weights

Model of `SampleFeatures`, `SampleInstances` (`sklearn/lightgbm/trainer_params.go`), `gosssampling`, the restoration of
gradients after it, `selectDARTDropIndices`, `normalizeDARTWeights` and `computeClassWeights`
(`sklearn/lightgbm/trainer.go`).

The random generator is an arbitrary function `r`: the `i`-th call `IntN(k)` returns `r i % k`. This covers every seed,
`deterministic` or not.
-/

set_option linter.unusedSectionVars false

namespace Scigo.Trainer

variable {α β : Type}

/-- `a[i], a[j] = a[j], a[i]`: sklearn/lightgbm/trainer_params.go:68, 119, sklearn/lightgbm/trainer.go:270, 970 -/
def swapAt (l : List β) (i j : Nat) : List β :=
  match l[i]?, l[j]? with
  | some a, some b => (l.set i b).set j a
  | _, _ => l

/-- the loop of the partial Fisher-Yates shuffle from position `i`, `m` rounds: sklearn/lightgbm/trainer_params.go:66-69, 117-120,
sklearn/lightgbm/trainer.go:268-271, 967-970 -/
def shuffleFrom (r : Nat → Nat) : Nat → Nat → List β → List β
  | 0, _, l => l
  | m + 1, i, l => shuffleFrom r m (i + 1) (swapAt l i (i + r i % (l.length - i)))

/-- the first `m` of `l` after the shuffle: sklearn/lightgbm/trainer_params.go:66-71, 117-122 -/
def draw (r : Nat → Nat) (m : Nat) (l : List β) : List β := (shuffleFrom r m 0 l).take m

section
variable [LT α] [DecidableLT α] [LE α] [DecidableLE α] [Zero α] [One α] [Add α] [Sub α] [Mul α] [Div α] [Neg α]

/-- `int(float64(n) * fraction)` limited to `1..n` (the lower limit first): sklearn/lightgbm/trainer_params.go:45-51, 96-102. `scale n f` is
`int(float64(n) * f)`. -/
def sampleSize (scale : Int → α → Int) (n : Nat) (fraction : α) : Nat :=
  let k := scale n fraction
  let k := if k < 1 then 1 else k
  (if (n : Int) < k then (n : Int) else k).toNat

/-- `SampleFeatures`; the generator is not consulted for a fraction outside `(0, 1)`; zero columns do not occur (`mat.Dense` has
none): sklearn/lightgbm/trainer_params.go:34-72 -/
def sampleFeatures (scale : Int → α → Int) (r : Nat → Nat) (fraction : α) (n : Nat) : List Nat :=
  if 1 ≤ fraction ∨ fraction ≤ 0 then List.range n
  else draw r (sampleSize scale n fraction) (List.range n)

/-- `SampleInstances`: sklearn/lightgbm/trainer_params.go:75-123 -/
def sampleInstances (scale : Int → α → Int) (r : Nat → Nat) (fraction : α) (freq : Int) (n : Nat) (iteration : Nat) : List Nat :=
  if freq ≤ 0 ∨ (iteration : Int) % freq ≠ 0 then List.range n
  else if 1 ≤ fraction ∨ fraction ≤ 0 then List.range n
  else draw r (sampleSize scale n fraction) (List.range n)

/-- result of `gosssampling`: the rows of the tree, the gradients and hessians it is grown from, and the saved originals as association
lists: sklearn/lightgbm/trainer.go:963-999 -/
structure Goss (α : Type) where
  selected : List Nat
  g : Nat → α
  h : Nat → α
  savedG : List (Nat × α)
  savedH : List (Nat × α)

/-- `a[k] = v`: sklearn/lightgbm/trainer.go:497-502, 991-992 -/
def setAt (a : Nat → α) (k : Nat) (v : α) : Nat → α := fun i => if i = k then v else a i

/-- one round of the amplification: sklearn/lightgbm/trainer.go:988-993 -/
def amplify (amp : α) (s : Goss α) (k : Nat) : Goss α :=
  ⟨s.selected, setAt s.g k (s.g k * amp), setAt s.h k (s.h k * amp), s.savedG ++ [(k, s.g k)], s.savedH ++ [(k, s.h k)]⟩

/-- number of rows kept for their large gradients: sklearn/lightgbm/trainer.go:941-944 -/
def topCount (scale : Int → α → Int) (rows : Nat) (topRate : α) : Nat :=
  (if scale rows topRate < 1 then 1 else scale rows topRate).toNat

/-- number of rows drawn from the others: sklearn/lightgbm/trainer.go:947-951; `rows - topCount` is 0 if negative -/
def otherCount (scale : Int → α → Int) (rows : Nat) (topRate otherRate : α) : Nat :=
  (scale ((rows - topCount scale rows topRate : Nat) : Int) otherRate).toNat

/-- `gosssampling`; `byGrad` is `sort.Slice` by decreasing absolute gradient. The seed (`Seed`, or the clock) is in `r`.
sklearn/lightgbm/trainer.go:921-1002 -/
def goss (scale : Int → α → Int) (byGrad : List Nat → List Nat) (r : Nat → Nat) (topRate otherRate : α) (rows : Nat) (g h : Nat → α) : Goss α :=
  let sorted := byGrad (List.range rows)
  let top := topCount scale rows topRate
  let other := otherCount scale rows topRate otherRate
  if 0 < other ∧ top < rows then
    let drawn := draw r (min other (rows - top)) (sorted.drop top)
    if 0 < otherRate then drawn.foldl (amplify ((1 - topRate) / otherRate)) ⟨sorted.take top ++ drawn, g, h, [], []⟩
    else ⟨sorted.take top ++ drawn, g, h, [], []⟩
  else ⟨sorted.take top, g, h, [], []⟩

/-- the restoration after the tree is built; the map is iterated in the order `order` gives: sklearn/lightgbm/trainer.go:495-506 -/
def restore (order : List (Nat × α) → List (Nat × α)) (saved : List (Nat × α)) (a : Nat → α) : Nat → α :=
  (order saved).foldl (fun a p => setAt a p.1 p.2) a

/-- the number of dropped trees: sklearn/lightgbm/trainer.go:254-261. `ceil` is `int(math.Ceil(DropRate * float64(numTrees)))`. -/
def dropCount (ceil : Int) (maxDrop : Int) : Int :=
  let k := if 0 < maxDrop ∧ maxDrop < ceil then maxDrop else ceil
  if k < 1 then 1 else k

/-- `selectDARTDropIndices`; `skip` tells whether the draw for `SkipDrop` succeeded. A slice longer than the array panics:
sklearn/lightgbm/trainer.go:242-273 -/
def selectDrop (dart : Bool) (skip : Bool) (ceil maxDrop : Int) (r : Nat → Nat) (numTrees : Nat) : Outcome (List Nat) :=
  if !dart || numTrees == 0 then .ok []
  else if skip then .ok []
  else
    let k := (dropCount ceil maxDrop).toNat
    let idxs := shuffleFrom r (min k numTrees) 0 (List.range numTrees)
    if numTrees < k then .panic "slice bounds out of range" else .ok (idxs.take k)

/-- `normalizeDARTWeights` on the list of shrinkage rates; `ofNat` is `float64`: sklearn/lightgbm/trainer.go:277-296 -/
def normalizeDART (dart : Bool) (ofNat : Nat → α) (dropped : List Nat) (rates : List α) : List α :=
  if !dart || dropped.isEmpty then rates
  else if rates.length = 0 ∨ rates.length ≤ dropped.length then rates
  else
    let factor := ofNat rates.length / ofNat (rates.length - dropped.length)
    rates.mapIdx fun i s => if dropped.contains i then s else s * factor

/-- the dynamic type and value of `ClassWeight`; in a `map[string]interface{}` a value that is not a `float64` is `none`:
sklearn/lightgbm/trainer.go:306, 324-355 -/
inductive ClassWeight (α : Type)
  | absent
  | str (s : String)
  | strMap (m : List (String × Option α))
  | intMap (m : Int → Option α)
  | other

/-- weight of class `c` in the balanced mode: sklearn/lightgbm/trainer.go:315-332 -/
def balancedWeight (ofNat : Nat → α) (labels : List Int) (c : Int) : Option α :=
  if labels.contains c then some (ofNat labels.length / (ofNat labels.dedup.length * ofNat (labels.count c))) else none

/-- filling the weights from string keys, in the order of iteration; `atoi` is `strconv.Atoi`: sklearn/lightgbm/trainer.go:337-348 -/
def fillWeights (atoi : String → Option Int) : List (String × Option α) → (Int → Option α) → Outcome (Int → Option α)
  | [], w => .ok w
  | (k, v) :: rest, w =>
    match atoi k, v with
    | none, _ => .err (.other "invalid class key")
    | some _, none => .err (.other "invalid weight")
    | some c, some x => fillWeights atoi rest fun d => if d = c then some x else w d

/-- `computeClassWeights`; `none` is the nil map. `labels` are the targets converted by `int`: sklearn/lightgbm/trainer.go:305-357 -/
def computeClassWeights (ofNat : Nat → α) (atoi : String → Option Int) (order : List (String × Option α) → List (String × Option α)) (labels : List Int) :
    ClassWeight α → Outcome (Option (Int → Option α))
  | .absent => .ok none
  | cw =>
    if labels.length = 0 then .ok none
    else match cw with
      | .absent => .ok none
      | .str s => if s = "balanced" then .ok (some (balancedWeight ofNat labels)) else .err (.other "unsupported class_weight string")
      | .strMap m => (fillWeights atoi (order m) fun _ => none).map some
      | .intMap m => .ok (some m)
      | .other => .err (.other "unsupported class_weight type")

end
end Scigo.Trainer
