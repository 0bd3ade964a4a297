import Verif.Base.Outcome
import Verif.Base.Mat
import Mathlib.Logic.Function.Basic

/-!
# The Dataset of the LightGBM style API

Model of `sklearn/lightgbm/api/dataset.go`.
-/

namespace Scigo.Dataset

variable {α : Type}

section keys
variable [BEq α]

/-- inserting a key into a `map[float64]bool`; a NaN never equals a key and is always new (sklearn/lightgbm/api/dataset.go:170, sklearn/lightgbm/quick.go:356) -/
def insertKey (keys : List α) (v : α) : List α := if keys.any (fun k => k == v) then keys else keys ++ [v]

/-- the loop that collects the distinct values and gives up (`none`) as soon as there are more than `limit`
(sklearn/lightgbm/api/dataset.go:168-177, sklearn/lightgbm/quick.go:354-361) -/
def scan (limit : Nat) : List α → List α → Option (List α)
  | keys, [] => some keys
  | keys, v :: rest =>
    let k := insertKey keys v
    if limit < k.length then none else scan limit k rest

end keys

/-- the values `SetField` and `GetField` pass around (sklearn/lightgbm/api/dataset.go:194-249); `other` stands for every type without a meaning here -/
inductive FieldVal (α : Type)
  | matrix (m : Option (Mat α))
  | vector (v : Option (List α))
  | string (s : String)
  | strings (s : List String)
  | ints (i : List Int)
  | int (i : Nat)
  | other (code : Nat)

/-- `Dataset` (sklearn/lightgbm/api/dataset.go:13-36). Simplified: without `Reference` and `binMappers`, which no method reads; `params` is the map as a
function. `data` is never nil after `NewDataset`. -/
structure Dataset (α : Type) where
  data : Mat α
  label : Option (Mat α)
  weight : Option (List α)
  featureNames : List String
  categorical : List Int
  params : String → Option (FieldVal α)
  nSamples : Nat
  nFeatures : Nat
  isBinary : Bool
  nClasses : Int
  isValid : Bool

section
variable [BEq α] [Zero α] [One α]

/-- the first column of a matrix (sklearn/lightgbm/api/dataset.go:169) -/
def firstCol (m : Mat α) : List α := (List.range m.r).map (fun i => m.at' i 0)

/-- `detectBinaryClassification` for a label column: the new flag (sklearn/lightgbm/api/dataset.go:164-187) -/
def detectBinary (ys : List α) : Bool :=
  match scan (ys.length / 4) [] ys with
  | none => false
  | some keys => keys.all (fun v => v == 0 || v == 1)

/-- `validateLabel` (sklearn/lightgbm/api/dataset.go:135-161): the dataset as it is afterwards, and the error -/
def validateLabel (ds : Dataset α) : Dataset α × Option GoErr :=
  match ds.label with
  | none => (ds, none)
  | some y =>
    if y.r ≠ ds.nSamples then (ds, some (.dimension ds.nSamples y.r 0))
    else if y.c = 1 then
      let b := detectBinary (firstCol y)
      ({ ds with isBinary := b, nClasses := if b then 2 else ds.nClasses }, none)
    else ({ ds with nClasses := y.c }, none)

/-- the functional options (sklearn/lightgbm/api/dataset.go:90-132) -/
inductive Option' (α : Type)
  | weight (w : Option (List α))
  | names (n : List String)
  | categorical (c : List Int)
  | params (p : List (String × FieldVal α))

/-- applying an option (sklearn/lightgbm/api/dataset.go:93-131) -/
def applyOption (ds : Dataset α) : Option' α → Dataset α
  | .weight w => { ds with weight := w }
  | .names n => { ds with featureNames := n }
  | .categorical c => { ds with categorical := c }
  | .params p => { ds with params := p.foldl (fun m kv => Function.update m kv.1 (some kv.2)) ds.params }

/-- `NewDataset` (sklearn/lightgbm/api/dataset.go:47-87); `data = none` is a nil matrix -/
def newDataset (data : Option (Mat α)) (label : Option (Mat α)) (options : List (Option' α)) : Outcome (Dataset α) :=
  match data with
  | none => .err .value
  | some X =>
    if X.r = 0 ∨ X.c = 0 then .err .value
    else
      let ds : Dataset α := ⟨X, label, none, [], [], fun _ => none, X.r, X.c, false, 0, true⟩
      match validateLabel ds with
      | (_, some e) => .err e
      | (ds, none) =>
        let ds := options.foldl applyOption ds
        .ok (if ds.featureNames.isEmpty then { ds with featureNames := (List.range X.c).map (fun i => s!"Column_{i}") } else ds)

/-- `GetField` (sklearn/lightgbm/api/dataset.go:194-216) -/
def getField (ds : Dataset α) (name : String) : Outcome (FieldVal α) :=
  if name = "label" then .ok (.matrix ds.label)
  else if name = "weight" then .ok (.vector ds.weight)
  else if name = "data" then .ok (.matrix (some ds.data))
  else if name = "feature_name" then .ok (.strings ds.featureNames)
  else if name = "categorical_feature" then .ok (.ints ds.categorical)
  else if name = "n_samples" then .ok (.int ds.nSamples)
  else if name = "n_features" then .ok (.int ds.nFeatures)
  else match ds.params name with
    | some v => .ok v
    | none => .err (.other "field not found")

/-- `SetField` (sklearn/lightgbm/api/dataset.go:219-249): the dataset afterwards and the error. A nil matrix is not a `mat.Matrix` for the type test of the
label; a nil `*mat.VecDense` is accepted. -/
def setField (ds : Dataset α) (name : String) (v : FieldVal α) : Dataset α × Option GoErr :=
  if name = "label" then
    match v with
    | .matrix (some y) => validateLabel { ds with label := some y }
    | _ => (ds, some (.other "invalid type for label field"))
  else if name = "weight" then
    match v with
    | .vector w => ({ ds with weight := w }, none)
    | _ => (ds, some (.other "invalid type for weight field"))
  else if name = "feature_name" then
    match v with
    | .strings s => ({ ds with featureNames := s }, none)
    | _ => (ds, some (.other "invalid type for feature_name field"))
  else if name = "categorical_feature" then
    match v with
    | .ints i => ({ ds with categorical := i }, none)
    | _ => (ds, some (.other "invalid type for categorical_feature field"))
  else ({ ds with params := Function.update ds.params name (some v) }, none)

/-- the rows `indices` of a matrix (sklearn/lightgbm/api/dataset.go:283-291,297-301) -/
def takeRows (X : Mat α) (c : Nat) (indices : List Nat) : Mat α := ⟨indices.length, c, fun i j => X.at' (indices.getD i 0) j⟩

/-- does reading the label rows `idx` panic? (sklearn/lightgbm/api/dataset.go:294-302) -/
def labelShort (label : Option (Mat α)) (idx : List Nat) : Bool :=
  match label with
  | none => false
  | some y => idx.any (fun i => decide (y.r ≤ i)) && decide (0 < y.c)

/-- does reading the weights `idx` panic? (sklearn/lightgbm/api/dataset.go:305-312) -/
def weightShort (weight : Option (List α)) (idx : List Nat) : Bool :=
  match weight with
  | none => false
  | some w => idx.any (fun i => decide (w.length ≤ i))

/-- `GetSubset` (sklearn/lightgbm/api/dataset.go:277-338). The indices are checked against the number of samples, not against the lengths of label and
weight, which panic when too short. -/
def getSubset (ds : Dataset α) (indices : List Int) : Outcome (Dataset α) :=
  if indices = [] then .err .value
  else if indices.any (fun i => i < 0 || (ds.nSamples : Int) ≤ i) then .err (.other "index out of range")
  else
    let idx := indices.map Int.toNat
    if ds.data.r < ds.nSamples ∧ idx.any (fun i => ds.data.r ≤ i) then .panic "index out of range"
    else if labelShort ds.label idx then .panic "index out of range"
    else if weightShort ds.weight idx then .panic "index out of range"
    else .ok { ds with
      data := takeRows ds.data ds.nFeatures idx
      label := ds.label.map (fun y => takeRows y y.c idx)
      weight := ds.weight.map (fun w => idx.map (fun i => w.getD i 0))
      nSamples := idx.length
      isValid := true }

/-- the name of the dataset at position `i` (sklearn/lightgbm/api/dataset.go:359-363) -/
def validName (ds : Dataset α) (i : Nat) : String :=
  match ds.params "name" with
  | some (.string s) => s
  | _ => s!"valid_{i}"

/-- `CreateValidDatasets` (sklearn/lightgbm/api/dataset.go:342-368); a nil dataset is `none`. The name parameter counts if it is a string. -/
def createValid (sets : List (Option (Dataset α))) : Outcome (List (Dataset α × String)) :=
  let rec go : Nat → List (Option (Dataset α)) → Outcome (List (Dataset α × String))
    | _, [] => .ok []
    | i, none :: rest => go (i + 1) rest
    | i, some ds :: rest =>
      if ds.isValid then
        (go (i + 1) rest).map fun r => (ds, validName ds i) :: r
      else .err (.other "dataset is not valid")
  go 0 sets

end

end Scigo.Dataset
