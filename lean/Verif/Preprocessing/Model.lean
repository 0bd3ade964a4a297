import Verif.Base.Loop
import Verif.Base.Mat
import Verif.Base.Outcome
import Verif.Base.Sort
import Mathlib.Logic.Function.Basic

/-!
# `preprocessing`: StandardScaler, MinMaxScaler, OneHotEncoder
-/

namespace Scigo.Preprocessing

variable {α : Type _}

/-- `mat.NewDense(r, c, nil)` followed by filling every entry: gonum panics on a zero
dimension. Used at `preprocessing/scaler.go:203, 282, 479, 561`. -/
def newDense (r c : Nat) (f : Nat → Nat → α) : Outcome (Mat α) :=
  if r = 0 ∨ c = 0 then .panic "mat: zero length in matrix dimension" else .ok ⟨r, c, f⟩

/-! ### StandardScaler -/

/-- `StandardScaler`. Models the struct at `preprocessing/scaler.go:38-55` with the `State` of
its `BaseEstimator` (`core/model/base.go:53-68`); logger and hyperparameter map dropped. -/
structure StdScaler (α : Type _) where
  withMean : Bool
  withStd : Bool
  fitted : Bool
  nFeatures : Nat
  mean : List α
  scale : List α

/-- `NewStandardScaler`. Models `preprocessing/scaler.go:79-84`. -/
def StdScaler.new (withMean withStd : Bool) : StdScaler α :=
  ⟨withMean, withStd, false, 0, [], []⟩

section Ops
variable [Add α] [Sub α] [Mul α] [Div α] [Zero α] [One α] [NatCast α] [LT α] [DecidableLT α]

/-- Column mean: `sum / float64(r)`. Models `preprocessing/scaler.go:127-133`. -/
def colMean (X : Mat α) (j : Nat) : α := sumTo X.r (fun i => X.at' i j) / (X.r : α)

/-- The `Mean` slice. Models `preprocessing/scaler.go:126-139`. -/
def fitMean (withMean : Bool) (X : Mat α) : List α :=
  (List.range X.c).map (fun j => if withMean then colMean X j else 0)

/-- Scale of column `j` given its stored mean: square root of the mean squared deviation,
replaced by `1` when below `eps = 1e-8`. Models `preprocessing/scaler.go:143-156`. -/
def colScale (sqrt abs : α → α) (eps : α) (X : Mat α) (j : Nat) (m : α) : α :=
  let sd := sqrt (sumTo X.r (fun i => (X.at' i j - m) * (X.at' i j - m)) / (X.r : α))
  if abs sd < eps then 1 else sd

/-- The `Scale` slice. Models `preprocessing/scaler.go:142-162`. -/
def fitScale (sqrt abs : α → α) (eps : α) (withStd : Bool) (X : Mat α) (mean : List α) : List α :=
  (List.range X.c).map (fun j =>
    if withStd then colScale sqrt abs eps X j (mean.getD j 0) else 1)

/-- `StandardScaler.Fit`. Models `preprocessing/scaler.go:114-166`. -/
def StdScaler.fit (sqrt abs : α → α) (eps : α) (s : StdScaler α) (X : Mat α) :
    StdScaler α × Outcome Unit :=
  if X.r = 0 ∨ X.c = 0 then (s, .err .model)
  else
    let mean := fitMean s.withMean X
    ({ s with nFeatures := X.c, mean := mean, scale := fitScale sqrt abs eps s.withStd X mean,
              fitted := true }, .ok ())

/-- `StandardScaler.Transform`. Models `preprocessing/scaler.go:191-215`; indexing `Mean` or
`Scale` past their length panics. -/
def StdScaler.transform (s : StdScaler α) (X : Mat α) : Outcome (Mat α) :=
  .recovered "StandardScaler.Transform" <|
    if ¬ s.fitted then .err .notFitted
    else if X.c ≠ s.nFeatures then .err (.dimension s.nFeatures X.c 1)
    else if s.mean.length < X.c ∨ s.scale.length < X.c then .panic "index out of range"
    else newDense X.r X.c (fun i j => (X.at' i j - s.mean.getD j 0) / s.scale.getD j 0)

/-- `StandardScaler.InverseTransform`. Models `preprocessing/scaler.go:270-294`. -/
def StdScaler.inverse (s : StdScaler α) (X : Mat α) : Outcome (Mat α) :=
  .recovered "StandardScaler.InverseTransform" <|
    if ¬ s.fitted then .err .notFitted
    else if X.c ≠ s.nFeatures then .err (.dimension s.nFeatures X.c 1)
    else if s.mean.length < X.c ∨ s.scale.length < X.c then .panic "index out of range"
    else newDense X.r X.c (fun i j => X.at' i j * s.scale.getD j 0 + s.mean.getD j 0)

/-- `StandardScaler.FitTransform`. Models `preprocessing/scaler.go:239-245`. -/
def StdScaler.fitTransform (sqrt abs : α → α) (eps : α) (s : StdScaler α) (X : Mat α) :
    StdScaler α × Outcome (Mat α) :=
  let r := s.fit sqrt abs eps X
  (r.1, r.2.bind fun _ => r.1.transform X)

/-- `BaseEstimator.Reset`. Models `core/model/base.go:122-124`. -/
def StdScaler.reset (s : StdScaler α) : StdScaler α := { s with fitted := false }

/-! ### MinMaxScaler -/

/-- `MinMaxScaler`. Models the struct at `preprocessing/scaler.go:315-338`; the write-only
`Min` and `Max` slices are left out. -/
structure MinMax (α : Type _) where
  lo : α
  hi : α
  fitted : Bool
  nFeatures : Nat
  dataMin : List α
  dataMax : List α
  scale : List α

/-- `NewMinMaxScaler`. Models `preprocessing/scaler.go:360-364`. -/
def MinMax.new (lo hi : α) : MinMax α := ⟨lo, hi, false, 0, [], [], []⟩

/-- The running minimum and maximum of column `j`, from row 1 on, starting at row 0.
Models `preprocessing/scaler.go:409-423`. -/
def colMinMax (X : Mat α) (j : Nat) : α × α :=
  (List.range (X.r - 1)).foldl (fun s i =>
    let v := X.at' (i + 1) j
    (if v < s.1 then v else s.1, if s.2 < v then v else s.2)) (X.at' 0 j, X.at' 0 j)

/-- `dataRange`, replaced by `1` when below `eps = 1e-8` in absolute value.
Models `preprocessing/scaler.go:426-432`. -/
def rangeScale (abs : α → α) (eps : α) (mn mx : α) : α :=
  if abs (mx - mn) < eps then 1 else mx - mn

/-- `MinMaxScaler.Fit`. Models `preprocessing/scaler.go:393-442`. -/
def MinMax.fit (abs : α → α) (eps : α) (s : MinMax α) (X : Mat α) : MinMax α × Outcome Unit :=
  if X.r = 0 ∨ X.c = 0 then (s, .err .model)
  else
    let mm := (List.range X.c).map (colMinMax X)
    ({ s with nFeatures := X.c, dataMin := mm.map Prod.fst, dataMax := mm.map Prod.snd,
              scale := mm.map (fun p => rangeScale abs eps p.1 p.2), fitted := true }, .ok ())

/-- `MinMaxScaler.Transform`. Models `preprocessing/scaler.go:467-494`. -/
def MinMax.transform (s : MinMax α) (X : Mat α) : Outcome (Mat α) :=
  .recovered "MinMaxScaler.Transform" <|
    if ¬ s.fitted then .err .notFitted
    else if X.c ≠ s.nFeatures then .err (.dimension s.nFeatures X.c 1)
    else if s.dataMin.length < X.c ∨ s.scale.length < X.c then .panic "index out of range"
    else newDense X.r X.c
      (fun i j => (X.at' i j - s.dataMin.getD j 0) / s.scale.getD j 0 * (s.hi - s.lo) + s.lo)

/-- `MinMaxScaler.InverseTransform`. Models `preprocessing/scaler.go:549-575`. -/
def MinMax.inverse (s : MinMax α) (X : Mat α) : Outcome (Mat α) :=
  .recovered "MinMaxScaler.InverseTransform" <|
    if ¬ s.fitted then .err .notFitted
    else if X.c ≠ s.nFeatures then .err (.dimension s.nFeatures X.c 1)
    else if s.dataMin.length < X.c ∨ s.scale.length < X.c then .panic "index out of range"
    else newDense X.r X.c
      (fun i j => (X.at' i j - s.lo) / (s.hi - s.lo) * s.scale.getD j 0 + s.dataMin.getD j 0)

/-- `MinMaxScaler.FitTransform`. Models `preprocessing/scaler.go:518-524`. -/
def MinMax.fitTransform (abs : α → α) (eps : α) (s : MinMax α) (X : Mat α) :
    MinMax α × Outcome (Mat α) :=
  let r := s.fit abs eps X
  (r.1, r.2.bind fun _ => r.1.transform X)

/-- `BaseEstimator.Reset`. Models `core/model/base.go:122-124`. -/
def MinMax.reset (s : MinMax α) : MinMax α := { s with fitted := false }

end Ops

/-! ### OneHotEncoder -/

variable {κ : Type _}

/-- `OneHotEncoder`. Models the struct at `preprocessing/encoder.go:15-29`; `index j` is the
map `CategoryToIdx[j]`. -/
structure Encoder (κ : Type _) where
  fitted : Bool
  nFeatures : Nat
  categories : List (List κ)
  index : List (κ → Option Nat)
  nOutputs : Nat

/-- `NewOneHotEncoder`. Models `preprocessing/encoder.go:41-43`. -/
def Encoder.new : Encoder κ := ⟨false, 0, [], [], 0⟩

/-- Build the category → index map, later writes winning.
Models `preprocessing/encoder.go:95-98`. -/
def buildIndex [DecidableEq κ] (cats : List κ) : κ → Option Nat :=
  cats.zipIdx.foldl (fun m x => Function.update m x.1 (some x.2)) (fun _ => none)

/-- Sorted distinct values of column `j`. Models `preprocessing/encoder.go:78-90`;
`srt` is `sort.Strings`, `iter` the map iteration order. `data[i][j]` is in range: Fit has
checked that all rows have `nFeatures` entries. -/
def columnCats (srt iter : List κ → List κ) (data : List (List κ)) (j : Nat) : List κ :=
  srt (iter (data.filterMap (fun row => row[j]?)))

/-- `OneHotEncoder.Fit`. Models `preprocessing/encoder.go:52-110`. -/
def Encoder.fit [DecidableEq κ] (srt iter : List κ → List κ) (e : Encoder κ)
    (data : List (List κ)) : Encoder κ × Outcome Unit :=
  match data with
  | [] => (e, .err .model)
  | r0 :: _ =>
    if r0.length = 0 then (e, .err .model)
    else match data.zipIdx.find? (fun x => decide (x.1.length ≠ r0.length)) with
      | some x => (e, .err (.dimension r0.length x.1.length x.2))
      | none =>
        let cats := (List.range r0.length).map (columnCats srt iter data)
        ({ fitted := true, nFeatures := r0.length, categories := cats,
           index := cats.map buildIndex, nOutputs := (cats.map List.length).sum }, .ok ())

/-- Encode one row: walk the features, `outputIdx` being the start of the current block.
`data[i][j]` panics when the row is too short, `result.Set` when the column is out of range.
Models `preprocessing/encoder.go:141-158`. -/
def encodeRow [One α] (nOut : Nat) :
    List (List κ × (κ → Option Nat)) → List κ → Nat → (Nat → α) → Option (Nat → α)
  | [], _, _, acc => some acc
  | _ :: _, [], _, _ => none
  | (cats, m) :: fs, x :: row, off, acc =>
    match m x with
    | some idx =>
      if off + idx < nOut then
        encodeRow nOut fs row (off + cats.length) (Function.update acc (off + idx) 1)
      else none
    | none => encodeRow nOut fs row (off + cats.length) acc

/-- All rows, stopping at the first panic. Models `preprocessing/encoder.go:141-158`. -/
def encodeRows [One α] [Zero α] (nOut : Nat) (fs : List (List κ × (κ → Option Nat))) :
    List (List κ) → Option (List (Nat → α))
  | [] => some []
  | row :: rows =>
    match encodeRow nOut fs row 0 (fun _ => 0) with
    | none => none
    | some r => (encodeRows nOut fs rows).map (r :: ·)

/-- `OneHotEncoder.Transform`. Models `preprocessing/encoder.go:120-161`; only the length of
the first row is checked against the fitted number of features. -/
def Encoder.transform [One α] [Zero α] (e : Encoder κ) (data : List (List κ)) : Outcome (Mat α) :=
  .recovered "OneHotEncoder.Transform" <|
    if ¬ e.fitted then .err .notFitted
    else match data with
      | [] => newDense 0 e.nOutputs (fun _ _ => 0)
      | r0 :: _ =>
        if r0.length ≠ e.nFeatures then .err (.dimension e.nFeatures r0.length 1)
        else if e.nOutputs = 0 then newDense data.length 0 (fun _ _ => 0)
        else match encodeRows e.nOutputs (e.categories.zip e.index) data with
          | none => .panic "index out of range"
          | some rows => newDense data.length e.nOutputs (fun i j => (rows.getD i (fun _ => 0)) j)

/-- `OneHotEncoder.FitTransform`. Models `preprocessing/encoder.go:171-177`. -/
def Encoder.fitTransform [DecidableEq κ] [One α] [Zero α] (srt iter : List κ → List κ)
    (e : Encoder κ) (data : List (List κ)) : Encoder κ × Outcome (Mat α) :=
  let r := e.fit srt iter data
  (r.1, r.2.bind fun _ => r.1.transform data)

/-- `BaseEstimator.Reset`. Models `core/model/base.go:122-124`. -/
def Encoder.reset (e : Encoder κ) : Encoder κ := { e with fitted := false }

/-- `OneHotEncoder.GetFeatureNamesOut`: `nm i cat` is the formatted name for feature `i` —
`fmt.Sprintf("%s_%s", inputFeatures[i] or "x{i}", cat)`. Models
`preprocessing/encoder.go:190-214`. -/
def Encoder.featureNames {ν : Type _} (e : Encoder κ) (nm : Nat → κ → ν) : List ν :=
  if ¬ e.fitted then [] else (e.categories.zipIdx.map (fun x => x.1.map (nm x.2))).flatten

end Scigo.Preprocessing
