import Verif.Base.Outcome
import Verif.Base.Mat
import Verif.Base.Loop

/-!
# Least-squares linear regression and exported weights

Model of `linear/regression.go`, `sklearn/linear_model/linear_regression.go`,
`core/model/sklearn_import.go` (the linear regression part) and `core/model/weights.go`.

Carrier `α` stands for `float64`. gonum's `Inverse` and `QR.SolveTo` are parameters (`inv`, `solve`)
constrained only by the contracts of `Verif/Linear/Spec.lean`; SHA-256 of the marshalled
coefficients is a parameter `checksum`. Logging and JSON syntax are not modelled: a JSON trip is its
effect on Go values.
-/

set_option linter.unusedSectionVars false

namespace Scigo.Linear

variable {α : Type _}

/-- `C.Mul(A, B)`, each entry accumulated left to right (gonum; used at `linear/regression.go:168`).
Simplified: gonum's blocked order of additions is not reproduced. -/
def mulMat [Add α] [Mul α] [Zero α] (A B : Mat α) : Mat α :=
  { r := A.r, c := B.c, at' := fun i j => sumTo A.c (fun k => A.at' i k * B.at' k j) }

/-- `A.T()` (`linear/regression.go:165`) -/
def transpose (A : Mat α) : Mat α := { r := A.c, c := A.r, at' := fun i j => A.at' j i }

/-- `v.MulVec(A, x)` (`linear/regression.go:187,191`); `x` by index -/
def mulVec [Add α] [Mul α] [Zero α] (A : Mat α) (x : Nat → α) : Nat → α :=
  fun i => sumTo A.c (fun k => A.at' i k * x k)

/-- the matrix `[1 | X]` (`linear/regression.go:148-161`,
`sklearn/linear_model/linear_regression.go:131-141`); that the parallel fill writes each row exactly
once is `Scigo.Parallel.threshold_covers_exactly_once` -/
def withIntercept [One α] (X : Mat α) : Mat α :=
  { r := X.r, c := X.c + 1, at' := fun i j => match j with | 0 => 1 | j + 1 => X.at' i j }

/-- `pred := b; for j { pred += X.At(i,j) * w[j] }` (`linear/regression.go:264-267`,
`sklearn/linear_model/linear_regression.go:213-216`) -/
def predRow [Add α] [Mul α] [Zero α] (w : List α) (b : α) (X : Mat α) (i : Nat) : α :=
  (List.range X.c).foldl (fun s j => s + X.at' i j * w.getD j 0) b

/-! ## `linear.LinearRegression` -/

/-- `LinearRegression` (`linear/regression.go:54-60`); `fitted` is `State.IsFitted()` -/
structure LinReg (α : Type _) where
  weights : Option (List α)
  intercept : α
  nFeatures : Nat
  fitted : Bool
  nSamples : Nat
  deriving DecidableEq

namespace LinReg

/-- `NewLinearRegression()` (`linear/regression.go:76-88`) -/
def new [Zero α] : LinReg α := ⟨none, 0, 0, false, 0⟩

section
variable [Add α] [Mul α] [Zero α] [One α]

/-- the solution vector `(X'X)⁻¹ X'y` from the inverse `B` (`linear/regression.go:178-191`) -/
def solveNormal (B A : Mat α) (y : Mat α) : Nat → α :=
  mulVec B (mulVec (transpose A) (fun i => y.at' i 0))

/-- `Fit` (`linear/regression.go:116-215`); the model after the call and its result. Each early return
keeps the fields written so far: `NFeatures` (line 144) is written before the inverse is tried. -/
def fit (inv : Mat α → Option (Mat α)) (m : LinReg α) (X y : Mat α) : LinReg α × Outcome Unit :=
  if X.r = 0 ∨ X.c = 0 then (m, .err .model)
  else if y.r ≠ X.r then (m, .err (.dimension X.r y.r 0))
  else if y.c ≠ 1 then (m, .err .value)
  else
    let m1 := { m with nFeatures := X.c }
    let A := withIntercept X
    match inv (mulMat (transpose A) A) with
    | none => (m1, .err .model)
    | some B =>
      let th := solveNormal B A y
      ({ weights := some ((List.range X.c).map (fun i => th (i + 1))), intercept := th 0,
         nFeatures := X.c, fitted := true, nSamples := X.r }, .ok ())

/-- body of `Predict` (`linear/regression.go:243-280`): `mat.NewDense(0, 1, nil)` panics, as does
reading a weight that is not there (nil vector or index out of range) -/
def predictBody (m : LinReg α) (X : Mat α) : Outcome (Mat α) :=
  if m.fitted = false then .err .notFitted
  else if X.c ≠ m.nFeatures then .err (.dimension m.nFeatures X.c 1)
  else if X.r = 0 then .panic "mat: zero length in matrix dimension"
  else if (m.weights.getD []).length < X.c then .panic "mat: index out of range"
  else .ok { r := X.r, c := 1, at' := fun i _ => predRow (m.weights.getD []) m.intercept X i }

/-- `Predict` under `Recover` (`linear/regression.go:241-242`) -/
def predict (m : LinReg α) (X : Mat α) : Outcome (Mat α) :=
  (m.predictBody X).recovered "LinearRegression.Predict"

end

/-- `GetWeights` (`linear/regression.go:283-293`): nil before any fit, else a fresh copy -/
def getWeights (m : LinReg α) : Option (List α) := m.weights

/-- `GetIntercept` (`linear/regression.go:296-301`) -/
def getIntercept [Zero α] (m : LinReg α) : α := if m.fitted then m.intercept else 0

section
variable [Add α] [Sub α] [Mul α] [Div α] [Zero α] [One α] [NatCast α] [BEq α]

/-- the mean of the first column (`linear/regression.go:318-322`) -/
def colMean (y : Mat α) : α := sumTo y.r (fun i => y.at' i 0) / (y.r : α)

/-- the two accumulations and the quotient (`linear/regression.go:324-340`,
`sklearn/linear_model/linear_regression.go:238-253`) for predictions `P`; `e` is the error returned
when the total sum of squares is zero -/
def r2Body (e : GoErr) (P y : Mat α) : Outcome α :=
  if y.r ≠ 0 ∧ (y.c = 0 ∨ P.r < y.r) then .panic "mat: row or column index out of range"
  else
    let mu := colMean y
    let tss := sumTo y.r (fun i => (y.at' i 0 - mu) * (y.at' i 0 - mu))
    let rss := sumTo y.r (fun i => (y.at' i 0 - P.at' i 0) * (y.at' i 0 - P.at' i 0))
    if tss == 0 then .err e else .ok (1 - rss / tss)

/-- `Score` (`linear/regression.go:304-341`) -/
def score (m : LinReg α) (X y : Mat α) : Outcome α :=
  (if m.fitted = false then .err .notFitted
   else (m.predict X).bind (fun P => r2Body (.other "total sum of squares is zero") P y)).recovered
    "LinearRegression.Score"

end

/-- `SKLearnLinearRegressionParams` (`core/model/sklearn_import.go:20-24`) with the model spec
(`:13-17`) of the file it came in -/
structure SKParams (α : Type _) where
  name : String
  formatVersion : String
  coefficients : List α
  intercept : α
  nFeatures : Int
  deriving DecidableEq

/-- `LoadSKLearnModelFromReader` then `LoadLinearRegressionParams` on a syntactically valid document
(`core/model/sklearn_import.go:65-123`), then the field writes of `LoadFromSKLearnReader`
(`linear/regression.go:373-400`). Simplified: errors are `other` (they are wrapped by `%w`). -/
def load (m : LinReg α) (d : SKParams α) : LinReg α × Outcome Unit :=
  if d.formatVersion = "" then (m, .err (.other "format_version is required"))
  else if d.formatVersion ≠ "1.0" then (m, .err (.other "unsupported format version"))
  else if d.name = "" then (m, .err (.other "model name is required"))
  else if d.name ≠ "LinearRegression" then (m, .err (.other "expected LinearRegression"))
  else if d.coefficients.length = 0 then (m, .err (.other "coefficients cannot be empty"))
  else if d.nFeatures ≠ d.coefficients.length then (m, .err (.other "n_features mismatch"))
  else ({ weights := some d.coefficients, intercept := d.intercept,
          nFeatures := d.coefficients.length, fitted := true, nSamples := 0 }, .ok ())

/-- `ExportToSKLearnWriter` (`linear/regression.go:431-471`); `finite` is `json.Marshal` accepting the
number (it rejects NaN and ±Inf). Simplified: write errors of the `io.Writer` are not modelled. -/
def export_ (finite : α → Bool) (m : LinReg α) : Outcome (SKParams α) :=
  if m.fitted = false then .err .notFitted
  else if (m.weights.getD []).all finite && finite m.intercept then
    .ok ⟨"LinearRegression", "1.0", m.weights.getD [], m.intercept, m.nFeatures⟩
  else .err (.other "failed to marshal params")

/-- one call on a `LinReg` that can change it (linear/regression.go:73-471) -/
inductive Op (α : Type _)
  | fit (X y : Mat α)
  | load (d : SKParams α)

/-- effect of a call (linear/regression.go:73-471) -/
def step [Add α] [Mul α] [Zero α] [One α] (inv : Mat α → Option (Mat α)) (m : LinReg α) :
    Op α → LinReg α
  | .fit X y => (m.fit inv X y).1
  | .load d => (m.load d).1

/-- a history of calls (linear/regression.go:73-471) -/
def run [Add α] [Mul α] [Zero α] [One α] (inv : Mat α → Option (Mat α)) (m : LinReg α)
    (ops : List (Op α)) : LinReg α := ops.foldl (step inv) m

end LinReg

/-! ## Exported weights -/

/-- a Go `interface{}` value: the dynamic types the code tests for, or a reference to mutable data
(slice or map) by its address (`map[string]interface{}` of core/model/weights.go:9-64) -/
inductive Dyn (α : Type _)
  | bool (b : Bool)
  | int (n : Int)
  | float (x : α)
  | str (s : String)
  | ref (addr : Nat)
  deriving DecidableEq

/-- `map[string]interface{}`: only look-ups matter (`map[string]interface{}` of core/model/weights.go:9-64) -/
abbrev DMap (α : Type _) := String → Option (Dyn α)

/-- `ModelWeights` (`core/model/weights.go:9-33`) -/
structure MW (α : Type _) where
  modelType : String
  version : String
  coefficients : List α
  intercept : α
  features : List String
  hyper : DMap α
  meta_ : DMap α
  fitted : Bool

namespace MW

/-- `Validate` (`core/model/weights.go:46-64`) -/
def validate (w : MW α) : Outcome Unit :=
  if w.modelType = "" then .err (.other "model_type is required")
  else if w.version = "" then .err (.other "version is required")
  else if w.fitted = false ∧ w.coefficients.length > 0 then
    .err (.other "unfitted model should not have coefficients")
  else if w.fitted = true ∧ w.coefficients.length = 0 then
    .err (.other "fitted model must have coefficients")
  else .ok ()

/-- what `encoding/json` makes of a dynamic value on the way out and in again: every number becomes
a `float64` (`map[string]interface{}` of core/model/weights.go:9-64) -/
def jsonVal (ofInt : Int → α) : Dyn α → Dyn α
  | .int n => .float (ofInt n)
  | v => v

/-- `ToJSON` then `FromJSON` into a fresh value (`core/model/weights.go:36-38`); fails iff some number
cannot be marshalled. Simplified: maps are checked on the keys `ks` they are known to have; values
that are references are left alone. -/
def jsonTrip (ofInt : Int → α) (finite : α → Bool) (ks : List String) (w : MW α) : Option (MW α) :=
  let bad : Option (Dyn α) → Bool := fun v => match v with | some (.float x) => !finite x | _ => false
  if w.coefficients.all finite && finite w.intercept && ks.all (fun k => !bad (w.hyper k)) &&
      ks.all (fun k => !bad (w.meta_ k)) then
    some { w with hyper := fun k => (w.hyper k).map (jsonVal ofInt),
                  meta_ := fun k => (w.meta_ k).map (jsonVal ofInt) }
  else none

end MW

/-! ## `linear_model.LinearRegression` -/

/-- `LinearRegression` (`sklearn/linear_model/linear_regression.go:17-40`); ints are unbounded -/
structure LM (α : Type _) where
  fitIntercept : Bool
  normalize : Bool
  copyX : Bool
  nJobs : Int
  positive : Bool
  version : String
  coef : List α
  intercept : α
  nFeatures : Int
  nSamples : Int
  rank : Int
  fitted : Bool
  deriving DecidableEq

namespace LM

/-- `NewLinearRegression(options…)` (`sklearn/linear_model/linear_regression.go:44-61`) -/
def new [Zero α] (fitIntercept normalize copyX : Bool) (nJobs : Int) (positive : Bool) : LM α :=
  { fitIntercept := fitIntercept, normalize := normalize, copyX := copyX, nJobs := nJobs,
    positive := positive, version := "1.0.0", coef := [], intercept := 0, nFeatures := 0,
    nSamples := 0, rank := 0, fitted := false }

section
variable [Add α] [Mul α] [Zero α] [One α] [LT α] [DecidableLT α]

/-- `if x < 0 { x = 0 }` (`sklearn/linear_model/linear_regression.go:184-191`) -/
def clamp0 (x : α) : α := if x < 0 then 0 else x

/-- reading the solution column back (`sklearn/linear_model/linear_regression.go:167-192`) -/
def extract (m : LM α) (cols : Nat) (th : Mat α) : LM α :=
  let b := if m.fitIntercept then th.at' 0 0 else 0
  let w := (List.range cols).map (fun i => if m.fitIntercept then th.at' (i + 1) 0 else th.at' i 0)
  if m.positive then { m with coef := w.map clamp0, intercept := clamp0 b }
  else { m with coef := w, intercept := b }

/-- the matrix handed to the QR decomposition (`sklearn/linear_model/linear_regression.go:120-145`) -/
def design (m : LM α) (X : Mat α) : Mat α := if m.fitIntercept then withIntercept X else X

/-- `Fit` (`sklearn/linear_model/linear_regression.go:102-197`). There is no `Recover`: gonum's panics
(zero sizes; fewer rows than columns in `Factorize`) reach the caller. `solve A y` is
`qr.Factorize(A); qr.SolveTo(·, false, y)`, `none` when `SolveTo` returns an error. -/
def fit (solve : Mat α → Mat α → Option (Mat α)) (m : LM α) (X y : Mat α) : LM α × Outcome Unit :=
  if X.r ≠ y.r then (m, .err (.dimension X.r y.r 0))
  else if y.c ≠ 1 then (m, .err (.dimension 1 y.c 1))
  else
    let m1 := { m with nSamples := X.r, nFeatures := X.c }
    let m2 := { m1 with rank := (m.design X).c }
    if m.fitIntercept ∧ X.r = 0 then (m1, .panic "mat: zero length in matrix dimension")
    else if (m.design X).r < (m.design X).c then (m1, .panic "mat: dimension mismatch")
    else if (m.design X).c = 0 then (m2, .panic "mat: zero length in matrix dimension")
    else match solve (m.design X) y with
      | none => (m2, .err (.other "failed to solve linear system"))
      | some th => ({ m2.extract X.c th with fitted := true }, .ok ())

end

section
variable [Add α] [Mul α] [Zero α]

/-- `Predict` (`sklearn/linear_model/linear_regression.go:200-221`) -/
def predict (m : LM α) (X : Mat α) : Outcome (Mat α) :=
  if m.fitted = false then .err .notFitted
  else if (X.c : Int) ≠ m.nFeatures then .err (.dimension m.nFeatures X.c 1)
  else if X.r = 0 then .panic "mat: zero length in matrix dimension"
  else if m.coef.length < X.c then .panic "index out of range"
  else .ok { r := X.r, c := 1, at' := fun i _ => predRow m.coef m.intercept X i }

end

/-- `Score` (`sklearn/linear_model/linear_regression.go:224-254`) -/
def score [Add α] [Sub α] [Mul α] [Div α] [Zero α] [One α] [NatCast α] [BEq α]
    (m : LM α) (X y : Mat α) : Outcome α :=
  (m.predict X).bind (fun P => LinReg.r2Body .value P y)

/-- `GetParams` (`sklearn/linear_model/linear_regression.go:272-283`) -/
def getParams (m : LM α) : DMap α := fun k =>
  if k = "fit_intercept" then some (.bool m.fitIntercept)
  else if k = "normalize" then some (.bool m.normalize)
  else if k = "copy_X" then some (.bool m.copyX)
  else if k = "n_jobs" then some (.int m.nJobs)
  else if k = "positive" then some (.bool m.positive)
  else if k = "fitted" then some (.bool m.fitted)
  else if k = "model_type" then some (.str "LinearRegression")
  else if k = "version" then some (.str m.version)
  else none

/-- `v, ok := x.(bool)`; keep `d` when not ok (`sklearn/linear_model/linear_regression.go:288`) -/
def asBool (d : Bool) : Option (Dyn α) → Bool
  | some (.bool b) => b
  | _ => d

/-- `v, ok := x.(int)` (`sklearn/linear_model/linear_regression.go:297`) -/
def asInt (d : Int) : Option (Dyn α) → Int
  | some (.int n) => n
  | _ => d

/-- `v, ok := x.(float64); int(v)` (`sklearn/linear_model/linear_regression.go:356-364`); `toInt` is
Go's conversion -/
def asFloatInt (toInt : α → Int) (d : Int) : Option (Dyn α) → Int
  | some (.float x) => toInt x
  | _ => d

/-- `SetParams` (`sklearn/linear_model/linear_regression.go:286-305`); never fails -/
def setParams (m : LM α) (p : DMap α) : LM α :=
  { m with fitIntercept := asBool m.fitIntercept (p "fit_intercept"),
           normalize := asBool m.normalize (p "normalize"),
           copyX := asBool m.copyX (p "copy_X"),
           nJobs := asInt m.nJobs (p "n_jobs"),
           positive := asBool m.positive (p "positive") }

/-- `ExportWeights` (`sklearn/linear_model/linear_regression.go:308-333`) -/
def exportWeights (checksum : List α → String) (m : LM α) : Outcome (MW α) :=
  if m.fitted = false then .err (.other "model is not fitted")
  else .ok
    { modelType := "LinearRegression", version := m.version, coefficients := m.coef,
      intercept := m.intercept, features := [], fitted := true, hyper := m.getParams,
      meta_ := fun k =>
        if k = "n_features" then some (.int m.nFeatures)
        else if k = "n_samples" then some (.int m.nSamples)
        else if k = "rank" then some (.int m.rank)
        else if k = "checksum" then some (.str (checksum m.coef))
        else none }

/-- the stored checksum, when there is one, disagrees (`sklearn/linear_model/linear_regression.go:367-375`) -/
def checksumBad (checksum : List α → String) (w : MW α) : Bool :=
  match w.meta_ "checksum" with
  | some (.str s) => decide (s ≠ checksum w.coefficients)
  | _ => false

/-- `ImportWeights` (`sklearn/linear_model/linear_regression.go:336-380`): the fields are written before
the checksum is compared -/
def importWeights (checksum : List α → String) (toInt : α → Int) (m : LM α) (w : Option (MW α)) :
    LM α × Outcome Unit :=
  match w with
  | none => (m, .err (.other "weights cannot be nil"))
  | some w =>
    if w.modelType ≠ "LinearRegression" then (m, .err (.other "model type mismatch"))
    else
      let m1 := m.setParams w.hyper
      let m2 := { m1 with coef := w.coefficients, intercept := w.intercept,
                          nFeatures := asFloatInt toInt m1.nFeatures (w.meta_ "n_features"),
                          nSamples := asFloatInt toInt m1.nSamples (w.meta_ "n_samples"),
                          rank := asFloatInt toInt m1.rank (w.meta_ "rank") }
      if checksumBad checksum w then (m2, .err (.other "checksum mismatch"))
      else ({ m2 with fitted := true }, .ok ())

/-- `Clone` (`sklearn/linear_model/linear_regression.go:400-418`); the error of `ImportWeights` is
dropped -/
def clone [Zero α] (checksum : List α → String) (toInt : α → Int) (m : LM α) : LM α :=
  let c : LM α := new m.fitIntercept m.normalize m.copyX m.nJobs m.positive
  if m.fitted then
    match m.exportWeights checksum with
    | .ok w => (c.importWeights checksum toInt (some w)).1
    | _ => c
  else c

end LM

/-! ## Aliasing of exported weights -/

/-- contents of a piece of mutable memory: a `[]float64`, a `[]string`, a `map[string]interface{}`,
or a nested slice of dynamic values (memory behind core/model/weights.go:67-91) -/
inductive Cell (α : Type _)
  | floats (l : List α)
  | strs (l : List String)
  | dmap (m : DMap α)
  | vals (l : List (Dyn α))

/-- memory: cells `0 … next-1` are allocated (memory behind core/model/weights.go:67-91) -/
structure Heap (α : Type _) where
  cell : Nat → Cell α
  next : Nat

namespace Heap

/-- allocate a cell (`make`, `core/model/weights.go:73-76`) -/
def alloc (h : Heap α) (c : Cell α) : Heap α × Nat :=
  (⟨fun a => if a = h.next then c else h.cell a, h.next + 1⟩, h.next)

/-- mutate a cell through any reference to it: `w.Coefficients[0] = …`, `w.Metadata[k] = …`
(what a caller of `core/model/weights.go` may do) -/
def write (h : Heap α) (a : Nat) (c : Cell α) : Heap α :=
  { h with cell := fun b => if b = a then c else h.cell b }

end Heap

/-- a `*ModelWeights` with its reference fields as addresses, `none` = nil
(`core/model/weights.go:9-33`) -/
structure MWRef (α : Type _) where
  modelType : String
  version : String
  intercept : α
  fitted : Bool
  coefficients : Option Nat
  features : Option Nat
  hyper : Option Nat
  meta_ : Option Nat

namespace MWRef

/-- read a `[]float64` field; nil reads as empty (`core/model/weights.go:79`) -/
def floatsAt (h : Heap α) : Option Nat → List α
  | some a => match h.cell a with | .floats l => l | _ => []
  | none => []

/-- read a `[]string` field (`core/model/weights.go:80`) -/
def strsAt (h : Heap α) : Option Nat → List String
  | some a => match h.cell a with | .strs l => l | _ => []
  | none => []

/-- range over a map field; a nil map has no entries (`core/model/weights.go:82-88`) -/
def dmapAt (h : Heap α) : Option Nat → DMap α
  | some a => match h.cell a with | .dmap m => m | _ => fun _ => none
  | none => fun _ => none

/-- `Clone` (`core/model/weights.go:67-91`): four fresh cells, the map values copied as they are -/
def clone (h : Heap α) (w : MWRef α) : Heap α × MWRef α :=
  let s1 := h.alloc (.floats (floatsAt h w.coefficients))
  let s2 := s1.1.alloc (.strs (strsAt h w.features))
  let s3 := s2.1.alloc (.dmap (dmapAt h w.hyper))
  let s4 := s3.1.alloc (.dmap (dmapAt h w.meta_))
  (s4.1, { modelType := w.modelType, version := w.version, intercept := w.intercept,
           fitted := w.fitted, coefficients := some s1.2, features := some s2.2,
           hyper := some s3.2, meta_ := some s4.2 })

end MWRef

end Scigo.Linear
