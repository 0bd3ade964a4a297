import Verif.Base.Outcome

/-!
# The common base of the estimators (`core/model/base.go`)

Go maps are reference values, so hyperparameter maps live in a heap and estimators, weights and client code hold
addresses. Hyperparameter values are `interface{}`; one that is a pointer, slice or map is a reference to a cell that
client code can write through. The JSON encoding and SHA-256 of `GetWeightHash` are one function parameter, which may
fail (an unencodable value).
-/

namespace Scigo.BaseEst

/-- a hyperparameter value: plain, or something that refers to shared memory (`core/model/base.go:60-61`) -/
inductive Val
  | plain (n : Int)
  | ref (cell : Nat)
  deriving DecidableEq, Repr

/-- the contents of a `map[string]interface{}` (`core/model/base.go:61`) -/
abbrev GoMap := String → Option Val

/-- an empty map (`core/model/base.go:212`) -/
def GoMap.empty : GoMap := fun _ => none

/-- `for k, v := range src { dst[k] = v }` (`core/model/base.go:232-234`); every key is written once, so the iteration
order does not matter -/
def GoMap.merge (src dst : GoMap) : GoMap := fun k => match src k with
  | some v => some v
  | none => dst k

/-- `m[k] = v` (`core/model/base.go:233`) -/
def GoMap.put (m : GoMap) (k : String) (v : Val) : GoMap := fun k' => if k' = k then some v else m k'

/-- `BaseEstimator` (`core/model/base.go:53-68`); `params` is the address of the map, `none` for the nil map -/
structure Est where
  fitted : Bool
  params : Option Nat
  modelType : String
  version : String
  logger : Option Nat
  deriving DecidableEq

/-- `ModelWeights` as far as the base estimator fills it (`core/model/weights.go:9-33`) -/
structure Weights where
  modelType : String
  version : String
  fitted : Bool
  params : Option Nat
  deriving DecidableEq

/-- a map held by client code. `origin` is not in the program: it records the estimator whose `GetParams(false)` gave the
map, if any (`core/model/base.go:209-225`) -/
structure Handle where
  addr : Nat
  origin : Option Nat
  deriving DecidableEq

/-- the memory of a program that uses base estimators (`core/model/base.go:53-68`) -/
structure World where
  maps : Nat → GoMap
  next : Nat
  cells : Nat → Int
  ests : List Est
  handles : List Handle
  weights : List Weights

/-- the memory at program start (`core/model/base.go:53-68`) -/
def World.start : World := ⟨fun _ => GoMap.empty, 0, fun _ => 0, [], [], []⟩

/-- allocate a map (`core/model/base.go:212`) -/
def World.alloc (w : World) (m : GoMap) : World × Nat :=
  ({ w with maps := fun a => if a = w.next then m else w.maps a, next := w.next + 1 }, w.next)

/-- write a map at an address (`core/model/base.go:232-234`) -/
def World.store (w : World) (a : Nat) (m : GoMap) : World :=
  { w with maps := fun b => if b = a then m else w.maps b }

/-- contents of a possibly nil map; reading a nil map gives nothing (`core/model/base.go:232`) -/
def World.load (w : World) : Option Nat → GoMap
  | none => GoMap.empty
  | some a => w.maps a

/-- replace an estimator (`core/model/base.go:95-97`) -/
def World.setEst (w : World) (i : Nat) (e : Est) : World := { w with ests := w.ests.set i e }

/-- give client code a map (`core/model/base.go:209-225`) -/
def World.hold (w : World) (h : Handle) : World := { w with handles := w.handles ++ [h] }

/-- `GetParams` (`core/model/base.go:209-225`) -/
def getParams (w : World) (e : Est) (deep : Bool) : World × Nat :=
  match e.params with
  | none => w.alloc GoMap.empty
  | some a => if deep then w.alloc (GoMap.merge (w.maps a) GoMap.empty) else (w, a)

/-- `SetParams` (`core/model/base.go:228-238`) -/
def setParams (w : World) (i : Nat) (e : Est) (src : Option Nat) : World :=
  match e.params with
  | none =>
    let (w', a) := w.alloc GoMap.empty
    (w'.store a (GoMap.merge (w'.load src) (w'.maps a))).setEst i { e with params := some a }
  | some a => w.store a (GoMap.merge (w.load src) (w.maps a))

/-- `ExportWeights` (`core/model/base.go:241-255`) -/
def exportWeights (w : World) (e : Est) : World × Outcome Weights :=
  if e.fitted then
    let (w', a) := getParams w e true
    (w', .ok ⟨e.modelType, e.version, e.fitted, some a⟩)
  else (w, .err (.other "model is not fitted"))

/-- `ImportWeights` (`core/model/base.go:258-277`) -/
def importWeights (w : World) (i : Nat) (e : Est) : Option Weights → World × Outcome Unit
  | none => (w, .err (.other "weights cannot be nil"))
  | some wt =>
    if wt.modelType ≠ e.modelType then (w, .err (.other "model type mismatch"))
    else
      let e' : Est := { e with version := wt.version }
      let w' := setParams (w.setEst i e') i e' wt.params
      (match w'.ests[i]? with
        | none => w'
        | some e'' => if wt.fitted then w'.setEst i { e'' with fitted := true } else w', .ok ())

/-- what `GetWeightHash` hashes: the exported fields and the values the map holds (`core/model/base.go:280-293`) -/
structure Content where
  modelType : String
  version : String
  fitted : Bool
  params : String → Option (Int ⊕ Nat × Int)

/-- a value as JSON sees it; a reference is followed (the cell number keeps different kinds of references apart)
(`core/model/base.go:286`) -/
def World.resolve (w : World) : Val → Int ⊕ Nat × Int
  | .plain n => .inl n
  | .ref c => .inr (c, w.cells c)

/-- contents of exported weights (`core/model/base.go:286`) -/
def World.content (w : World) (wt : Weights) : Content :=
  ⟨wt.modelType, wt.version, wt.fitted, fun k => (w.load wt.params k).map w.resolve⟩

/-- `GetWeightHash`; `digest` is JSON, SHA-256 and hex (`core/model/base.go:280-293`) -/
def weightHash (digest : Content → Option String) (w : World) (e : Est) : String :=
  match exportWeights w e with
  | (w', .ok wt) => (digest (w'.content wt)).getD ""
  | _ => ""

/-- `Clone` (`core/model/base.go:296-309`) -/
def clone (w : World) (e : Est) : World × Est :=
  let (w', a) := w.alloc (GoMap.merge (w.load e.params) GoMap.empty)
  (w', ⟨e.fitted, some a, e.modelType, e.version, none⟩)

/-- one step of a program: constructors, methods, and writes of client code to maps and cells it can reach
(`core/model/base.go:85-309`) -/
inductive Op
  | new (modelType version : String)
  | makeMap
  | put (h : Nat) (k : String) (v : Val)
  | poke (cell : Nat) (n : Int)
  | getParams (i : Nat) (deep : Bool)
  | setParams (i : Nat) (h : Option Nat)
  | setFitted (i : Nat)
  | reset (i : Nat)
  | setLogger (i : Nat) (l : Option Nat)
  | clone (i : Nat)
  | exportTo (i : Nat)
  | importFrom (i : Nat) (j : Option Nat)

/-- address of a client map argument, nil when there is none (`core/model/base.go:228`) -/
def World.arg (w : World) (h : Option Nat) : Option Nat := (h.bind (w.handles[·]?)).map (·.addr)

/-- effect of an operation on an existing estimator (`core/model/base.go:85-309`) -/
def stepEst (w : World) (i : Nat) (e : Est) : Op → World
  | .getParams _ deep =>
    let (w', a) := getParams w e deep
    w'.hold ⟨a, if deep then none else e.params.map fun _ => i⟩
  | .setParams _ h => setParams w i e (w.arg h)
  | .setFitted _ => w.setEst i { e with fitted := true }
  | .reset _ => w.setEst i { e with fitted := false }
  | .setLogger _ l => w.setEst i { e with logger := l }
  | .clone _ =>
    let (w', c) := clone w e
    { w' with ests := w'.ests ++ [c] }
  | .exportTo _ =>
    match exportWeights w e with
    | (w', .ok wt) =>
      { w' with weights := w'.weights ++ [wt], handles := w'.handles ++ (wt.params.map fun a => ⟨a, none⟩).toList }
    | (w', _) => w'
  | .importFrom _ j => (importWeights w i e (j.bind (w.weights[·]?))).1
  | _ => w

/-- the estimator an operation is a method call on (`core/model/base.go:85-309`) -/
def Op.target : Op → Option Nat
  | .getParams i _ | .setParams i _ | .setFitted i | .reset i | .setLogger i _ | .clone i | .exportTo i | .importFrom i _ => some i
  | _ => none

/-- one step; indices that name nothing do nothing (`core/model/base.go:53-309`) -/
def step (w : World) (o : Op) : World :=
  match o with
  | .new mt v => { w with ests := w.ests ++ [⟨false, none, mt, v, none⟩] }
  | .makeMap => let (w', a) := w.alloc GoMap.empty; w'.hold ⟨a, none⟩
  | .put h k v => match w.handles[h]? with
    | none => w
    | some x => w.store x.addr ((w.maps x.addr).put k v)
  | .poke c n => { w with cells := fun d => if d = c then n else w.cells d }
  | o => match o.target.bind (fun i => (w.ests[i]?).map (i, ·)) with
    | none => w
    | some (i, e) => stepEst w i e o

/-- a program (`core/model/base.go:53-309`) -/
def run (os : List Op) : World := os.foldl step World.start

end Scigo.BaseEst
