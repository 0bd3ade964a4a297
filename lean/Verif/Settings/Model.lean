import Verif.Logistic.Model
import Verif.Tree.Model

/-!
# Parameters of decision trees and pipelines

Model of `GetParams` and `SetParams` of `DecisionTreeClassifier` (`sklearn/tree/tree.go:531-569`) and of `Pipeline`
(`sklearn/pipeline/pipeline.go:306-342`). A Go map is the list of its entries in the order in which it is visited. The other
methods are in `Verif.Tree` and `Verif.Pipeline`, the options of the constructor of trees in `Verif.Options`.
-/

namespace Scigo.Settings

open Scigo.Logistic (PVal)

variable {α : Type _}

/-- the parameters of a tree (`sklearn/tree/tree.go:25-33`) -/
structure TreeParams (α : Type _) where
  criterion : String
  maxDepth : Int
  minSamplesSplit : Int
  minSamplesLeaf : Int
  maxFeatures : String
  maxLeafNodes : Int
  minImpurityDecrease : α
  randomState : Int

/-- `GetParams` (`sklearn/tree/tree.go:531-542`) -/
def TreeParams.get (p : TreeParams α) : List (String × PVal α) :=
  [("criterion", .str p.criterion), ("max_depth", .int p.maxDepth), ("min_samples_split", .int p.minSamplesSplit),
   ("min_samples_leaf", .int p.minSamplesLeaf), ("max_features", .str p.maxFeatures), ("max_leaf_nodes", .int p.maxLeafNodes),
   ("min_impurity_decrease", .flt p.minImpurityDecrease), ("random_state", .int64 p.randomState)]

/-- one round of the loop of `SetParams` (`sklearn/tree/tree.go:547-566`); a value of another dynamic type is a failed type
assertion, which panics -/
def TreeParams.set1 (p : TreeParams α) (key : String) (v : PVal α) : Outcome (TreeParams α) :=
  let bad := Outcome.panic "interface conversion"
  if key = "criterion" then match v with | .str s => .ok { p with criterion := s } | _ => bad
  else if key = "max_depth" then match v with | .int n => .ok { p with maxDepth := n } | _ => bad
  else if key = "min_samples_split" then match v with | .int n => .ok { p with minSamplesSplit := n } | _ => bad
  else if key = "min_samples_leaf" then match v with | .int n => .ok { p with minSamplesLeaf := n } | _ => bad
  else if key = "max_features" then match v with | .str s => .ok { p with maxFeatures := s } | _ => bad
  else if key = "max_leaf_nodes" then match v with | .int n => .ok { p with maxLeafNodes := n } | _ => bad
  else if key = "min_impurity_decrease" then match v with | .flt x => .ok { p with minImpurityDecrease := x } | _ => bad
  else if key = "random_state" then match v with | .int64 n => .ok { p with randomState := n } | _ => bad
  else .err (.other "unknown parameter")

/-- `SetParams` (`sklearn/tree/tree.go:545-569`); the state after a failure keeps what was already assigned -/
def TreeParams.setAll : TreeParams α → List (String × PVal α) → TreeParams α × Outcome Unit
  | p, [] => (p, .ok ())
  | p, (k, v) :: rest =>
    match p.set1 k v with
    | .ok p' => TreeParams.setAll p' rest
    | .err e => (p, .err e)
    | .panic s => (p, .panic s)

/-- the parameters of a new tree (`sklearn/tree/tree.go:57-67`) -/
def TreeParams.default (zero : α) : TreeParams α := ⟨"gini", 0, 2, 1, "auto", 0, zero, -1⟩

/-- the parameters that `Fit` reads (`sklearn/tree/tree.go:178-268,362-395`): `maxFeatures`, `maxLeafNodes` and `randomState`
occur nowhere outside of the constructor, `GetParams` and `SetParams` -/
def TreeParams.read (p : TreeParams α) : Tree.Params α :=
  ⟨p.criterion, p.maxDepth, p.minSamplesSplit, p.minSamplesLeaf, p.minImpurityDecrease⟩

/-- `Fit` with these parameters (`sklearn/tree/tree.go:115-155`), see `Verif.Tree.Model` -/
def TreeParams.fit [Add α] [Sub α] [Mul α] [Div α] [Zero α] [One α] [NatCast α] [LT α] [LE α] [DecidableLT α] [DecidableLE α]
    [BEq α] (log2 : α → α) (toInt : α → Int) (srt : (Nat → α) → List Nat → List Nat) (iter : List Int → List Int)
    (p : TreeParams α) (fuel : Nat) (X y : Mat α) (t : Tree.Clf α) : Option (Tree.Clf α × Outcome Unit) :=
  t.fit log2 toInt srt iter p.read fuel X y

/-! ## Pipelines -/

/-- a parameter value as the pipeline sees it: its own list of steps, its memory, or any other value of type `W`, of which
`asBool` tells the booleans apart (`sklearn/pipeline/pipeline.go:308-312,333`) -/
inductive PipeVal (W : Type _)
  | steps
  | memory
  | bool (b : Bool)
  | other (w : W)

/-- a step: its name and, if the estimator has a method `GetParams() map[string]interface{}`, the map it returns (sklearn/pipeline/pipeline.go:315-319) -/
structure PStep (W : Type _) where
  name : List Char
  params : Option (List (List Char × PipeVal W))

/-- the pipeline as far as parameters go (`sklearn/pipeline/pipeline.go:29-41`) -/
structure PPipe (W : Type _) where
  steps : List (PStep W)
  verbose : Bool

variable {W : Type _}

/-- `fmt.Sprintf("%s__%s", step.Name, key)` (`sklearn/pipeline/pipeline.go:322`) -/
def stepKey (name key : List Char) : List Char := name ++ '_' :: '_' :: key

/-- a map as a function; writing an entry (`sklearn/pipeline/pipeline.go:310-322`) -/
def put (m : List Char → Option (PipeVal W)) (k : List Char) (v : PipeVal W) : List Char → Option (PipeVal W) :=
  fun x => if x = k then some v else m x

/-- the entries of one step (`sklearn/pipeline/pipeline.go:316-324`) -/
def putStep (m : List Char → Option (PipeVal W)) (s : PStep W) : List Char → Option (PipeVal W) :=
  (s.params.getD []).foldl (fun m e => put m (stepKey s.name e.1) e.2) m

/-- `GetParams` (`sklearn/pipeline/pipeline.go:308-328`) -/
def PPipe.get (p : PPipe W) : List Char → Option (PipeVal W) :=
  p.steps.foldl putStep (put (put (put (fun _ => none) "steps".toList .steps) "memory".toList .memory) "verbose".toList (.bool p.verbose))

/-- `SetParams` (`sklearn/pipeline/pipeline.go:331-342`): it never fails -/
def PPipe.set (p : PPipe W) (params : List Char → Option (PipeVal W)) : PPipe W :=
  match params "verbose".toList with
  | some (.bool b) => { p with verbose := b }
  | _ => p

end Scigo.Settings
