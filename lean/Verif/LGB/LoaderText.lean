import Verif.LGB.LeavesText
import Verif.LGB.Text

/-!
# `LoadFromReader`, `SaveToFile`: the lines

Model of `LoadFromReader` with its scanner, header and `finalizeTree` (`sklearn/lightgbm/loader.go`), and of `SaveToFile`
(`sklearn/lightgbm/model.go`), which the estimators use. A file is its list of lines without line ends. Lengths count
characters, which are bytes in a file without other than ASCII characters. Not modelled: read errors of the file system.
-/

set_option linter.unusedSectionVars false

namespace Scigo.LGB

variable {α : Type _}

/-- the state of the loop of `LoadFromReader` (`sklearn/lightgbm/loader.go:35-40`); `currentTree` and `inTree` are set together.
Version and feature names are left out. -/
structure ScanState (α : Type _) where
  numClass : Int
  numFeatures : Int
  objective : String
  trees : List (Tree α)
  current : Option Int
  params : KV

/-- before the first line (`sklearn/lightgbm/model.go:206-214`) -/
def ScanState.start : ScanState α := ⟨0, 0, "", [], none, []⟩

/-- `parseIntArray`, `parseFloatArray` (`sklearn/lightgbm/loader.go:229-257`) of a parameter: entries that cannot be read are
dropped, and so are missing keys -/
def KV.list {β : Type _} (sp : Char → Bool) (parse : Text → Option β) (p : KV) (key : String) : List β :=
  (fields sp ((p.get key).getD [])).filterMap parse

/-- a non-negative array entry. Simplified: a negative split feature or decision type, which LightGBM does not write, is read
as 0. -/
def Lex.nat (L : Lex α) (w : Text) : Option Nat := (L.atoi w).map Int.toNat

/-- the arrays `finalizeTree` reads (`sklearn/lightgbm/loader.go:157-190`); errors in `num_leaves` are ignored -/
def KV.loaderArrays (L : Lex α) (p : KV) : TextArrays α where
  numLeaves := match p.get "num_leaves" with
    | some v => L.atoiLoose v
    | none => 0
  leafValue := p.list L.space L.float "leaf_value"
  left := p.list L.space L.atoi "left_child"
  right := p.list L.space L.atoi "right_child"
  decisionType := p.list L.space L.nat "decision_type"
  splitFeature := p.list L.space L.nat "split_feature"
  threshold := p.list L.space L.float "threshold"
  internalValue := p.list L.space L.float "internal_value"

/-- `shrinkage` (`sklearn/lightgbm/loader.go:164-167`). Simplified: `ParseFloat` of a value out of range gives an infinity
together with its error; here it counts as 0. -/
def KV.shrinkage [Zero α] (L : Lex α) (p : KV) : α := ((p.get "shrinkage").bind L.float).getD 0

/-- `finalizeTree` and appending the tree (`sklearn/lightgbm/loader.go:48-56,120-126`) -/
def ScanState.finish [Zero α] (L : Lex α) (s : ScanState α) : Outcome (ScanState α) :=
  match s.current with
  | none => .ok s
  | some i =>
    ((s.params.loaderArrays L).load (s.params.shrinkage L) (if i = 0 then 0 else 1)).bind fun t =>
      .ok { s with trees := s.trees ++ [t], current := none, params := [] }

/-- a header line (`sklearn/lightgbm/loader.go:92-117`); `binary`, `regression` and `multiclass` are the values of their own
constants -/
def ScanState.header (L : Lex α) (s : ScanState α) (key value : Text) : ScanState α :=
  if key = "num_class".toList then { s with numClass := L.atoiLoose value }
  else if key = "max_feature_idx".toList then { s with numFeatures := L.atoiLoose value + 1 }
  else if key = "objective".toList then
    match fields L.space value with
    | w :: _ => { s with objective := String.ofList w }
    | [] => s
  else s

/-- a `key=value` line (`sklearn/lightgbm/loader.go:82-118`) -/
def ScanState.entry (L : Lex α) (s : ScanState α) (line : Text) : ScanState α :=
  match setLine L.space line [] with
  | (k, v) :: _ => if s.current.isSome then { s with params := (k, v) :: s.params } else s.header L k v
  | [] => s

/-- one round of the loop (`sklearn/lightgbm/loader.go:42-119`); a `Tree=` line with more than one `=` is skipped -/
def ScanState.line [Zero α] (L : Lex α) (s : ScanState α) (raw : Text) : Outcome (ScanState α) :=
  if trim L.space raw = [] then s.finish L
  else if isTreeLine (trim L.space raw) then
    if ((trim L.space raw).drop 5).contains '=' then .ok s
    else match L.atoi ((trim L.space raw).drop 5) with
      | some i => .ok { s with current := some i, params := [] }
      | none => .err (.other "invalid tree index")
  else if trim L.space raw = "tree".toList then .ok s
  else .ok (s.entry L (trim L.space raw))

/-- the loop (`sklearn/lightgbm/loader.go:42-119`): the scanner stops at a line of `limit` or more characters
(`bufio.MaxScanTokenSize`), which `scanner.Err` reports -/
def scanLines [Zero α] (L : Lex α) (limit : Nat) : List Text → ScanState α → Outcome (ScanState α × Bool)
  | [], s => .ok (s, true)
  | l :: ls, s => if limit ≤ l.length then .ok (s, false) else (s.line L l).bind fun s => scanLines L limit ls s

/-- the model at the end (`sklearn/lightgbm/loader.go:132-146`); `tenth` is the default learning rate -/
def ScanState.model [Zero α] (tenth : α) (s : ScanState α) : Model α :=
  ⟨s.objective, if s.numClass = 0 then 1 else s.numClass, s.trees.length, tenth, s.trees, s.numFeatures, 0, loadedInit s.trees, false⟩

/-- `LoadFromReader` (`sklearn/lightgbm/loader.go:34-147`) -/
def loadLines [Zero α] (L : Lex α) (limit : Nat) (tenth : α) (lines : List Text) : Outcome (Model α) :=
  (scanLines L limit lines .start).bind fun r =>
    (r.1.finish L).bind fun s => if r.2 then .ok (s.model tenth) else .err (.other "token too long")

/-! ## `SaveToFile` -/

/-- how numbers are printed: `%d` and `%f` (`sklearn/lightgbm/model.go:526-552`) -/
structure Print (α : Type _) where
  int : Int → Text
  float : α → Text

/-- one line `key=value` -/
def Print.line (key : String) (v : Text) : Text := key.toList ++ '=' :: v

/-- the lines of a node (`sklearn/lightgbm/model.go:546-553`) -/
def Node.fileLines (P : Print α) (n : Node α) : List Text :=
  if n.isLeaf then [Print.line "leaf_value" (P.float n.leafValue)]
  else [Print.line "split_feature" (P.int n.feature), Print.line "threshold" (P.float n.threshold)]

/-- the lines of a tree, with the empty line before it (`sklearn/lightgbm/model.go:538-555`) -/
def Tree.fileLines (P : Print α) (i : Nat) (t : Tree α) : List Text :=
  [[], Print.line "Tree" (P.int i), Print.line "num_leaves" (P.int t.numLeaves), Print.line "num_cat" "0".toList,
    Print.line "shrinkage" (P.float t.shrinkage)] ++ t.nodes.flatMap (Node.fileLines P)

/-- the trees in order (`sklearn/lightgbm/model.go:537-556`) -/
def treeFileLines (P : Print α) : Nat → List (Tree α) → List Text
  | _, [] => []
  | i, t :: ts => t.fileLines P i ++ treeFileLines P (i + 1) ts

/-- `SaveToFile` (`sklearn/lightgbm/model.go:522-559`); `names` is the line of the feature names -/
def Model.fileLines (P : Print α) (names : Text) (m : Model α) : List Text :=
  ["tree".toList, Print.line "version" "v3".toList, Print.line "num_class" (P.int m.numClass),
    Print.line "num_tree_per_iteration" (P.int 1), Print.line "label_index" "0".toList,
    Print.line "max_feature_idx" (P.int (m.numFeatures - 1)), Print.line "objective" m.objective.toList,
    Print.line "feature_names" names, Print.line "feature_infos" "none".toList,
    Print.line "tree_sizes" (P.int m.trees.length)] ++ treeFileLines P 0 m.trees

end Scigo.LGB
