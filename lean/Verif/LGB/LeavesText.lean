import Verif.LGB.Leaves

/-!
# The lines of a LightGBM text file

Model of `LoadLeavesModelFromReader` (`sklearn/lightgbm/leaves_loader.go`): sections of `key=value` lines, their parsing
into the arrays of `Verif.LGB.Leaves`, and the model built from them. A file is its list of lines: what `ReadString('\n')`
returns one after another, the last one together with `io.EOF`. Not modelled: read errors other than the end of the file,
and opening the file.
-/

set_option linter.unusedSectionVars false

namespace Scigo.LGB

variable {α : Type _}

/-- a Go string -/
abbrev Text := List Char

/-- what the standard library decides: `unicode.IsSpace`, `strconv.Atoi` (its value also when it reports an error),
`ParseInt(_, 10, 32)`, `ParseUint(_, 10, 32)` and `ParseFloat(_, 64)` (`sklearn/lightgbm/leaves_loader.go:63-73,393-463`) -/
structure Lex (α : Type _) where
  space : Char → Bool
  atoi : Text → Option Int
  atoiLoose : Text → Int
  int32 : Text → Option Int
  uint32 : Text → Option Nat
  float : Text → Option α

/-- `strings.TrimSpace` (`sklearn/lightgbm/leaves_loader.go:355`) -/
def trim (sp : Char → Bool) (s : Text) : Text := ((s.dropWhile sp).reverse.dropWhile sp).reverse

/-- the loop of `strings.Fields` with the characters of the current field (`sklearn/lightgbm/leaves_loader.go:101`) -/
def fieldsFrom (sp : Char → Bool) : Text → Text → List Text
  | [], cur => if cur = [] then [] else [cur]
  | c :: cs, cur =>
    if sp c then (if cur = [] then fieldsFrom sp cs [] else cur :: fieldsFrom sp cs [])
    else fieldsFrom sp cs (cur ++ [c])

/-- `strings.Fields` (`sklearn/lightgbm/leaves_loader.go:101`) -/
def fields (sp : Char → Bool) (s : Text) : List Text := fieldsFrom sp s []

/-- `treeParams`, newest entry first (`sklearn/lightgbm/leaves_loader.go:343`) -/
abbrev KV := List (Text × Text)

/-- reading the map (`sklearn/lightgbm/leaves_loader.go:390`) -/
def KV.get (p : KV) (key : String) : Option Text := p.lookup key.toList

/-- a `key=value` line (`sklearn/lightgbm/leaves_loader.go:373-380`) -/
def setLine (sp : Char → Bool) (line : Text) (p : KV) : KV :=
  if line.contains '=' then
    (trim sp (line.takeWhile (fun c => c != '=')), trim sp ((line.dropWhile (fun c => c != '=')).drop 1)) :: p
  else p

/-- `strings.HasPrefix(line, "Tree=")` (`sklearn/lightgbm/leaves_loader.go:358`) -/
def isTreeLine (line : Text) : Bool := "Tree=".toList.isPrefixOf line

/-- `readParamsUntilBlank` (`sklearn/lightgbm/leaves_loader.go:345-388`): the lines to come, `emptyLineCount`, the map. At the
end of the file every further read gives an empty line, so the loop ends after at most two of them. -/
def readSection (sp : Char → Bool) : List Text → Nat → KV → KV × List Text
  | [], _, p => (p, [])
  | l :: ls, k, p =>
    if isTreeLine (trim sp l) then readSection sp ls k p
    else if trim sp l = [] then
      if k + 1 ≥ 2 ∨ (k + 1 ≥ 1 ∧ p.length > 0) then (p, ls) else readSection sp ls (k + 1) p
    else readSection sp ls 0 (setLine sp (trim sp l) p)

/-- `toInt` (`sklearn/lightgbm/leaves_loader.go:390-396`) -/
def KV.int (L : Lex α) (p : KV) (key : String) : Outcome Int :=
  match p.get key with
  | none => .err (.other "key not found")
  | some v => match L.atoi v with
    | some n => .ok n
    | none => .err (.other "invalid syntax")

/-- `toFloat64Slice`, `toInt32Slice`, `toUint32Slice` (`sklearn/lightgbm/leaves_loader.go:398-463`); an empty value has no
fields -/
def KV.slice {β : Type _} (sp : Char → Bool) (parse : Text → Option β) (p : KV) (key : String) : Outcome (List β) :=
  match p.get key with
  | none => .err (.other "key not found")
  | some v => match (fields sp v).mapM parse with
    | some l => .ok l
    | none => .err (.other "invalid syntax")

/-- `internal_value` of the first tree: errors are ignored (`sklearn/lightgbm/leaves_loader.go:161-165`) -/
def KV.internal (L : Lex α) (p : KV) (treeIndex : Nat) : List α :=
  if treeIndex = 0 then (match p.slice L.space L.float "internal_value" with | .ok l => l | _ => []) else []

/-- the arrays of one section, in the order in which `readLeavesTree` parses them (`sklearn/lightgbm/leaves_loader.go:126-191`);
a single leaf needs no child arrays -/
def KV.arrays (L : Lex α) (p : KV) (treeIndex : Nat) : Outcome (TextArrays α) :=
  (p.int L "num_leaves").bind fun n =>
  if n < 1 then .err (.other "num_leaves < 1")
  else
    (p.slice L.space L.float "leaf_value").bind fun lv =>
    if n = 1 then .ok ⟨n, lv, [], [], [], [], [], p.internal L treeIndex⟩
    else
      (p.slice L.space L.int32 "left_child").bind fun l =>
      (p.slice L.space L.int32 "right_child").bind fun r =>
      (p.slice L.space L.uint32 "decision_type").bind fun d =>
      (p.slice L.space L.uint32 "split_feature").bind fun f =>
      (p.slice L.space L.float "threshold").bind fun t => .ok ⟨n, lv, l, r, d, f, t, p.internal L treeIndex⟩

/-- `readLeavesTree` (`sklearn/lightgbm/leaves_loader.go:126-340`) for the map of its section -/
def KV.tree [Zero α] (L : Lex α) (p : KV) (treeIndex : Nat) : Outcome (LTree α) :=
  (p.arrays L treeIndex).bind fun a => a.read treeIndex

/-- the loop over the trees, `n` of them from `i` on (`sklearn/lightgbm/leaves_loader.go:105-111`) -/
def readSections [Zero α] (L : Lex α) : Nat → Nat → List Text → Outcome (List (LTree α))
  | 0, _, _ => .ok []
  | n + 1, i, lines =>
    ((readSection L.space lines 0 []).1.tree L i).bind fun t =>
      (readSections L n (i + 1) (readSection L.space lines 0 []).2).bind fun ts => .ok (t :: ts)

/-- `NumClass` (`sklearn/lightgbm/leaves_loader.go:62-70`): a value that cannot be read counts as Go's error value -/
def KV.numClass (L : Lex α) (p : KV) : Int :=
  let n := match p.get "num_class" with
    | some v => L.atoiLoose v
    | none => 0
  if n = 0 then 1 else n

/-- the objective (`sklearn/lightgbm/leaves_loader.go:78-92`); the names of the constants are the words themselves -/
def KV.objective (L : Lex α) (p : KV) : String :=
  match p.get "objective" with
  | some v => (match fields L.space v with | w :: _ => String.ofList w | [] => "")
  | none => ""

/-- `LoadLeavesModelFromReader` (`sklearn/lightgbm/leaves_loader.go:51-123`) -/
def loadLeaves [Zero α] (L : Lex α) (lines : List Text) : Outcome (LModel α) :=
  let p := (readSection L.space lines 0 []).1
  match p.get "tree_sizes" with
  | none => .err (.other "no tree_sizes field")
  | some v =>
    (readSections L (fields L.space v).length 0 (readSection L.space lines 0 []).2).bind fun ts =>
      .ok ⟨ts, p.numClass L, p.objective L, (ts.head?.map LTree.internalValue).getD 0,
        match p.get "max_feature_idx" with
        | some v => L.atoiLoose v + 1
        | none => 0⟩

end Scigo.LGB
