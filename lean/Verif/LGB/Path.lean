import Verif.Base.Outcome

/-!
# Paths of model files

Model of the path checks of the loaders (`loader.go`, `json_loader.go`, `leaves_loader.go`). Paths are lists of characters with `/` as
separator (Unix); `filepath.Clean` is the standard library's lexical cleaning. The file system is a function from the path handed to
`os.Open`/`os.ReadFile` to the contents, if there is such a file.
-/

namespace Scigo.LGB.Path

/-- a path -/
abbrev P := List Char

/-- `.` and `..` -/
def dot : P := ['.']
def dotdot : P := ['.', '.']

/-- the components between separators (contract of `filepath.Clean`; sklearn/lightgbm/loader.go:17) -/
def comps : P → List P
  | [] => [[]]
  | c :: s => if c = '/' then [] :: comps s else match comps s with
    | [] => [[c]]
    | w :: ws => (c :: w) :: ws

/-- components with separators between them (contract of `filepath.Clean`; sklearn/lightgbm/loader.go:17) -/
def join : List P → P
  | [] => []
  | [w] => w
  | w :: ws => w ++ '/' :: join ws

/-- starts with a separator (contract of `filepath.Clean`; sklearn/lightgbm/loader.go:17) -/
def rooted (p : P) : Bool := p.head? == some '/'

/-- one component of the path to be cleaned: empty ones and `.` go, `..` takes its predecessor with it, at the root it goes too
(contract of `filepath.Clean`; sklearn/lightgbm/loader.go:17) -/
def push (root : Bool) (acc : List P) (c : P) : List P :=
  if c = [] ∨ c = dot then acc
  else if c = dotdot then match acc.getLast? with
    | some l => if l = dotdot then acc ++ [c] else acc.dropLast
    | none => if root then acc else [c]
  else acc ++ [c]

/-- `filepath.Clean` on Unix (used at sklearn/lightgbm/loader.go:17, 273, json_loader.go:73, 267, leaves_loader.go:28). Simplified: written on
components instead of the standard library's byte buffer. -/
def clean (p : P) : P :=
  if rooted p then '/' :: join ((comps p).foldl (push true) [])
  else match join ((comps p).foldl (push false) []) with
    | [] => dot
    | b => b

/-- what a loader does with a path: refuse it, or hand a path to the operating system -/
inductive Decision
  | refuse
  | read (path : P)
  deriving DecidableEq

/-- the path of `LoadFromFile` and `LoadFromJSONFile` (sklearn/lightgbm/loader.go:15-25, 271-281), through which the estimators' `LoadModel` go -/
def loadFromFile (p : P) : Decision := .read (clean p)

/-- the path of `LoadJSONModelFromFile` (sklearn/lightgbm/json_loader.go:71-83) -/
def loadJSONModel (p : P) : Decision := if dotdot <:+: clean p then .refuse else .read (clean p)

/-- the path of `LoadLeavesModelFromFile` (sklearn/lightgbm/leaves_loader.go:26-41) -/
def loadLeavesModel (p : P) : Decision :=
  if clean p ≠ p then .refuse else if dotdot <:+: clean p then .refuse else .read (clean p)

/-- reading through a decision -/
def Decision.run {C M : Type} (fs : P → Option C) (load : C → Outcome M) : Decision → Outcome M
  | .refuse => .err (.other "invalid file path")
  | .read q => match fs q with
    | none => .err (.other "failed to open file")
    | some c => load c

/-- `IsJSONModel`; `version` is the `version` field if the contents parse as JSON (sklearn/lightgbm/json_loader.go:265-275) -/
def isJSONModel {C : Type} (fs : P → Option C) (version : C → Option String) (p : P) : Bool :=
  match fs (clean p) with
  | none => false
  | some c => match version c with
    | none => false
    | some v => v ≠ ""

/-- `LoadModelAutoDetect` (sklearn/lightgbm/json_loader.go:278-286) -/
def autoDetect {C M : Type} (fs : P → Option C) (version : C → Option String) (loadJSON loadText : C → Outcome M) (p : P) : Outcome M :=
  if isJSONModel fs version p then (loadJSONModel p).run fs loadJSON else (loadLeavesModel p).run fs loadText

end Scigo.LGB.Path
