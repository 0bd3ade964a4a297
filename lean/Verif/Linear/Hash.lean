import Verif.Linear.Model

/-!
# Checksum and hash of the weights of a linear regression

Model of the checksum of `ExportWeights` and of `GetWeightHash` (`sklearn/linear_model/linear_regression.go`). SHA-256 and the JSON encoding of a slice of
numbers are parameters; `json.Marshal` fails on NaN and infinities, and its error is dropped, so the hash is then that of no bytes.
-/

set_option linter.unusedSectionVars false

namespace Scigo.Linear

variable {α : Type _} {β : Type _}

/-- what the hashes need: `finite` is `json.Marshal` accepting a number, `encode` the JSON text of a slice of accepted numbers, `none` the empty text and `sha` the
hexadecimal SHA-256 sum (sklearn/linear_model/linear_regression.go:327-331, 388-391) -/
structure Hasher (α : Type _) (β : Type _) where
  finite : α → Bool
  encode : List α → β
  none : β
  sha : β → String

/-- `data, _ := json.Marshal(v); hash := sha256.Sum256(data)` (sklearn/linear_model/linear_regression.go:328-330, 368-370, 389-391) -/
def Hasher.sum (H : Hasher α β) (l : List α) : String := H.sha (if l.all H.finite then H.encode l else H.none)

/-- `GetWeightHash` (sklearn/linear_model/linear_regression.go:383-392) -/
def LM.weightHash (H : Hasher α β) (m : LM α) : String :=
  if m.fitted = false then "" else H.sum (m.coef ++ [m.intercept])

end Scigo.Linear
