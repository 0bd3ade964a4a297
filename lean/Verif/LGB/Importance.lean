import Verif.LGB.Ensemble

/-!
# Feature importance of a LightGBM model

Model of `GetFeatureImportance` (`sklearn/lightgbm/model.go`), which the estimators and the booster call.
-/

set_option linter.unusedSectionVars false

namespace Scigo.LGB

variable {α : Type _} [Zero α] [One α] [Add α] [Div α] [LT α] [DecidableLT α]

/-- what one split adds to the importance of its feature; an unknown type adds nothing
(`sklearn/lightgbm/model.go:302-309`) -/
def splitCredit (kind : String) (n : Node α) : Option α :=
  if kind = "split" then some 1 else if kind = "gain" then some n.gain else none

/-- one node (`sklearn/lightgbm/model.go:300-310`); indexing outside the slice panics -/
def creditNode (kind : String) (imp : List α) (n : Node α) : Outcome (List α) :=
  if n.isLeaf then .ok imp
  else
    match splitCredit kind n with
    | none => .ok imp
    | some c =>
      if n.feature < 0 then .panic "index out of range"
      else
        match imp[n.feature.toNat]? with
        | none => .panic "index out of range"
        | some v => .ok (imp.set n.feature.toNat (v + c))

/-- the nodes of all trees, one after the other (`sklearn/lightgbm/model.go:299-312`) -/
def creditNodes (kind : String) : List (Node α) → List α → Outcome (List α)
  | [], imp => .ok imp
  | n :: ns, imp => (creditNode kind imp n).bind (creditNodes kind ns)

/-- the normalisation (`sklearn/lightgbm/model.go:314-323`) -/
def normalise (imp : List α) : List α :=
  if 0 < sumOver imp id then imp.map (fun v => v / sumOver imp id) else imp

/-- `GetFeatureImportance` (`sklearn/lightgbm/model.go:296-326`); `make` with a negative length panics -/
def Model.featureImportance (m : Model α) (kind : String) : Outcome (List α) :=
  if m.numFeatures < 0 then .panic "makeslice: len out of range"
  else
    (creditNodes kind (m.trees.flatMap Tree.nodes) (List.replicate m.numFeatures.toNat 0)).map normalise

/-- `LGBMRegressor.GetFeatureImportance` and `LGBMClassifier.GetFeatureImportance`: nothing before training
(`sklearn/lightgbm/lgbm_regressor.go:528-534`, `sklearn/lightgbm/lgbm_classifier.go:647-653`) -/
def estimatorImportance (fitted : Bool) (m : Option (Model α)) (kind : String) : Outcome (Option (List α)) :=
  match fitted, m with
  | true, some m => (m.featureImportance kind).map some
  | _, _ => .ok none

end Scigo.LGB
