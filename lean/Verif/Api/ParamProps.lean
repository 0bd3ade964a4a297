import Verif.Api.Model
import Mathlib.Data.Rat.Defs
import Mathlib.Algebra.Order.Ring.Rat
import Mathlib.Algebra.Order.Field.Basic
import Mathlib.Tactic.NormNum

/-!
# Parameters, metrics and the quick interface: specification and theorems
-/

set_option linter.unusedSectionVars false

namespace Scigo.Api

variable {α : Type}

/-! ## C180 -/

/-- the parameter of each documented name -/
def setting (t : TP α) : String → Option (PVal α)
  | "num_iterations" => some (.int t.numIterations)
  | "learning_rate" => some (.float t.learningRate)
  | "num_leaves" => some (.int t.numLeaves)
  | "max_depth" => some (.int t.maxDepth)
  | "min_data_in_leaf" => some (.int t.minDataInLeaf)
  | "lambda_l2" => some (.float t.lambda)
  | "lambda_l1" => some (.float t.alpha)
  | "min_gain_to_split" => some (.float t.minGainToSplit)
  | "bagging_fraction" => some (.float t.baggingFraction)
  | "feature_fraction" => some (.float t.featureFraction)
  | "max_bin" => some (.int t.maxBin)
  | "min_data_in_bin" => some (.int t.minDataInBin)
  | "objective" => some (.str t.objective)
  | "random_state" => some (.int t.seed)
  | "seed" => some (.int t.seed)
  | "deterministic" => some (.bool t.deterministic)
  | "verbosity" => some (.int t.verbosity)
  | "boosting_type" => some (.str t.boostingType)
  | "num_class" => some (.int t.numClass)
  | "top_rate" => some (.float t.topRate)
  | "other_rate" => some (.float t.otherRate)
  | "categorical_feature" => some (.ints t.categorical)
  | _ => none

/-- two values of the same Go type -/
def SameType : PVal α → PVal α → Prop
  | .int _, .int _ => True
  | .float _, .float _ => True
  | .str _, .str _ => True
  | .bool _, .bool _ => True
  | .ints _, .ints _ => True
  | _, _ => False

theorem asInt_spec (v : Option (PVal α)) (d : Int) :
    (∀ w, v = some w → SameType w (.int (asInt v d)) → w = .int (asInt v d)) ∧
    ((∀ w, v = some w → ¬ SameType w (.int d)) → asInt v d = d) := by
  constructor
  · rintro w rfl h; cases w <;> simp_all [SameType, asInt]
  · intro h; rcases v with _ | w
    · rfl
    · have := h w rfl; cases w <;> simp_all [SameType, asInt]

theorem asFloat_spec (v : Option (PVal α)) (d : α) :
    (∀ w, v = some w → SameType w (.float (asFloat v d)) → w = .float (asFloat v d)) ∧
    ((∀ w, v = some w → ¬ SameType w (.float d)) → asFloat v d = d) := by
  constructor
  · rintro w rfl h; cases w <;> simp_all [SameType, asFloat]
  · intro h; rcases v with _ | w
    · rfl
    · have := h w rfl; cases w <;> simp_all [SameType, asFloat]

theorem asStr_spec (v : Option (PVal α)) (d : String) :
    (∀ w, v = some w → SameType w (.str (asStr v d)) → w = .str (asStr v d)) ∧
    ((∀ w, v = some w → ¬ SameType w (.str d)) → asStr v d = d) := by
  constructor
  · rintro w rfl h; cases w <;> simp_all [SameType, asStr]
  · intro h; rcases v with _ | w
    · rfl
    · have := h w rfl; cases w <;> simp_all [SameType, asStr]

theorem asBool_spec (v : Option (PVal α)) (d : Bool) :
    (∀ w, v = some w → SameType w (.bool (asBool v d)) → w = .bool (asBool v d)) ∧
    ((∀ w, v = some w → ¬ SameType w (.bool d)) → asBool v d = d) := by
  constructor
  · rintro w rfl h; cases w <;> simp_all [SameType, asBool]
  · intro h; rcases v with _ | w
    · rfl
    · have := h w rfl; cases w <;> simp_all [SameType, asBool]

theorem asInts_spec (v : Option (PVal α)) (d : List Int) :
    (∀ w, v = some w → SameType w (.ints (asInts v d)) → w = .ints (asInts v d)) ∧
    ((∀ w, v = some w → ¬ SameType w (.ints d)) → asInts v d = d) := by
  constructor
  · rintro w rfl h; cases w <;> simp_all [SameType, asInts]
  · intro h; rcases v with _ | w
    · rfl
    · have := h w rfl; cases w <;> simp_all [SameType, asInts]

/-- **C180 (partial)** A value given under a documented name, with the Go type of that parameter, is the value training
runs with. `random_state` counts unless an integer `seed` is given as well. Missing: a value of another type, for example
the integer 1 as `learning_rate`, is dropped without an error (`param_dropped`). -/
theorem param_used_partial (L : PLit α) (m : PMap α) (name : String) (v w : PVal α) (hw : setting (parseParams L m) name = some w)
    (hv : m name = some v) (ht : SameType v w)
    (hs : name = "random_state" → ∀ k, m "seed" ≠ some (.int k)) : w = v := by
  unfold setting at hw
  split at hw
  case h_14 =>
    have h1 := hs rfl
    have h2 : (parseParams L m).seed = asInt (m "random_state") 0 := by
      refine (asInt_spec (m "seed") (asInt (m "random_state") 0)).2 fun u hu hx => ?_
      cases u <;> simp [SameType] at hx
      exact h1 _ hu
    rw [h2] at hw
    cases hw
    exact ((asInt_spec _ _).1 v hv ht).symm
  all_goals
    first
    | (cases hw; exact ((asInt_spec _ _).1 v hv ht).symm)
    | (cases hw; exact ((asFloat_spec _ _).1 v hv ht).symm)
    | (cases hw; exact ((asStr_spec _ _).1 v hv ht).symm)
    | (cases hw; exact ((asBool_spec _ _).1 v hv ht).symm)
    | (cases hw; exact ((asInts_spec _ _).1 v hv ht).symm)
    | (cases hw)

/-- the map of no parameters -/
def noParams : PMap α := fun _ => none

/-- **C180 (partial)** A documented parameter that is not given keeps the value it has when nothing is given. -/
theorem param_default_partial (L : PLit α) (m : PMap α) (name : String) (hv : m name = none)
    (hs : name = "seed" → m "random_state" = none) (hr : name = "random_state" → m "seed" = none) :
    setting (parseParams L m) name = setting (parseParams L noParams) name := by
  unfold setting
  split <;> simp_all [parseParams, noParams, asInt, asFloat, asStr, asBool, asInts]

/-- **C180 (partial)** Nothing else matters: two maps that agree on the documented names give the same parameters. -/
theorem param_only_partial (L : PLit α) (m m' : PMap α)
    (h : ∀ name, (setting (parseParams L m) name).isSome → m name = m' name) : parseParams L m = parseParams L m' := by
  have e : ∀ name, (setting (parseParams L m) name).isSome = true → m name = m' name := h
  simp only [parseParams]
  rw [e "num_iterations" rfl, e "learning_rate" rfl, e "num_leaves" rfl, e "max_depth" rfl, e "min_data_in_leaf" rfl,
    e "lambda_l2" rfl, e "lambda_l1" rfl, e "min_gain_to_split" rfl, e "bagging_fraction" rfl, e "feature_fraction" rfl,
    e "max_bin" rfl, e "min_data_in_bin" rfl, e "objective" rfl, e "seed" rfl, e "random_state" rfl,
    e "deterministic" rfl, e "verbosity" rfl, e "boosting_type" rfl, e "num_class" rfl, e "top_rate" rfl,
    e "other_rate" rfl, e "categorical_feature" rfl]

/-- **C180 is false as stated**: for every value of another type under a documented name, training runs as if the name had
not been given, and no error is reported. -/
theorem param_dropped (L : PLit α) (m : PMap α) (name : String) (v w : PVal α)
    (hw : setting (parseParams L noParams) name = some w) (hv : m name = some v) (ht : ¬ SameType v w) :
    parseParams L m = parseParams L (fun k => if k = name then none else m k) := by
  unfold setting at hw
  split at hw
  case h_23 => cases hw
  all_goals
    simp only [parseParams, String.reduceEq, if_true, if_false, hv]
    cases hw
    cases v <;> simp_all [SameType, asInt, asFloat, asStr, asBool, asInts]

/-- an integer learning rate: the default 1/10 is used -/
example : (parseParams (⟨1/10, 0, 1/10000000, 1⟩ : PLit Rat) (fun k => if k = "learning_rate" then some (.int 1) else none)).learningRate
    = 1/10 := by
  simp [parseParams, asFloat]

/-- a learning rate of the right type is used, and `seed` goes before `random_state` -/
example : (parseParams (⟨1/10, 0, 1/10000000, 1⟩ : PLit Rat) (fun k => if k = "learning_rate" then some (.float 1) else none)).learningRate = 1 ∧
    (parseParams (⟨1/10, 0, 1/10000000, 1⟩ : PLit Rat) (fun k => if k = "seed" then some (.int 7) else if k = "random_state" then some (.int 8) else none)).seed = 7 := by
  simp [parseParams, asFloat, asInt]

end Scigo.Api
