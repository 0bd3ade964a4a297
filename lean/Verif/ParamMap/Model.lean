import Mathlib.Data.List.Perm.Basic

/-!
# Parameter names of the LightGBM estimators

`sklearn/lightgbm/parameter_mapping.go` and the `GetParams`/`SetParams` of `lgbm_regressor.go` and `lgbm_classifier.go`. A Go
map is a list of pairs with distinct keys; ranging over it is ranging over some permutation of the list. `strings.ToLower` is a
parameter. Values of an `interface{}` are the four types the setters look for and one constructor for every other type.
-/

namespace Scigo.ParamMap

/-- a value held in an `interface{}`: sklearn/lightgbm/parameter_mapping.go:18 -/
inductive Val (α : Type) where
  | int (n : Int)
  | float (x : α)
  | str (s : String)
  | bool (b : Bool)
  | other (n : Nat)
  deriving DecidableEq

/-- Go map read `m[k]` with `ok` (maps of sklearn/lightgbm/parameter_mapping.go:18) -/
def lookup {β : Type} (m : List (String × β)) (k : String) : Option β := (m.find? fun e => e.1 = k).map (·.2)

/-- Go map write `m[k] = v` (maps of sklearn/lightgbm/parameter_mapping.go:18) -/
def insert {β : Type} (m : List (String × β)) (k : String) (v : β) : List (String × β) := m.filter (fun e => e.1 ≠ k) ++ [(k, v)]

/-- the calls of `initializeMappings`, in order: sklearn/lightgbm/parameter_mapping.go:37-109 -/
def mappings : List (String × String × List String) := [
  ("n_estimators", "NumIterations", ["num_iterations", "num_iteration", "num_tree", "num_trees", "num_round", "num_rounds", "num_boost_round", "n_iter"]),
  ("learning_rate", "LearningRate", ["shrinkage_rate", "eta"]),
  ("num_leaves", "NumLeaves", ["num_leaf", "max_leaves", "max_leaf"]),
  ("max_depth", "MaxDepth", []),
  ("min_child_samples", "MinDataInLeaf", ["min_data_in_leaf", "min_data", "min_child_weight"]),
  ("min_split_gain", "MinGainToSplit", ["min_gain_to_split"]),
  ("max_bin", "MaxBin", []),
  ("min_data_in_bin", "MinDataInBin", []),
  ("reg_alpha", "Alpha", ["lambda_l1", "l1_regularization"]),
  ("reg_lambda", "Lambda", ["lambda_l2", "l2_regularization", "lambda"]),
  ("min_child_weight", "MinSumHessianInLeaf", ["min_sum_hessian_in_leaf", "min_sum_hessian", "min_hessian"]),
  ("subsample", "BaggingFraction", ["bagging_fraction", "sub_row", "subsample_freq"]),
  ("subsample_freq", "BaggingFreq", ["bagging_freq"]),
  ("colsample_bytree", "FeatureFraction", ["feature_fraction", "sub_feature", "colsample_bynode"]),
  ("colsample_bynode", "FeatureFractionByNode", ["feature_fraction_bynode"]),
  ("objective", "Objective", ["objective_type", "app", "application", "loss"]),
  ("num_class", "NumClass", ["num_classes"]),
  ("metric", "Metric", ["metrics", "metric_types"]),
  ("boosting_type", "Boosting", ["boosting", "boost"]),
  ("random_state", "Seed", ["seed", "random_seed", "data_random_seed"]),
  ("n_jobs", "NumThreads", ["num_threads", "num_thread", "nthread"]),
  ("importance_type", "ImportanceType", []),
  ("deterministic", "Deterministic", ["force_row_wise", "force_col_wise"]),
  ("verbosity", "Verbosity", ["verbose"]),
  ("early_stopping_rounds", "EarlyStopping", ["early_stopping_round", "early_stopping", "n_iter_no_change"]),
  ("categorical_feature", "CategoricalFeatures", ["cat_feature", "categorical_column", "cat_column"]),
  ("cat_smooth", "CatSmooth", ["categorical_smooth"]),
  ("cat_l2", "CatL2", []),
  ("max_cat_to_onehot", "MaxCatToOnehot", []),
  ("device_type", "DeviceType", ["device"]),
  ("tree_learner", "TreeLearner", ["tree_type", "tree"]),
  ("num_parallel_tree", "NumParallelTree", []),
  ("monotone_constraints", "MonotoneConstraints", ["monotone_constraint"]),
  ("interaction_constraints", "InteractionConstraints", []),
  ("drop_rate", "DropRate", ["rate_drop"]),
  ("max_drop", "MaxDrop", ["max_dropout"]),
  ("skip_drop", "SkipDrop", ["skip_dropout"]),
  ("uniform_drop", "UniformDrop", []),
  ("xgboost_dart_mode", "XGBoostDartMode", []),
  ("drop_seed", "DropSeed", []),
  ("top_rate", "TopRate", []),
  ("other_rate", "OtherRate", []),
  ("max_delta_step", "MaxDeltaStep", []),
  ("scale_pos_weight", "ScalePosWeight", []),
  ("min_gain_to_split", "MinGainToSplit", []),
  ("linear_tree", "LinearTree", []),
  ("linear_lambda", "LinearLambda", []),
  ("num_machines", "NumMachines", ["num_machine"]),
  ("local_listen_port", "LocalListenPort", ["local_port"]),
  ("time_out", "TimeOut", ["network_timeout"]),
  ("machine_list_file", "MachineListFile", ["machine_list_filename", "machine_list", "mlist"])]

/-- the maps of a mapper: sklearn/lightgbm/parameter_mapping.go:9-18 (the defaults are `defaults`) -/
structure Mapper where
  pythonToGo : List (String × String)
  goToPython : List (String × String)
  aliases : List (String × String)

/-- `addMapping`: sklearn/lightgbm/parameter_mapping.go:116-126 -/
def Mapper.addMapping (pm : Mapper) (pythonName goName : String) (al : List String) : Mapper :=
  al.foldl (fun pm a => { pm with aliases := insert pm.aliases a pythonName, pythonToGo := insert pm.pythonToGo a goName })
    { pm with pythonToGo := insert pm.pythonToGo pythonName goName, goToPython := insert pm.goToPython goName pythonName }

/-- `NewParameterMapper`: sklearn/lightgbm/parameter_mapping.go:21-33 -/
def newMapper : Mapper := mappings.foldl (fun pm e => pm.addMapping e.1 e.2.1 e.2.2) ⟨[], [], []⟩

/-- the defaults, with float literals read by `lit`: sklearn/lightgbm/parameter_mapping.go:125-189 -/
def defaults {α : Type} (lit : String → α) : List (String × Val α) := [
  ("n_estimators", .int (100)),
  ("learning_rate", .float (lit "0.1")),
  ("num_leaves", .int (31)),
  ("max_depth", .int (-1)),
  ("min_child_samples", .int (20)),
  ("min_split_gain", .float (lit "0.0")),
  ("max_bin", .int (255)),
  ("min_data_in_bin", .int (3)),
  ("reg_alpha", .float (lit "0.0")),
  ("reg_lambda", .float (lit "0.0")),
  ("min_child_weight", .float (lit "1e-3")),
  ("subsample", .float (lit "1.0")),
  ("subsample_freq", .int (0)),
  ("colsample_bytree", .float (lit "1.0")),
  ("colsample_bynode", .float (lit "1.0")),
  ("objective", .str "regression"),
  ("num_class", .int (1)),
  ("boosting_type", .str "gbdt"),
  ("metric", .str ""),
  ("random_state", .int (0)),
  ("n_jobs", .int (-1)),
  ("importance_type", .str "gain"),
  ("deterministic", .bool false),
  ("verbosity", .int (-1)),
  ("early_stopping_rounds", .int (0)),
  ("device_type", .str "cpu"),
  ("tree_learner", .str "serial"),
  ("num_parallel_tree", .int (1)),
  ("drop_rate", .float (lit "0.1")),
  ("max_drop", .int (50)),
  ("skip_drop", .float (lit "0.5")),
  ("uniform_drop", .bool false),
  ("xgboost_dart_mode", .bool false),
  ("drop_seed", .int (4)),
  ("top_rate", .float (lit "0.2")),
  ("other_rate", .float (lit "0.1")),
  ("max_delta_step", .float (lit "0.0")),
  ("scale_pos_weight", .float (lit "1.0")),
  ("linear_tree", .bool false),
  ("linear_lambda", .float (lit "0.0"))]

/-- the key under which one entry is stored by `MapPythonToGo` (`none`: an alias of an unmapped name, which is dropped):
sklearn/lightgbm/parameter_mapping.go:196-211 -/
def Mapper.goKey (pm : Mapper) (key : String) : Option String :=
  match lookup pm.pythonToGo key with
  | some g => some g
  | none => match lookup pm.aliases key with
    | some c => lookup pm.pythonToGo c
    | none => some key

/-- `MapPythonToGo` when the range visits the entries in this order: sklearn/lightgbm/parameter_mapping.go:192-215 -/
def Mapper.pythonGo {α : Type} (pm : Mapper) (params : List (String × Val α)) : List (String × Val α) :=
  params.foldl (fun m e => match pm.goKey e.1 with
    | some g => insert m g e.2
    | none => m) []

/-- `toSnakeCase`: sklearn/lightgbm/parameter_mapping.go:341-350 -/
def toSnakeCase (lower : String → String) (s : String) : String :=
  lower (String.ofList ((s.toList.zipIdx).flatMap fun (r, i) => if 0 < i ∧ 'A' ≤ r ∧ r ≤ 'Z' then ['_', r] else [r]))

/-- `MapGoToPython` when the range visits the entries in this order: sklearn/lightgbm/parameter_mapping.go:218-233 -/
def Mapper.goPython {α : Type} (pm : Mapper) (lower : String → String) (params : List (String × Val α)) : List (String × Val α) :=
  params.foldl (fun m e => match lookup pm.goToPython e.1 with
    | some p => insert m p e.2
    | none => insert m (toSnakeCase lower e.1) e.2) []

/-- `GetDefault`: sklearn/lightgbm/parameter_mapping.go:236-250 -/
def Mapper.getDefault {α : Type} (pm : Mapper) (lit : String → α) (name : String) : Option (Val α) :=
  match lookup (defaults lit) name with
  | some v => some v
  | none => match lookup pm.aliases name with
    | some c => lookup (defaults lit) c
    | none => none

/-- the table of `ValidateObjective`: sklearn/lightgbm/parameter_mapping.go:259-297 -/
def objectiveTable : List (String × String) := [
  ("regression", "regression"),
  ("regression_l2", "regression"),
  ("l2", "regression"),
  ("mean_squared_error", "regression"),
  ("mse", "regression"),
  ("regression_l1", "regression_l1"),
  ("l1", "regression_l1"),
  ("mean_absolute_error", "regression_l1"),
  ("mae", "regression_l1"),
  ("huber", "huber"),
  ("fair", "fair"),
  ("poisson", "poisson"),
  ("quantile", "quantile"),
  ("mape", "mape"),
  ("gamma", "gamma"),
  ("tweedie", "tweedie"),
  ("binary", "binary"),
  ("binary_logloss", "binary"),
  ("binary_crossentropy", "binary"),
  ("multiclass", "multiclass"),
  ("softmax", "multiclass"),
  ("multiclassova", "multiclassova"),
  ("multiclass_ova", "multiclassova"),
  ("ova", "multiclassova"),
  ("ovr", "multiclassova"),
  ("lambdarank", "lambdarank"),
  ("rank_xendcg", "rank_xendcg"),
  ("xendcg", "rank_xendcg"),
  ("xe_ndcg", "rank_xendcg"),
  ("xe_ndcg_mart", "rank_xendcg"),
  ("xendcg_mart", "rank_xendcg")]

/-- `ValidateObjective`; `none` is the error: sklearn/lightgbm/parameter_mapping.go:253-301 -/
def validateObjective (lower : String → String) (s : String) : Option String := lookup objectiveTable (lower s)

/-- `ValidateBoostingType`; `none` is the error: sklearn/lightgbm/parameter_mapping.go:304-319 -/
def validateBoosting (lower : String → String) (s : String) : Option String :=
  if lower s ∈ ["gbdt", "dart", "goss", "rf"] then some (lower s) else none

/-- `ApplyDefaults` when the ranges visit the entries in the given orders: sklearn/lightgbm/parameter_mapping.go:325-338 -/
def applyDefaults {α : Type} (params defs : List (String × Val α)) : List (String × Val α) :=
  defs.foldl (fun m e => match lookup m e.1 with
    | some _ => m
    | none => insert m e.1 e.2) (params.foldl (fun m e => insert m e.1 e.2) [])

/-- the hyperparameters of `LGBMRegressor` reached by `SetParams` and `GetParams`: sklearn/lightgbm/lgbm_regressor.go:26-51 -/
structure Params (α : Type) where
  numLeaves : Int
  maxDepth : Int
  learningRate : α
  numIterations : Int
  minChildSamples : Int
  minChildWeight : α
  subsample : α
  subsampleFreq : Int
  colsampleBytree : α
  regAlpha : α
  regLambda : α
  randomState : Int
  objective : String
  metric : String
  numThreads : Int
  deterministic : Bool
  verbosity : Int
  earlyStopping : Int
  boostingType : String
  importanceType : String
  deriving DecidableEq

/-- the objective stored by `SetParams`: sklearn/lightgbm/lgbm_regressor.go:625-633 -/
def normObjective (lower : String → String) (s : String) : String :=
  match validateObjective lower s with
  | some o => o
  | none => s

/-- the map built by `GetParams` before renaming: sklearn/lightgbm/lgbm_regressor.go:539-560 -/
def Params.goParams {α : Type} (p : Params α) : List (String × Val α) :=
  [("NumLeaves", .int p.numLeaves),
   ("MaxDepth", .int p.maxDepth),
   ("LearningRate", .float p.learningRate),
   ("NumIterations", .int p.numIterations),
   ("MinDataInLeaf", .int p.minChildSamples),
   ("MinSumHessianInLeaf", .float p.minChildWeight),
   ("BaggingFraction", .float p.subsample),
   ("BaggingFreq", .int p.subsampleFreq),
   ("FeatureFraction", .float p.colsampleBytree),
   ("Alpha", .float p.regAlpha),
   ("Lambda", .float p.regLambda),
   ("Seed", .int p.randomState),
   ("Objective", .str p.objective),
   ("Metric", .str p.metric),
   ("NumThreads", .int p.numThreads),
   ("Deterministic", .bool p.deterministic),
   ("Verbosity", .int p.verbosity),
   ("EarlyStopping", .int p.earlyStopping),
   ("Boosting", .str p.boostingType),
   ("ImportanceType", .str p.importanceType)]

/-- `LGBMRegressor.GetParams` when the range visits the entries in this order: sklearn/lightgbm/lgbm_regressor.go:537-565 -/
def Params.getParams {α : Type} (lower : String → String) (order : List (String × Val α)) : List (String × Val α) :=
  newMapper.goPython lower order

/-- one iteration of the loop of `LGBMRegressor.SetParams`: sklearn/lightgbm/lgbm_regressor.go:577-664 -/
def Params.apply {α : Type} (lower : String → String) (p : Params α) (key : String) (v : Val α) : Params α :=
  match key with
  | "NumLeaves" => match v with | .int x => { p with numLeaves := x } | _ => p
  | "MaxDepth" => match v with | .int x => { p with maxDepth := x } | _ => p
  | "LearningRate" => match v with | .float x => { p with learningRate := x } | _ => p
  | "NumIterations" => match v with | .int x => { p with numIterations := x } | _ => p
  | "MinDataInLeaf" => match v with | .int x => { p with minChildSamples := x } | _ => p
  | "MinSumHessianInLeaf" => match v with | .float x => { p with minChildWeight := x } | _ => p
  | "BaggingFraction" => match v with | .float x => { p with subsample := x } | _ => p
  | "BaggingFreq" => match v with | .int x => { p with subsampleFreq := x } | _ => p
  | "FeatureFraction" => match v with | .float x => { p with colsampleBytree := x } | _ => p
  | "Alpha" => match v with | .float x => { p with regAlpha := x } | _ => p
  | "Lambda" => match v with | .float x => { p with regLambda := x } | _ => p
  | "Seed" => match v with | .int x => { p with randomState := x } | _ => p
  | "Objective" => match v with | .str x => { p with objective := normObjective lower x } | _ => p
  | "Metric" => match v with | .str x => { p with metric := x } | _ => p
  | "NumThreads" => match v with | .int x => { p with numThreads := x } | _ => p
  | "Deterministic" => match v with | .bool x => { p with deterministic := x } | _ => p
  | "Verbosity" => match v with | .int x => { p with verbosity := x } | _ => p
  | "EarlyStopping" => match v with | .int x => { p with earlyStopping := x } | _ => p
  | "Boosting" => match v with | .str x => { p with boostingType := x } | _ => p
  | "ImportanceType" => match v with | .str x => { p with importanceType := x } | _ => p
  | _ => p

/-- `LGBMRegressor.SetParams`: both ranges visit their maps in some order: sklearn/lightgbm/lgbm_regressor.go:568-666 -/
inductive Params.SetParams {α : Type} (lower : String → String) (p : Params α) (params : List (String × Val α)) :
    Params α → Prop where
  | mk (o1 o2 : List (String × Val α)) : o1.Perm params → o2.Perm (newMapper.pythonGo o1) →
      Params.SetParams lower p params (o2.foldl (fun p e => p.apply lower e.1 e.2) p)

/-- `LGBMRegressor.GetParams`: the range visits its map in some order: sklearn/lightgbm/lgbm_regressor.go:537-565 -/
inductive Params.GetParams {α : Type} (lower : String → String) (p : Params α) : List (String × Val α) → Prop where
  | mk (o : List (String × Val α)) : o.Perm p.goParams → Params.GetParams lower p (Params.getParams lower o)

/-- `LGBMClassifier.GetParams`: sklearn/lightgbm/lgbm_classifier.go:656-676 (the classifier has the same hyperparameter fields) -/
def Params.classifierParams {α : Type} (p : Params α) : List (String × Val α) :=
  [("num_leaves", .int p.numLeaves),
   ("max_depth", .int p.maxDepth),
   ("learning_rate", .float p.learningRate),
   ("n_estimators", .int p.numIterations),
   ("min_child_samples", .int p.minChildSamples),
   ("min_child_weight", .float p.minChildWeight),
   ("subsample", .float p.subsample),
   ("subsample_freq", .int p.subsampleFreq),
   ("colsample_bytree", .float p.colsampleBytree),
   ("reg_alpha", .float p.regAlpha),
   ("reg_lambda", .float p.regLambda),
   ("random_state", .int p.randomState),
   ("objective", .str p.objective),
   ("metric", .str p.metric),
   ("n_jobs", .int p.numThreads),
   ("deterministic", .bool p.deterministic),
   ("verbosity", .int p.verbosity)]

/-- one iteration of the loop of `LGBMClassifier.SetParams`: sklearn/lightgbm/lgbm_classifier.go:680-735 -/
def Params.applyClassifier {α : Type} (p : Params α) (key : String) (v : Val α) : Params α :=
  match key with
  | "num_leaves" | "n_leaves" => match v with | .int x => { p with numLeaves := x } | _ => p
  | "max_depth" => match v with | .int x => { p with maxDepth := x } | _ => p
  | "learning_rate" => match v with | .float x => { p with learningRate := x } | _ => p
  | "n_estimators" | "num_iterations" => match v with | .int x => { p with numIterations := x } | _ => p
  | "min_child_samples" => match v with | .int x => { p with minChildSamples := x } | _ => p
  | "min_child_weight" => match v with | .float x => { p with minChildWeight := x } | _ => p
  | "subsample" => match v with | .float x => { p with subsample := x } | _ => p
  | "colsample_bytree" => match v with | .float x => { p with colsampleBytree := x } | _ => p
  | "reg_alpha" => match v with | .float x => { p with regAlpha := x } | _ => p
  | "reg_lambda" => match v with | .float x => { p with regLambda := x } | _ => p
  | "random_state" => match v with | .int x => { p with randomState := x } | _ => p
  | "n_jobs" => match v with | .int x => { p with numThreads := x } | _ => p
  | "deterministic" => match v with | .bool x => { p with deterministic := x } | _ => p
  | _ => p

/-- `LGBMClassifier.SetParams` when the range visits the entries in this order: sklearn/lightgbm/lgbm_classifier.go:679-737 -/
def Params.setClassifier {α : Type} (p : Params α) (order : List (String × Val α)) : Params α :=
  order.foldl (fun p e => p.applyClassifier e.1 e.2) p

end Scigo.ParamMap
