import Verif.Options.Model
import Verif.NaiveBayes.Lemmas2
import Verif.NaiveBayes.Spec
import Mathlib.Data.List.Basic

/-!
# What options do

Properties C245 and C246.
-/

namespace Scigo.Options

open Scigo.Logistic (PVal)

variable {α : Type _}

/-! ## Specification -/

/-- the value of the last option that sets `k`, if there is one -/
def lastSet {O V : Type _} (key : O → String) (val : O → V) (opts : List O) (k : String) : Option V :=
  ((opts.filter (fun o => key o == k)).getLast?).map val

/-- the name under which `GetParams` shows what an option of `NewSGDRegressor` sets -/
def RegOption.key : RegOption α → String
  | .loss _ => "loss" | .penalty _ => "penalty" | .alpha _ => "alpha" | .learningRate _ => "learning_rate" | .eta0 _ => "eta0"
  | .maxIter _ => "max_iter" | .tol _ => "tol" | .fitIntercept _ => "fit_intercept" | .warmStart _ => "warm_start"
  | .randomState _ => "random_state"

/-- the value an option was made with, with its dynamic type -/
def RegOption.val : RegOption α → PVal α
  | .loss v => .str v | .penalty v => .str v | .alpha v => .flt v | .learningRate v => .str v | .eta0 v => .flt v
  | .maxIter v => .int v | .tol v => .flt v | .fitIntercept v => .bool v | .warmStart v => .bool v | .randomState v => .int64 v

/-- the name under which `GetParams` shows what an option of `NewSGDClassifier` sets -/
def ClfOption.key : ClfOption α → String
  | .loss _ => "loss" | .penalty _ => "penalty" | .alpha _ => "alpha" | .learningRate _ => "learning_rate" | .eta0 _ => "eta0"
  | .maxIter _ => "max_iter" | .randomState _ => "random_state"

/-- the value an option was made with, with its dynamic type -/
def ClfOption.val : ClfOption α → PVal α
  | .loss v => .str v | .penalty v => .str v | .alpha v => .flt v | .learningRate v => .str v | .eta0 v => .flt v
  | .maxIter v => .int v | .randomState v => .int64 v

/-- the name under which `GetParams` shows what an option of the passive aggressive estimators sets -/
def PAOption.key : PAOption α → String
  | .C _ => "C" | .maxIter _ => "max_iter" | .fitIntercept _ => "fit_intercept" | .loss _ => "loss"

/-- the value an option was made with, with its dynamic type -/
def PAOption.val : PAOption α → PVal α
  | .C v => .flt v | .maxIter v => .int v | .fitIntercept v => .bool v | .loss v => .str v

/-- the name under which `GetParams` shows what an option of `NewLogisticRegression` sets -/
def LROption.key : LROption α → String
  | .penalty _ => "penalty" | .C _ => "C" | .fitIntercept _ => "fit_intercept" | .solver _ => "solver" | .maxIter _ => "max_iter"
  | .tol _ => "tol" | .randomState _ => "random_state"

/-- the value an option was made with, with its dynamic type -/
def LROption.val : LROption α → PVal α
  | .penalty v => .str v | .C v => .flt v | .fitIntercept v => .bool v | .solver v => .str v | .maxIter v => .int v
  | .tol v => .flt v | .randomState v => .int64 v

/-- the name under which `GetParams` shows what an option of `NewDecisionTreeClassifier` sets -/
def TreeOption.key : TreeOption → String
  | .criterion _ => "criterion" | .maxDepth _ => "max_depth" | .minSamplesSplit _ => "min_samples_split"
  | .minSamplesLeaf _ => "min_samples_leaf" | .randomState _ => "random_state"

/-- the value an option was made with, with its dynamic type -/
def TreeOption.val : TreeOption → PVal α
  | .criterion v => .str v | .maxDepth v => .int v | .minSamplesSplit v => .int v | .minSamplesLeaf v => .int v
  | .randomState v => .int64 v

/-! ## Lemmas -/

theorem lastSet_snoc {O V : Type _} (key : O → String) (val : O → V) (opts : List O) (o : O) (k : String) :
    lastSet key val (opts ++ [o]) k = if key o = k then some (val o) else lastSet key val opts k := by
  unfold lastSet
  by_cases e : key o = k
  · have : (key o == k) = true := beq_iff_eq.2 e
    simp [List.filter_append, this, e]
  · have : (key o == k) = false := beq_eq_false_iff_ne.2 e
    simp [List.filter_append, this, e]

theorem report_fold {O S V : Type _} (apply : S → O → S) (look : S → String → Option V) (key : O → String) (val : O → V)
    (h : ∀ s o k, look (apply s o) k = if key o = k then some (val o) else look s k) (s : S) (k : String) (opts : List O) :
    look (opts.foldl apply s) k = (lastSet key val opts k).or (look s k) := by
  induction opts using List.reverseRecOn with
  | nil => rfl
  | append_singleton l o ih =>
    rw [List.foldl_append, lastSet_snoc]
    show look (apply (l.foldl apply s) o) k = _
    rw [h, ih]
    split <;> rfl

/-- an entry of the map is replaced -/
theorem lookup_replace {V : Type _} (l r : List (String × V)) (key k : String) (v w : V)
    (h : (l.lookup key) = none) :
    (l ++ (key, v) :: r).lookup k = if key = k then some v else (l ++ (key, w) :: r).lookup k := by
  induction l with
  | nil =>
    by_cases e : key = k
    · subst e; simp
    · have : (k == key) = false := beq_eq_false_iff_ne.2 (Ne.symm e)
      simp [List.lookup, this, e]
  | cons p l ih =>
    obtain ⟨a, b⟩ := p
    rw [List.lookup_cons] at h
    by_cases e' : key == a
    · rw [e'] at h; cases h
    · have e'' : (key == a) = false := by simpa using e'
      rw [e''] at h
      have := ih h
      by_cases e : key = k
      · subst e
        simp only [List.cons_append, List.lookup_cons, e'', if_true] at this ⊢
        exact this
      · rw [if_neg e] at this ⊢
        simp only [List.cons_append, List.lookup_cons, this]

/-! ## C245 -/

/-- **C245.** `GetParams` of a new SGD regressor reports for every name the value of the last option that sets it, and the
default if none does. -/
theorem sgd_regressor_reports (lit : Rat → α) (opts : List (RegOption α)) (k : String) :
    ((newRegressor lit opts).regParams).lookup k =
      (lastSet RegOption.key RegOption.val opts k).or
        (List.lookup k [("loss", .str "squared_error"), ("penalty", .str "l2"), ("alpha", .flt (lit (1 / 10000))), ("l1_ratio", .flt (lit (15 / 100))),
          ("fit_intercept", .bool true), ("max_iter", .int 1000), ("tol", .flt (lit (1 / 1000))), ("shuffle", .bool true),
          ("verbose", .int 0), ("epsilon", .flt (lit (1 / 10))), ("random_state", .int64 (-1)), ("learning_rate", .str "invscaling"),
          ("eta0", .flt (lit (1 / 100))), ("power_t", .flt (lit (25 / 100))), ("warm_start", .bool false), ("average", .bool false),
          ("n_iter_no_change", .int 5)]) := by
  rw [newRegressor, report_fold RegOption.apply (fun s k => s.regParams.lookup k) RegOption.key RegOption.val]
  · rfl
  · intro s o k
    cases o with
    | loss v => exact lookup_replace [] _ _ _ _ _ rfl
    | penalty v => exact lookup_replace [_] _ _ _ _ _ rfl
    | alpha v => exact lookup_replace [_, _] _ _ _ _ _ rfl
    | learningRate v => exact lookup_replace [_, _, _, _, _, _, _, _, _, _, _] _ _ _ _ _ rfl
    | eta0 v => exact lookup_replace [_, _, _, _, _, _, _, _, _, _, _, _] _ _ _ _ _ rfl
    | maxIter v => exact lookup_replace [_, _, _, _, _] _ _ _ _ _ rfl
    | tol v => exact lookup_replace [_, _, _, _, _, _] _ _ _ _ _ rfl
    | fitIntercept v => exact lookup_replace [_, _, _, _] _ _ _ _ _ rfl
    | warmStart v => exact lookup_replace [_, _, _, _, _, _, _, _, _, _, _, _, _, _] _ _ _ _ _ rfl
    | randomState v => exact lookup_replace [_, _, _, _, _, _, _, _, _, _] _ _ _ _ _ rfl

/-- **C245.** The same for the SGD classifier, which also reports that it is not fitted. -/
theorem sgd_classifier_reports (lit : Rat → α) (opts : List (ClfOption α)) (k : String) :
    ((newClassifier lit opts).clfParams).lookup k =
      (lastSet ClfOption.key ClfOption.val opts k).or
        (List.lookup k [("loss", .str "hinge"), ("penalty", .str "l2"), ("alpha", .flt (lit (1 / 10000))), ("l1_ratio", .flt (lit (15 / 100))), ("fit_intercept", .bool true), ("max_iter", .int 1000), ("tol", .flt (lit (1 / 1000))), ("shuffle", .bool true), ("verbose", .int 0), ("epsilon", .flt (lit (1 / 10))), ("random_state", .int64 (-1)), ("learning_rate", .str "invscaling"), ("eta0", .flt (lit (1 / 100))), ("power_t", .flt (lit (25 / 100))), ("warm_start", .bool false), ("average", .bool false), ("n_iter_no_change", .int 5), ("class_weight", .str "none"), ("fitted", .bool false)]) := by
  rw [newClassifier, report_fold ClfOption.apply (fun s k => s.clfParams.lookup k) ClfOption.key ClfOption.val]
  · rfl
  · intro s o k
    cases o with
    | loss v => exact lookup_replace [] _ _ _ _ _ rfl
    | penalty v => exact lookup_replace [_] _ _ _ _ _ rfl
    | alpha v => exact lookup_replace [_, _] _ _ _ _ _ rfl
    | learningRate v => exact lookup_replace [_, _, _, _, _, _, _, _, _, _, _] _ _ _ _ _ rfl
    | eta0 v => exact lookup_replace [_, _, _, _, _, _, _, _, _, _, _, _] _ _ _ _ _ rfl
    | maxIter v => exact lookup_replace [_, _, _, _, _] _ _ _ _ _ rfl
    | randomState v => exact lookup_replace [_, _, _, _, _, _, _, _, _, _] _ _ _ _ _ rfl

/-- **C245.** The same for the passive aggressive regressor. -/
theorem pa_regressor_reports (lit : Rat → α) (opts : List (PAOption α)) (k : String) :
    ((newPARegressor lit opts).regParams).lookup k =
      (lastSet PAOption.key PAOption.val opts k).or
        (List.lookup k [("C", .flt (lit 1)), ("fit_intercept", .bool true), ("max_iter", .int 1000), ("tol", .flt (lit (1 / 1000))), ("shuffle", .bool true), ("verbose", .int 0), ("random_state", .int64 (-1)), ("warm_start", .bool false), ("average", .bool false), ("loss", .str "epsilon_insensitive"), ("epsilon", .flt (lit (1 / 10))), ("fitted", .bool false)]) := by
  rw [newPARegressor, report_fold PAOption.apply (fun s k => s.regParams.lookup k) PAOption.key PAOption.val]
  · rfl
  · intro s o k
    cases o with
    | C v => exact lookup_replace [] _ _ _ _ _ rfl
    | maxIter v => exact lookup_replace [_, _] _ _ _ _ _ rfl
    | fitIntercept v => exact lookup_replace [_] _ _ _ _ _ rfl
    | loss v => exact lookup_replace [_, _, _, _, _, _, _, _, _] _ _ _ _ _ rfl

/-- **C245.** The same for the passive aggressive classifier. -/
theorem pa_classifier_reports (lit : Rat → α) (opts : List (PAOption α)) (k : String) :
    ((newPAClassifier lit opts).clfParams).lookup k =
      (lastSet PAOption.key PAOption.val opts k).or
        (List.lookup k [("C", .flt (lit 1)), ("fit_intercept", .bool true), ("max_iter", .int 1000), ("tol", .flt (lit (1 / 1000))), ("shuffle", .bool true), ("verbose", .int 0), ("random_state", .int64 (-1)), ("warm_start", .bool false), ("average", .bool false), ("loss", .str "hinge"), ("class_weight", .str "none"), ("fitted", .bool false)]) := by
  rw [newPAClassifier, report_fold PAOption.apply (fun s k => s.clfParams.lookup k) PAOption.key PAOption.val]
  · rfl
  · intro s o k
    cases o with
    | C v => exact lookup_replace [] _ _ _ _ _ rfl
    | maxIter v => exact lookup_replace [_, _] _ _ _ _ _ rfl
    | fitIntercept v => exact lookup_replace [_] _ _ _ _ _ rfl
    | loss v => exact lookup_replace [_, _, _, _, _, _, _, _, _] _ _ _ _ _ rfl

/-- **C245.** The same for logistic regression, whatever seed was drawn. -/
theorem logistic_reports (lit : Rat → α) (crypto : Int) (opts : List (LROption α)) (k : String) :
    ((newLogistic lit crypto opts).get).lookup k =
      (lastSet LROption.key LROption.val opts k).or
        (List.lookup k [("penalty", .str "l2"), ("C", .flt (lit 1)), ("fit_intercept", .bool true), ("intercept_scaling", .flt (lit 1)), ("class_weight", .str "none"), ("random_state", .int64 (-1)), ("solver", .str "lbfgs"), ("max_iter", .int 100), ("multi_class", .str "auto"), ("verbose", .int 0), ("warm_start", .bool false), ("l1_ratio", .flt (lit (1 / 2))), ("tol", .flt (lit (1 / 10000)))]) := by
  have hs : (newLogistic lit crypto opts).get = (opts.foldl LROption.apply
      { penalty := "l2", C := lit 1, fitIntercept := true, interceptScaling := lit 1, classWeight := "none",
        randomState := -1, solver := "lbfgs", maxIter := 100, multiClass := "auto", verbose := 0, warmStart := false,
        l1Ratio := lit (1 / 2), tol := lit (1 / 10000), randomSeed := 0 }).get := by
    unfold newLogistic
    dsimp only
    split <;> rfl
  rw [hs, report_fold LROption.apply (fun s k => s.get.lookup k) LROption.key LROption.val]
  · rfl
  · intro s o k
    cases o with
    | penalty v => exact lookup_replace [] _ _ _ _ _ rfl
    | C v => exact lookup_replace [_] _ _ _ _ _ rfl
    | fitIntercept v => exact lookup_replace [_, _] _ _ _ _ _ rfl
    | solver v => exact lookup_replace [_, _, _, _, _, _] _ _ _ _ _ rfl
    | maxIter v => exact lookup_replace [_, _, _, _, _, _, _] _ _ _ _ _ rfl
    | tol v => exact lookup_replace [_, _, _, _, _, _, _, _, _, _, _, _] _ _ _ _ _ rfl
    | randomState v => exact lookup_replace [_, _, _, _, _] _ _ _ _ _ rfl

/-- **C245.** The same for decision trees. -/
theorem tree_reports (lit : Rat → α) (opts : List TreeOption) (k : String) :
    ((newTree lit opts).get).lookup k =
      (lastSet TreeOption.key TreeOption.val opts k).or
        (List.lookup k [("criterion", .str "gini"), ("max_depth", .int 0), ("min_samples_split", .int 2), ("min_samples_leaf", .int 1), ("max_features", .str "auto"), ("max_leaf_nodes", .int 0), ("min_impurity_decrease", .flt (lit 0)), ("random_state", .int64 (-1))]) := by
  rw [newTree, report_fold TreeOption.apply (fun s k => s.get.lookup k) TreeOption.key TreeOption.val]
  · rfl
  · intro s o k
    cases o with
    | criterion v => exact lookup_replace [] _ _ _ _ _ rfl
    | maxDepth v => exact lookup_replace [_] _ _ _ _ _ rfl
    | minSamplesSplit v => exact lookup_replace [_, _] _ _ _ _ _ rfl
    | minSamplesLeaf v => exact lookup_replace [_, _, _] _ _ _ _ _ rfl
    | randomState v => exact lookup_replace [_, _, _, _, _, _, _] _ _ _ _ _ rfl

/-- the name under which `GetParams` shows what an option of `NewLinearRegression` sets -/
def LMOption.key : LMOption → String
  | .fitIntercept _ => "fit_intercept" | .normalize _ => "normalize" | .copyX _ => "copy_X" | .nJobs _ => "n_jobs"
  | .positive _ => "positive"

/-- the value an option was made with, with its dynamic type -/
def LMOption.val : LMOption → Linear.Dyn α
  | .fitIntercept v => .bool v | .normalize v => .bool v | .copyX v => .bool v | .nJobs v => .int v | .positive v => .bool v

/-- **C245.** The same for linear regression, which also reports that it is not fitted, its type and its version. -/
theorem linear_reports [Zero α] (opts : List LMOption) (k : String) :
    (newLinear opts : Linear.LM α).getParams k =
      (lastSet LMOption.key LMOption.val opts k).or
        (List.lookup k [("fit_intercept", .bool true), ("normalize", .bool false), ("copy_X", .bool true), ("n_jobs", .int 1),
          ("positive", .bool false), ("fitted", .bool false), ("model_type", .str "LinearRegression"), ("version", .str "1.0.0")]) := by
  rw [newLinear, report_fold LMOption.apply (fun (s : Linear.LM α) k => s.getParams k) LMOption.key LMOption.val]
  · congr 1
    unfold Linear.LM.getParams
    simp only [List.lookup_cons, List.lookup_nil]
    by_cases h1 : k = "fit_intercept"
    · subst h1; rfl
    rw [if_neg h1, beq_eq_false_iff_ne.2 h1]
    by_cases h2 : k = "normalize"
    · subst h2; rfl
    rw [if_neg h2, beq_eq_false_iff_ne.2 h2]
    by_cases h3 : k = "copy_X"
    · subst h3; rfl
    rw [if_neg h3, beq_eq_false_iff_ne.2 h3]
    by_cases h4 : k = "n_jobs"
    · subst h4; rfl
    rw [if_neg h4, beq_eq_false_iff_ne.2 h4]
    by_cases h5 : k = "positive"
    · subst h5; rfl
    rw [if_neg h5, beq_eq_false_iff_ne.2 h5]
    by_cases h6 : k = "fitted"
    · subst h6; rfl
    rw [if_neg h6, beq_eq_false_iff_ne.2 h6]
    by_cases h7 : k = "model_type"
    · subst h7; rfl
    rw [if_neg h7, beq_eq_false_iff_ne.2 h7]
    by_cases h8 : k = "version"
    · subst h8; rfl
    rw [if_neg h8, beq_eq_false_iff_ne.2 h8]
  · intro s o k
    cases o with
    | fitIntercept v =>
      by_cases e : "fit_intercept" = k
      · subst e; rfl
      · rw [if_neg (show ¬ LMOption.key (.fitIntercept v) = k from e)]
        simp only [Linear.LM.getParams, LMOption.apply, if_neg (Ne.symm e)]
    | normalize v =>
      by_cases e : "normalize" = k
      · subst e; rfl
      · rw [if_neg (show ¬ LMOption.key (.normalize v) = k from e)]
        simp only [Linear.LM.getParams, LMOption.apply, if_neg (Ne.symm e)]
    | copyX v =>
      by_cases e : "copy_X" = k
      · subst e; rfl
      · rw [if_neg (show ¬ LMOption.key (.copyX v) = k from e)]
        simp only [Linear.LM.getParams, LMOption.apply, if_neg (Ne.symm e)]
    | nJobs v =>
      by_cases e : "n_jobs" = k
      · subst e; rfl
      · rw [if_neg (show ¬ LMOption.key (.nJobs v) = k from e)]
        simp only [Linear.LM.getParams, LMOption.apply, if_neg (Ne.symm e)]
    | positive v =>
      by_cases e : "positive" = k
      · subst e; rfl
      · rw [if_neg (show ¬ LMOption.key (.positive v) = k from e)]
        simp only [Linear.LM.getParams, LMOption.apply, if_neg (Ne.symm e)]

/-- the options of the example: the seed is set twice, and between them a loss and the number of iterations -/
def exRegOpts : List (RegOption Rat) := [.randomState 7, .loss "huber", .maxIter 5, .randomState 42]

example : lastSet RegOption.key RegOption.val exRegOpts "random_state" = some (.int64 42) ∧
    lastSet RegOption.key RegOption.val exRegOpts "loss" = some (.str "huber") ∧
    (lastSet RegOption.key RegOption.val exRegOpts "tol") = none := ⟨rfl, rfl, rfl⟩

/-! ## C246 -/

/-- the last value that `g` takes from the options, `d` if there is none -/
def lastOf {O V : Type _} (g : O → Option V) (opts : List O) (d : V) : V := ((opts.filterMap g).getLast?).getD d

theorem field_fold {O S V : Type _} (apply : S → O → S) (f : S → V) (g : O → Option V)
    (h : ∀ s o, f (apply s o) = (g o).getD (f s)) (s : S) (opts : List O) :
    f (opts.foldl apply s) = lastOf g opts (f s) := by
  induction opts using List.reverseRecOn with
  | nil => rfl
  | append_singleton l o ih =>
    rw [List.foldl_append]
    show f (apply (l.foldl apply s) o) = _
    rw [h, ih, lastOf, lastOf, List.filterMap_append]
    cases hg : g o with
    | none => simp [hg]
    | some v => simp [hg]

section
variable (opts : List (KMOption α))

/-- the numbers of clusters asked for, in order -/
def KMOption.clusters : KMOption α → Option Nat | .nClusters n => some n | _ => none
/-- the ways of initialisation asked for -/
def KMOption.inits : KMOption α → Option String | .init n => some n | _ => none
/-- the numbers of iterations asked for -/
def KMOption.iters : KMOption α → Option Nat | .maxIter n => some n | _ => none
/-- the batch sizes asked for -/
def KMOption.sizes : KMOption α → Option Nat | .batchSize n => some n | _ => none
/-- the tolerances asked for -/
def KMOption.tols : KMOption α → Option α | .tol n => some n | _ => none
/-- the seeds asked for -/
def KMOption.seeds : KMOption α → Option Int | .randomState n => some n | _ => none

/-- **C246.** A new clusterer has for every setting the value of the last option about it, or its default; the order of
options about different settings does not matter, and no option touches the settings that have none. -/
theorem kmeans_options (lit : Rat → α) :
    newKMeans lit opts =
      ⟨{ nClusters := lastOf KMOption.clusters opts 8
         init := lastOf KMOption.inits opts "k-means++"
         maxIter := lastOf KMOption.iters opts 100
         batchSize := lastOf KMOption.sizes opts 100
         computeLabels := true
         tol := lastOf KMOption.tols opts (lit 0)
         maxNoImprovement := 10
         nInit := 3 },
       lastOf KMOption.seeds opts (-1)⟩ := by
  have e1 := field_fold KMOption.apply (fun s : KMSettings α => s.params.nClusters) KMOption.clusters (by intro s o; cases o <;> rfl) (newKMeans lit []) opts
  have e2 := field_fold KMOption.apply (fun s : KMSettings α => s.params.init) KMOption.inits (by intro s o; cases o <;> rfl) (newKMeans lit []) opts
  have e3 := field_fold KMOption.apply (fun s : KMSettings α => s.params.maxIter) KMOption.iters (by intro s o; cases o <;> rfl) (newKMeans lit []) opts
  have e4 := field_fold KMOption.apply (fun s : KMSettings α => s.params.batchSize) KMOption.sizes (by intro s o; cases o <;> rfl) (newKMeans lit []) opts
  have e5 := field_fold KMOption.apply (fun s : KMSettings α => s.params.tol) KMOption.tols (by intro s o; cases o <;> rfl) (newKMeans lit []) opts
  have e6 := field_fold KMOption.apply (fun s : KMSettings α => s.randomState) KMOption.seeds (by intro s o; cases o <;> rfl) (newKMeans lit []) opts
  have e7 := field_fold KMOption.apply (fun s : KMSettings α => (s.params.computeLabels, s.params.maxNoImprovement, s.params.nInit)) (fun _ => none)
    (by intro s o; cases o <;> rfl) (newKMeans lit []) opts
  have e8 : lastOf (fun _ : KMOption α => none) opts ((newKMeans lit []).params.computeLabels, (newKMeans lit []).params.maxNoImprovement,
      (newKMeans lit []).params.nInit) = (true, 10, 3) := by simp [lastOf, newKMeans]
  rw [e8] at e7
  show opts.foldl KMOption.apply (newKMeans lit []) = _
  generalize opts.foldl KMOption.apply (newKMeans lit []) = r at *
  obtain ⟨⟨a, b, c, d, e, f, g, h⟩, i⟩ := r
  dsimp only at e1 e2 e3 e4 e5 e6 e7
  obtain ⟨e7, e8, e9⟩ := (Prod.mk.injEq .. ▸ e7 : _ ∧ _).imp id (fun h => (Prod.mk.injEq .. ▸ h : _ ∧ _))
  rw [e1, e2, e3, e4, e5, e6, e7, e8, e9]
  rfl

end

example : newKMeans (id : Rat → Rat) [.batchSize 10, .nClusters 3, .tol 1, .nClusters 4] =
    newKMeans id [.tol 1, .nClusters 4, .batchSize 10] := rfl

/-- the minimal numbers of samples asked for -/
def DDMOption.mins : DDMOption α → Option Int | .minNumInstances n => some n | _ => none
/-- the warning levels asked for -/
def DDMOption.warns : DDMOption α → Option α | .warningLevel n => some n | _ => none
/-- the drift levels asked for -/
def DDMOption.outs : DDMOption α → Option α | .outControlLevel n => some n | _ => none
/-- the confidences asked for -/
def ADWINOption.deltas : ADWINOption α → Option α | .delta n => some n | _ => none
/-- the bucket limits asked for -/
def ADWINOption.limits : ADWINOption α → Option Int | .maxBuckets n => some n | _ => none

/-- **C246.** A new drift detector is a detector that has seen nothing, with the last of each setting asked for, or the default. -/
theorem drift_options [Zero α] (lit : Rat → α) (dopts : List (DDMOption α)) (aopts : List (ADWINOption α)) :
    newDDM lit dopts = Drift.DDM.new (lastOf DDMOption.mins dopts 30) (lastOf DDMOption.warns dopts (lit 2))
      (lastOf DDMOption.outs dopts (lit 3)) ∧
    newADWIN lit aopts = Drift.ADWIN.new (lastOf ADWINOption.deltas aopts (lit (2 / 1000))) (lastOf ADWINOption.limits aopts 1000) := by
  constructor
  · have e1 := field_fold DDMOption.apply (fun s : Drift.DDM α => s.minNumInstances) DDMOption.mins (by intro s o; cases o <;> rfl) (newDDM lit []) dopts
    have e2 := field_fold DDMOption.apply (fun s : Drift.DDM α => s.warningLevel) DDMOption.warns (by intro s o; cases o <;> rfl) (newDDM lit []) dopts
    have e3 := field_fold DDMOption.apply (fun s : Drift.DDM α => s.outControlLevel) DDMOption.outs (by intro s o; cases o <;> rfl) (newDDM lit []) dopts
    have e4 := field_fold DDMOption.apply (fun s : Drift.DDM α => Drift.DDM.mk 0 0 0 s.numInstances s.numErrors s.errorRate s.stdDev s.min
      s.warningDetected s.driftDetected) (fun _ => none) (by intro s o; cases o <;> rfl) (newDDM lit []) dopts
    have e5 : ∀ d : Drift.DDM α, lastOf (fun _ : DDMOption α => none) dopts d = d := by intro d; simp [lastOf]
    rw [e5] at e4
    show dopts.foldl DDMOption.apply (newDDM lit []) = _
    generalize dopts.foldl DDMOption.apply (newDDM lit []) = r at *
    obtain ⟨a, b, c, d, e, f, g, h, i, j⟩ := r
    simp only [newDDM, List.foldl_nil, Drift.DDM.new, Drift.DDM.mk.injEq, true_and] at e1 e2 e3 e4 ⊢
    exact ⟨e1, e2, e3, e4⟩
  · have e1 := field_fold ADWINOption.apply (fun s : Drift.ADWIN α => s.delta) ADWINOption.deltas (by intro s o; cases o <;> rfl) (newADWIN lit []) aopts
    have e2 := field_fold ADWINOption.apply (fun s : Drift.ADWIN α => s.maxBuckets) ADWINOption.limits (by intro s o; cases o <;> rfl) (newADWIN lit []) aopts
    have e4 := field_fold ADWINOption.apply (fun s : Drift.ADWIN α => { s with delta := 0, maxBuckets := 0 }) (fun _ => none)
      (by intro s o; cases o <;> rfl) (newADWIN lit []) aopts
    have e5 : ∀ d : Drift.ADWIN α, lastOf (fun _ : ADWINOption α => none) aopts d = d := by intro d; simp [lastOf]
    rw [e5] at e4
    show aopts.foldl ADWINOption.apply (newADWIN lit []) = _
    generalize aopts.foldl ADWINOption.apply (newADWIN lit []) = r at *
    obtain ⟨a, b, c, d, e, f⟩ := r
    simp only [newADWIN, List.foldl_nil, Drift.ADWIN.new, Drift.ADWIN.mk.injEq, true_and] at e1 e2 e4 ⊢
    exact ⟨e1, e2, e4⟩

example : newDDM (id : Rat → Rat) [.warningLevel 1, .minNumInstances 5, .warningLevel 4] = Drift.DDM.new 5 4 3 := rfl

/-! ### Naive Bayes -/

/-- the smoothing parameters asked for -/
def NBOption.alphas : NBOption α → Option α | .alpha n => some n | _ => none
/-- whether the prior is to be learned: `WithClassPrior` says no -/
def NBOption.learns : NBOption α → Option Bool | .fitPrior b => some b | .classPrior _ => some false | _ => none
/-- the priors given -/
def NBOption.priors : NBOption α → Option (Option (List α)) | .classPrior p => some p | _ => none

/-- **C246.** A new naive Bayes classifier has the last smoothing parameter asked for and the last prior given, and learns the
prior exactly if the last option about the prior is `WithFitPrior(true)` or there is none. -/
theorem nb_options (lit : Rat → α) (opts : List (NBOption α)) :
    newNB lit opts = NaiveBayes.NB.new (lastOf NBOption.alphas opts (lit 1)) (lastOf NBOption.learns opts true)
      (lastOf NBOption.priors opts none) := by
  have e1 := field_fold NBOption.apply (fun s : NaiveBayes.NB α => s.alpha) NBOption.alphas (by intro s o; cases o <;> rfl) (newNB lit []) opts
  have e2 := field_fold NBOption.apply (fun s : NaiveBayes.NB α => s.fitPrior) NBOption.learns (by intro s o; cases o <;> rfl) (newNB lit []) opts
  have e3 := field_fold NBOption.apply (fun s : NaiveBayes.NB α => s.classPrior) NBOption.priors (by intro s o; cases o <;> rfl) (newNB lit []) opts
  have e4 := field_fold NBOption.apply (fun s : NaiveBayes.NB α => { s with alpha := lit 1, fitPrior := true, classPrior := none })
    (fun _ => none) (by intro s o; cases o <;> rfl) (newNB lit []) opts
  have e5 : ∀ d : NaiveBayes.NB α, lastOf (fun _ : NBOption α => none) opts d = d := by intro d; simp [lastOf]
  rw [e5] at e4
  show opts.foldl NBOption.apply (newNB lit []) = _
  generalize opts.foldl NBOption.apply (newNB lit []) = r at *
  cases r
  simp only [newNB, List.foldl_nil, NaiveBayes.NB.new, NaiveBayes.NB.mk.injEq, true_and] at e1 e2 e3 e4 ⊢
  exact ⟨e1, e2, e3, e4⟩

section
open NaiveBayes
variable [Add α] [Sub α] [Mul α] [Div α] [Zero α] [One α] [NatCast α] [IntCast α] [LT α] [DecidableLT α]

/-- the same classifier with another given prior -/
def withPrior (p : Option (List α)) (s : NB α) : NB α := { s with classPrior := p }

theorem countRows_withPrior (p : Option (List α)) (toInt : α → Int) (X y : Mat α) (l : List Nat) (s : NB α) :
    l.foldl (NB.countRow toInt X y) (withPrior p s) = withPrior p (l.foldl (NB.countRow toInt X y) s) ∧
    (l.foldl (NB.countRow toInt X y) s).fitPrior = s.fitPrior := by
  induction l generalizing s with
  | nil => exact ⟨rfl, rfl⟩
  | cons i l ih =>
    have h : NB.countRow toInt X y (withPrior p s) i = withPrior p (NB.countRow toInt X y s i) ∧
        (NB.countRow toInt X y s i).fitPrior = s.fitPrior := by
      unfold NB.countRow
      have hc : (withPrior p s).classIndex (toInt (y.at' i 0)) = s.classIndex (toInt (y.at' i 0)) := rfl
      rw [hc]
      cases s.classIndex (toInt (y.at' i 0)) <;> exact ⟨rfl, rfl⟩
    rw [List.foldl_cons, List.foldl_cons, h.1, (ih _).1, (ih _).2, h.2]
    exact ⟨rfl, rfl⟩

theorem updateModel_withPrior (p : Option (List α)) (log : α → α) (s : NB α) (hf : s.fitPrior = true) :
    (withPrior p s).updateModel log = withPrior p (s.updateModel log) := by
  have h : (withPrior p s).priors log = s.priors log := by
    unfold NB.priors
    rw [show (withPrior p s).fitPrior = s.fitPrior from rfl, hf]
    rfl
  unfold NB.updateModel
  rw [h]
  rfl

theorem partialFit_withPrior (p : Option (List α)) (log : α → α) (toInt : α → Int) (iter : List Int → List Int) (X y : Mat α)
    (cls : Option (List Int)) (s : NB α) (hf : s.fitPrior = true) :
    ((withPrior p s).partialFit log toInt iter X y cls).1 = withPrior p (s.partialFit log toInt iter X y cls).1 ∧
    (s.partialFit log toInt iter X y cls).1.fitPrior = true := by
  have hb : (withPrior p s).begin toInt iter X y cls = withPrior p (s.begin toInt iter X y cls) ∧
      (s.begin toInt iter X y cls).fitPrior = true := by
    unfold NB.begin
    rw [show (withPrior p s).classes = s.classes from rfl]
    cases s.classes <;> exact ⟨rfl, hf⟩
  unfold NB.partialFit
  rw [hb.1]
  cases validateInput X y with
  | ok u =>
    dsimp only
    rw [show (withPrior p (s.begin toInt iter X y cls)).nFeatures = (s.begin toInt iter X y cls).nFeatures from rfl]
    have hc := countRows_withPrior p toInt X y (List.range X.r) (s.begin toInt iter X y cls)
    split
    · exact ⟨rfl, hb.2⟩
    · rw [hc.1, updateModel_withPrior p log _ (hc.2.trans hb.2)]
      exact ⟨rfl, hc.2.trans hb.2⟩
  | err e => exact ⟨rfl, hf⟩
  | panic e => exact ⟨rfl, hf⟩

theorem runNB_withPrior (p : Option (List α)) (log : α → α) (toInt : α → Int) (iter : List Int → List Int)
    (hist : List (NBCall α)) (s : NB α) (hf : s.fitPrior = true) :
    runNB log toInt iter hist (withPrior p s) = withPrior p (runNB log toInt iter hist s) := by
  induction hist generalizing s with
  | nil => rfl
  | cons c hist ih =>
    cases c with
    | fit X y =>
      have h := partialFit_withPrior p log toInt iter X y none s.reset hf
      have e : ((withPrior p s).fit log toInt iter X y).1 = withPrior p (s.fit log toInt iter X y).1 := by
        rw [fit_eq, fit_eq]; exact h.1
      show runNB log toInt iter hist ((withPrior p s).fit log toInt iter X y).1 = _
      rw [e]
      exact ih _ (by rw [fit_eq]; exact h.2)
    | partialFit X y cls =>
      have h := partialFit_withPrior p log toInt iter X y cls s hf
      show runNB log toInt iter hist ((withPrior p s).partialFit log toInt iter X y cls).1 = _
      rw [h.1]
      exact ih _ h.2

/-- **C246.** A prior given with `WithClassPrior` is dropped when a later `WithFitPrior(true)` follows: after every history of
training calls the classifier predicts what one made with the smoothing parameter alone predicts. -/
theorem nb_prior_dropped (lit : Rat → α) (opts : List (NBOption α)) (h : lastOf NBOption.learns opts true = true)
    (log exp : α → α) (ninf : α) (toInt : α → Int) (iter : List Int → List Int) (hist : List (NBCall α)) (X : Mat α) :
    let s := runNB log toInt iter hist (newNB lit opts)
    let s' := runNB log toInt iter hist (newNB lit [.alpha (lastOf NBOption.alphas opts (lit 1))])
    s.predict ninf X = s'.predict ninf X ∧ s.predictLogProba log exp ninf X = s'.predictLogProba log exp ninf X := by
  have e : newNB lit opts = withPrior (lastOf NBOption.priors opts none) (newNB lit [.alpha (lastOf NBOption.alphas opts (lit 1))]) := by
    rw [nb_options lit opts, h]; rfl
  dsimp only
  rw [e, runNB_withPrior _ _ _ _ _ _ rfl]
  exact ⟨rfl, rfl⟩

/-- **C246.** The last prior given counts when no later `WithFitPrior(true)` follows: after every successful `Fit` the log priors
are the logarithms of the given probabilities (if there is one for every class). -/
theorem nb_prior_kept (lit : Rat → α) (opts : List (NBOption α)) (h : lastOf NBOption.learns opts true = false) (pr : List α)
    (hp : lastOf NBOption.priors opts none = some pr) (log : α → α) (toInt : α → Int) (iter : List Int → List Int) (X y : Mat α)
    (hok : ((newNB lit opts).fit log toInt iter X y).2 = .ok ())
    (hl : pr.length = ((newNB lit opts).fit log toInt iter X y).1.nClasses) :
    ((newNB lit opts).fit log toInt iter X y).1.logPrior = pr.map log := by
  have keep : ∀ (l : List Nat) (s : NB α), (l.foldl (NB.countRow toInt X y) s).fitPrior = s.fitPrior ∧
      (l.foldl (NB.countRow toInt X y) s).classPrior = s.classPrior := by
    intro l
    induction l with
    | nil => intro s; exact ⟨rfl, rfl⟩
    | cons i l ih =>
      intro s
      have hi : (NB.countRow toInt X y s i).fitPrior = s.fitPrior ∧ (NB.countRow toInt X y s i).classPrior = s.classPrior := by
        unfold NB.countRow
        cases s.classIndex (toInt (y.at' i 0)) <;> exact ⟨rfl, rfl⟩
      rw [List.foldl_cons]
      exact ⟨(ih _).1.trans hi.1, (ih _).2.trans hi.2⟩
  rw [nb_options, h, hp] at hok hl ⊢
  unfold NB.fit at hok hl ⊢
  cases hv : validateInput X y with
  | ok u =>
    rw [hv] at hl
    dsimp only at hl ⊢
    revert hl
    have k := keep (List.range X.r) (((NB.new (lastOf NBOption.alphas opts (lit 1)) false (some pr)).reset).initCounts (extractClasses toInt iter y) X.c)
    generalize (List.range X.r).foldl (NB.countRow toInt X y) _ = t at k ⊢
    intro hl
    have hl' : pr.length = t.nClasses := hl
    show t.priors log = _
    have k1 : t.fitPrior = false := k.1
    have k2 : t.classPrior = some pr := k.2
    unfold NB.priors
    rw [k1, k2]
    dsimp only
    rw [if_neg (by decide), ← hl']
    refine List.ext_getElem (by simp) fun i h1 h2 => ?_
    have : i < pr.length := by simpa using h2
    simp [this]
  | err e => rw [hv] at hok; cases hok
  | panic e => rw [hv] at hok; cases hok

end

/-- a carrier with a logarithm replaced by the identity, so that the example computes -/
def exFit (opts : List (NBOption Rat)) : List Rat :=
  ((newNB id opts).fit id (fun q => q.num) List.dedup (Mat.ofRows [[1], [1], [1], [1]] 1 0) (Mat.ofRows [[0], [1], [1], [1]] 1 0)).1.logPrior

example : exFit [.fitPrior true, .classPrior (some [1 / 2, 1 / 2])] = [1 / 2, 1 / 2] ∧
    exFit [.classPrior (some [1 / 2, 1 / 2]), .fitPrior true] = [1 / 4, 3 / 4] := by decide +kernel

end Scigo.Options
