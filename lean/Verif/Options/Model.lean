import Verif.Settings.Model
import Verif.NaiveBayes.Model
import Verif.KMeans.Model
import Verif.Drift.Model
import Verif.Linear.Model

/-!
# Constructors with options

Model of the constructors that take options, of the options, and of `GetParams` where the estimator has one:
`sklearn/linear_model/sgd_regressor.go`, `sklearn/linear_model/sgd_classifier.go`,
`sklearn/linear_model/passive_aggressive.go`, `sklearn/linear_model/logistic.go`, `sklearn/linear_model/linear_regression.go`, `sklearn/tree/tree.go`,
`sklearn/naive_bayes/multinomial_nb.go`, `sklearn/cluster/minibatch_kmeans.go` and `sklearn/drift/ddm.go`.
An option is a function that changes fields of the estimator; here it is a constructor of an inductive type, and `apply` is the
function. The constructors call the options in the order given. `lit` gives the `float64` of a decimal literal. The generators
that the seeds start are in `Verif.Online.Seed` and `Verif.Logistic.Seed`. Not modelled: options that are not made by the
package (a caller can not reach the fields) and nil options (the call panics).
-/

namespace Scigo.Options

open Scigo.Logistic (PVal)

variable {α : Type _}

/-! ## SGD -/

/-- the hyperparameters of the SGD estimators (`sklearn/linear_model/sgd_regressor.go:23-40`, `sklearn/linear_model/sgd_classifier.go:22-40`);
`classWeight` and the fitted flag exist in the classifier only -/
structure SGD (α : Type _) where
  loss : String
  penalty : String
  alpha : α
  l1Ratio : α
  fitIntercept : Bool
  maxIter : Int
  tol : α
  shuffle : Bool
  verbose : Int
  epsilon : α
  randomState : Int
  learningRate : String
  eta0 : α
  powerT : α
  warmStart : Bool
  average : Bool
  nIterNoChange : Int
  classWeight : String
  fitted : Bool

/-- an option of `NewSGDRegressor` (`sklearn/linear_model/sgd_regressor.go:97-170`) -/
inductive RegOption (α : Type _)
  | loss (s : String)
  | penalty (s : String)
  | alpha (x : α)
  | learningRate (s : String)
  | eta0 (x : α)
  | maxIter (n : Int)
  | tol (x : α)
  | fitIntercept (b : Bool)
  | warmStart (b : Bool)
  | randomState (n : Int)

/-- what the option does (`sklearn/linear_model/sgd_regressor.go:99-170`) -/
def RegOption.apply (s : SGD α) : RegOption α → SGD α
  | .loss v => { s with loss := v }
  | .penalty v => { s with penalty := v }
  | .alpha v => { s with alpha := v }
  | .learningRate v => { s with learningRate := v }
  | .eta0 v => { s with eta0 := v }
  | .maxIter v => { s with maxIter := v }
  | .tol v => { s with tol := v }
  | .fitIntercept v => { s with fitIntercept := v }
  | .warmStart v => { s with warmStart := v }
  | .randomState v => { s with randomState := v }

/-- the values set before the options (`sklearn/linear_model/sgd_regressor.go:61-81`) -/
def regDefaults (lit : Rat → α) : SGD α :=
  { loss := "squared_error", penalty := "l2", alpha := lit (1 / 10000), l1Ratio := lit (15 / 100), fitIntercept := true,
    maxIter := 1000, tol := lit (1 / 1000), shuffle := true, verbose := 0, epsilon := lit (1 / 10), randomState := -1,
    learningRate := "invscaling", eta0 := lit (1 / 100), powerT := lit (25 / 100), warmStart := false, average := false,
    nIterNoChange := 5, classWeight := "", fitted := false }

/-- `NewSGDRegressor` (`sklearn/linear_model/sgd_regressor.go:60-94`) -/
def newRegressor (lit : Rat → α) (opts : List (RegOption α)) : SGD α := opts.foldl RegOption.apply (regDefaults lit)

/-- `GetParams` of the regressor (`sklearn/linear_model/sgd_regressor.go:727-747`) -/
def SGD.regParams (s : SGD α) : List (String × PVal α) :=
  [("loss", .str s.loss), ("penalty", .str s.penalty), ("alpha", .flt s.alpha), ("l1_ratio", .flt s.l1Ratio),
   ("fit_intercept", .bool s.fitIntercept), ("max_iter", .int s.maxIter), ("tol", .flt s.tol), ("shuffle", .bool s.shuffle),
   ("verbose", .int s.verbose), ("epsilon", .flt s.epsilon), ("random_state", .int64 s.randomState),
   ("learning_rate", .str s.learningRate), ("eta0", .flt s.eta0), ("power_t", .flt s.powerT), ("warm_start", .bool s.warmStart),
   ("average", .bool s.average), ("n_iter_no_change", .int s.nIterNoChange)]

/-- an option of `NewSGDClassifier` (`sklearn/linear_model/sgd_classifier.go:100-153`) -/
inductive ClfOption (α : Type _)
  | loss (s : String)
  | penalty (s : String)
  | alpha (x : α)
  | learningRate (s : String)
  | eta0 (x : α)
  | maxIter (n : Int)
  | randomState (n : Int)

/-- what the option does (`sklearn/linear_model/sgd_classifier.go:103-153`) -/
def ClfOption.apply (s : SGD α) : ClfOption α → SGD α
  | .loss v => { s with loss := v }
  | .penalty v => { s with penalty := v }
  | .alpha v => { s with alpha := v }
  | .learningRate v => { s with learningRate := v }
  | .eta0 v => { s with eta0 := v }
  | .maxIter v => { s with maxIter := v }
  | .randomState v => { s with randomState := v }

/-- the values set before the options (`sklearn/linear_model/sgd_classifier.go:64-85`) -/
def clfDefaults (lit : Rat → α) : SGD α :=
  { loss := "hinge", penalty := "l2", alpha := lit (1 / 10000), l1Ratio := lit (15 / 100), fitIntercept := true,
    maxIter := 1000, tol := lit (1 / 1000), shuffle := true, verbose := 0, epsilon := lit (1 / 10), randomState := -1,
    learningRate := "invscaling", eta0 := lit (1 / 100), powerT := lit (25 / 100), warmStart := false, average := false,
    nIterNoChange := 5, classWeight := "none", fitted := false }

/-- `NewSGDClassifier` (`sklearn/linear_model/sgd_classifier.go:63-98`) -/
def newClassifier (lit : Rat → α) (opts : List (ClfOption α)) : SGD α := opts.foldl ClfOption.apply (clfDefaults lit)

/-- `GetParams` of the classifier (`sklearn/linear_model/sgd_classifier.go:887-909`) -/
def SGD.clfParams (s : SGD α) : List (String × PVal α) :=
  [("loss", .str s.loss), ("penalty", .str s.penalty), ("alpha", .flt s.alpha), ("l1_ratio", .flt s.l1Ratio),
   ("fit_intercept", .bool s.fitIntercept), ("max_iter", .int s.maxIter), ("tol", .flt s.tol), ("shuffle", .bool s.shuffle),
   ("verbose", .int s.verbose), ("epsilon", .flt s.epsilon), ("random_state", .int64 s.randomState),
   ("learning_rate", .str s.learningRate), ("eta0", .flt s.eta0), ("power_t", .flt s.powerT), ("warm_start", .bool s.warmStart),
   ("average", .bool s.average), ("n_iter_no_change", .int s.nIterNoChange), ("class_weight", .str s.classWeight),
   ("fitted", .bool s.fitted)]

/-! ## Passive aggressive -/

/-- the hyperparameters of the passive aggressive estimators (`sklearn/linear_model/passive_aggressive.go:20-30,53-63`);
`epsilon` exists in the regressor only, `classWeight` in the classifier only -/
structure PA (α : Type _) where
  C : α
  fitIntercept : Bool
  maxIter : Int
  tol : α
  shuffle : Bool
  verbose : Int
  randomState : Int
  warmStart : Bool
  average : Bool
  loss : String
  epsilon : α
  classWeight : String
  fitted : Bool

/-- an option of both constructors (`sklearn/linear_model/passive_aggressive.go:84,135-180`) -/
inductive PAOption (α : Type _)
  | C (x : α)
  | maxIter (n : Int)
  | fitIntercept (b : Bool)
  | loss (s : String)

/-- what the option does to either estimator (`sklearn/linear_model/passive_aggressive.go:135-180`) -/
def PAOption.apply (s : PA α) : PAOption α → PA α
  | .C v => { s with C := v }
  | .maxIter v => { s with maxIter := v }
  | .fitIntercept v => { s with fitIntercept := v }
  | .loss v => { s with loss := v }

/-- `NewPassiveAggressiveRegressor` (`sklearn/linear_model/passive_aggressive.go:87-108`) -/
def newPARegressor (lit : Rat → α) (opts : List (PAOption α)) : PA α :=
  opts.foldl PAOption.apply
    { C := lit 1, fitIntercept := true, maxIter := 1000, tol := lit (1 / 1000), shuffle := true, verbose := 0,
      randomState := -1, warmStart := false, average := false, loss := "epsilon_insensitive", epsilon := lit (1 / 10),
      classWeight := "", fitted := false }

/-- `NewPassiveAggressiveClassifier` (`sklearn/linear_model/passive_aggressive.go:111-132`) -/
def newPAClassifier (lit : Rat → α) (opts : List (PAOption α)) : PA α :=
  opts.foldl PAOption.apply
    { C := lit 1, fitIntercept := true, maxIter := 1000, tol := lit (1 / 1000), shuffle := true, verbose := 0,
      randomState := -1, warmStart := false, average := false, loss := "hinge", epsilon := lit 0,
      classWeight := "none", fitted := false }

/-- `GetParams` of the regressor (`sklearn/linear_model/passive_aggressive.go:715-730`) -/
def PA.regParams (s : PA α) : List (String × PVal α) :=
  [("C", .flt s.C), ("fit_intercept", .bool s.fitIntercept), ("max_iter", .int s.maxIter), ("tol", .flt s.tol),
   ("shuffle", .bool s.shuffle), ("verbose", .int s.verbose), ("random_state", .int64 s.randomState),
   ("warm_start", .bool s.warmStart), ("average", .bool s.average), ("loss", .str s.loss), ("epsilon", .flt s.epsilon),
   ("fitted", .bool s.fitted)]

/-- `GetParams` of the classifier (`sklearn/linear_model/passive_aggressive.go:733-748`) -/
def PA.clfParams (s : PA α) : List (String × PVal α) :=
  [("C", .flt s.C), ("fit_intercept", .bool s.fitIntercept), ("max_iter", .int s.maxIter), ("tol", .flt s.tol),
   ("shuffle", .bool s.shuffle), ("verbose", .int s.verbose), ("random_state", .int64 s.randomState),
   ("warm_start", .bool s.warmStart), ("average", .bool s.average), ("loss", .str s.loss),
   ("class_weight", .str s.classWeight), ("fitted", .bool s.fitted)]

/-! ## Logistic regression and decision trees -/

/-- an option of `NewLogisticRegression` (`sklearn/linear_model/logistic.go:55,120-174`) -/
inductive LROption (α : Type _)
  | penalty (s : String)
  | C (x : α)
  | fitIntercept (b : Bool)
  | solver (s : String)
  | maxIter (n : Int)
  | tol (x : α)
  | randomState (n : Int)

/-- what the option does (`sklearn/linear_model/logistic.go:120-174`) -/
def LROption.apply (s : Logistic.Params α) : LROption α → Logistic.Params α
  | .penalty v => { s with penalty := v }
  | .C v => { s with C := v }
  | .fitIntercept v => { s with fitIntercept := v }
  | .solver v => { s with solver := v }
  | .maxIter v => { s with maxIter := v }
  | .tol v => { s with tol := v }
  | .randomState v => { s with randomState := v, randomSeed := v }

/-- `NewLogisticRegression` (`sklearn/linear_model/logistic.go:60-93`); `crypto` is the number `crypto/rand` draws -/
def newLogistic (lit : Rat → α) (crypto : Int) (opts : List (LROption α)) : Logistic.Params α :=
  let s := opts.foldl LROption.apply
    { penalty := "l2", C := lit 1, fitIntercept := true, interceptScaling := lit 1, classWeight := "none",
      randomState := -1, solver := "lbfgs", maxIter := 100, multiClass := "auto", verbose := 0, warmStart := false,
      l1Ratio := lit (1 / 2), tol := lit (1 / 10000), randomSeed := 0 }
  if 0 ≤ s.randomState then { s with randomSeed := s.randomState } else { s with randomSeed := crypto }

/-- an option of `NewDecisionTreeClassifier` (`sklearn/tree/tree.go:53,80-112`) -/
inductive TreeOption
  | criterion (s : String)
  | maxDepth (n : Int)
  | minSamplesSplit (n : Int)
  | minSamplesLeaf (n : Int)
  | randomState (n : Int)

/-- what the option does (`sklearn/tree/tree.go:80-112`) -/
def TreeOption.apply (s : Settings.TreeParams α) : TreeOption → Settings.TreeParams α
  | .criterion v => { s with criterion := v }
  | .maxDepth v => { s with maxDepth := v }
  | .minSamplesSplit v => { s with minSamplesSplit := v }
  | .minSamplesLeaf v => { s with minSamplesLeaf := v }
  | .randomState v => { s with randomState := v }

/-- `NewDecisionTreeClassifier` (`sklearn/tree/tree.go:56-75`) -/
def newTree (lit : Rat → α) (opts : List TreeOption) : Settings.TreeParams α :=
  opts.foldl TreeOption.apply (Settings.TreeParams.default (lit 0))

/-- an option of `NewLinearRegression` (`sklearn/linear_model/linear_regression.go:64-99`) -/
inductive LMOption
  | fitIntercept (b : Bool)
  | normalize (b : Bool)
  | copyX (b : Bool)
  | nJobs (n : Int)
  | positive (b : Bool)

/-- what the option does (`sklearn/linear_model/linear_regression.go:67-99`) -/
def LMOption.apply (s : Linear.LM α) : LMOption → Linear.LM α
  | .fitIntercept v => { s with fitIntercept := v }
  | .normalize v => { s with normalize := v }
  | .copyX v => { s with copyX := v }
  | .nJobs v => { s with nJobs := v }
  | .positive v => { s with positive := v }

/-- `NewLinearRegression` (`sklearn/linear_model/linear_regression.go:43-61`) -/
def newLinear [Zero α] (opts : List LMOption) : Linear.LM α :=
  opts.foldl LMOption.apply (Linear.LM.new true false true 1 false)

/-! ## Multinomial naive Bayes -/

/-- an option of `NewMultinomialNB` (`sklearn/naive_bayes/multinomial_nb.go:67-88`); a nil prior is `none` -/
inductive NBOption (α : Type _)
  | alpha (x : α)
  | fitPrior (b : Bool)
  | classPrior (p : Option (List α))

/-- what the option does (`sklearn/naive_bayes/multinomial_nb.go:70-88`) -/
def NBOption.apply (s : NaiveBayes.NB α) : NBOption α → NaiveBayes.NB α
  | .alpha v => { s with alpha := v }
  | .fitPrior v => { s with fitPrior := v }
  | .classPrior v => { s with classPrior := v, fitPrior := false }

/-- `NewMultinomialNB` (`sklearn/naive_bayes/multinomial_nb.go:45-63`) -/
def newNB (lit : Rat → α) (opts : List (NBOption α)) : NaiveBayes.NB α :=
  opts.foldl NBOption.apply (NaiveBayes.NB.new (lit 1) true none)

/-! ## Mini-batch k-means and drift detectors -/

/-- an option of `NewMiniBatchKMeans` (`sklearn/cluster/minibatch_kmeans.go:99-145`), for counts that are not negative -/
inductive KMOption (α : Type _)
  | nClusters (n : Nat)
  | init (s : String)
  | maxIter (n : Nat)
  | batchSize (n : Nat)
  | randomState (n : Int)
  | tol (x : α)

/-- the settings of a clusterer: those that the code uses and the seed (`sklearn/cluster/minibatch_kmeans.go:28-39`); `initSize`,
`verbose` and `reassignmentRatio` influence nothing -/
structure KMSettings (α : Type _) where
  params : KMeans.Params α
  randomState : Int

/-- what the option does (`sklearn/cluster/minibatch_kmeans.go:102-145`) -/
def KMOption.apply (s : KMSettings α) : KMOption α → KMSettings α
  | .nClusters v => { s with params := { s.params with nClusters := v } }
  | .init v => { s with params := { s.params with init := v } }
  | .maxIter v => { s with params := { s.params with maxIter := v } }
  | .batchSize v => { s with params := { s.params with batchSize := v } }
  | .randomState v => { s with randomState := v }
  | .tol v => { s with params := { s.params with tol := v } }

/-- `NewMiniBatchKMeans` (`sklearn/cluster/minibatch_kmeans.go:56-96`) -/
def newKMeans (lit : Rat → α) (opts : List (KMOption α)) : KMSettings α :=
  opts.foldl KMOption.apply
    ⟨{ nClusters := 8, init := "k-means++", maxIter := 100, batchSize := 100, computeLabels := true, tol := lit 0,
       maxNoImprovement := 10, nInit := 3 }, -1⟩

/-- an option of `NewDDM` (`sklearn/drift/ddm.go:61-82`) -/
inductive DDMOption (α : Type _)
  | minNumInstances (n : Int)
  | warningLevel (x : α)
  | outControlLevel (x : α)

/-- what the option does (`sklearn/drift/ddm.go:64-82`) -/
def DDMOption.apply (s : Drift.DDM α) : DDMOption α → Drift.DDM α
  | .minNumInstances v => { s with minNumInstances := v }
  | .warningLevel v => { s with warningLevel := v }
  | .outControlLevel v => { s with outControlLevel := v }

/-- `NewDDM` (`sklearn/drift/ddm.go:44-58`) -/
def newDDM [Zero α] (lit : Rat → α) (opts : List (DDMOption α)) : Drift.DDM α :=
  opts.foldl DDMOption.apply (Drift.DDM.new 30 (lit 2) (lit 3))

/-- an option of `NewADWIN` (`sklearn/drift/ddm.go:260-274`) -/
inductive ADWINOption (α : Type _)
  | delta (x : α)
  | maxBuckets (n : Int)

/-- what the option does (`sklearn/drift/ddm.go:263-274`) -/
def ADWINOption.apply (s : Drift.ADWIN α) : ADWINOption α → Drift.ADWIN α
  | .delta v => { s with delta := v }
  | .maxBuckets v => { s with maxBuckets := v }

/-- `NewADWIN` (`sklearn/drift/ddm.go:245-257`) -/
def newADWIN [Zero α] (lit : Rat → α) (opts : List (ADWINOption α)) : Drift.ADWIN α :=
  opts.foldl ADWINOption.apply (Drift.ADWIN.new (lit (2 / 1000)) 1000)

end Scigo.Options
