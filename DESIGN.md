# Formal model of scigo in Lean 4 — design

Source: `/repo` (Go), read as text. Nothing here builds or runs the Go code.
Proofs: `/verif/lean`, Lean 4.33.0 with Mathlib (imported one module at a time).

## 1. How Go is modelled

* **Functions** are small total Lean functions. Loops over `0..n-1` are folds over
  `List.range n` (or over the list itself); recursion that the Go code does not bound is
  written with explicit fuel returning `Option`, and non-termination is then
  "`none` for every fuel".
* **Errors and panics** are values: `Outcome α = ok a | err e | panic msg`
  (`Verif/Base/Outcome.lean`). Out-of-range indexing, failed type assertions, nil
  dereference and gonum's own panics (`ErrZeroLength`, …) are explicit `panic` branches.
  `defer Recover(&err, op)` is the function `recovered`, which turns `panic` into `err`.
* **Mutable objects** (estimators) are structures; a method is a function from the old
  structure to the new structure and the outcome, so partial updates before an error
  remain visible.
* **Shared memory**: where aliasing is observable (tensors, exported weights, pooled
  buffers) the model has an explicit heap of slices.
* **Goroutines** are small-step state machines: a configuration holds shared memory and,
  per goroutine, the list of atomic steps still to run; a schedule is any sequence of
  enabled steps. Theorems quantify over all schedules.
* **Crashes**: a save is the list of its writes; a crash point is any prefix of it.
* **Go maps** with randomised iteration order, `sort.Slice` (unstable) and `rand` are
  modelled by quantifying over *every* order / every sorted permutation / every random
  choice. The parameter `iter` with `MapKeys iter` is "range over a map".
* **Matrices** (`gonum/mat`) are `Mat α`: dimensions and an entry function.
  Properties only talk about in-range entries.
* **`int`** is `Int`/`Nat` without wrap-around (Go: 64-bit), except where overflow is the
  subject (`Verif/Performance`, C70 and C98).
* **External numerical code** (gonum's `Inverse`, `QR`, L-BFGS; `math.Exp` …) enters as a
  parameter; theorems state the contract they need.

### Floating point

`float64` cannot be reasoned about as a field. The model functions are therefore written
over an arbitrary carrier `α` that only has the operations used (`+ - * / <` …, as
separate instance arguments). Kinds of theorems:

1. **law-free**: hold for every carrier, hence bit-exactly for IEEE-754 binary64
   (control flow, counting, indexing, order of updates, equality of two computations);
2. **law-free over a linear order**: comparisons are total, so no NaN;
3. **exact arithmetic**: hold for `ℝ` or any ordered field (algebraic identities and
   inequalities). What is *not* claimed: rounding, overflow, NaN. The manifest note then
   says "Exact arithmetic: floating-point rounding is not modelled";
4. **rounded arithmetic**: over `Fl R` (`Verif/Base/Round.lean`), the numbers that an
   arbitrary monotone rounding `R` leaves unchanged, with every operation rounded; binary64
   with round-half-even, 53 bits and gradual underflow is an instance that computes
   (`Verif/Base/Binary64.lean`, also used for witnesses). *Not* claimed: overflow, NaN, the
   sign of zero, and fused multiply-add, which Go may use on some architectures;
5. **binary64 with overflow**: over `F64` (`Verif/Base/F64.lean`), the finite binary64
   numbers up to the largest one, two infinities and one NaN, operations as in IEEE 754. One
   zero only, so the sign of zero is *not* claimed, nor fused multiply-add;
6. **special values**: over `XReal` (`Verif/Base/XReal.lean`: reals with NaN and ±∞) or a
   small carrier with an incomparable value, where NaN or an infinity is the point.

Each theorem's docstring says which kind it is.

## 2. Layout

`lean/Verif/<Area>/Model.lean` (and further model files) — the model, each definition
citing file and lines. `Spec.lean` — independent vocabulary for the statements, where
needed. `Lemmas.lean` — helper lemmas. `*Props.lean` — the property theorems, each with
an `example` showing a concrete case that meets its hypotheses (for `Wrapper`, in
`Examples.lean`). `Base/` — outcomes, matrices, loops, sorting, extended reals.

| Area | Models |
|---|---|
| Boost | objectives, early stopping, callbacks and `Train`/`Booster` of `sklearn/lightgbm` and `sklearn/lightgbm/api` |
| CV | `cross_validation.go` |
| Dataset | `api/dataset.go` |
| Drift | `sklearn/drift/ddm.go` (DDM, ADWIN) |
| EFB | `efb.go` |
| Errors | `pkg/errors` recovery and numerical guards |
| Eval | `evaluation_metrics.go` |
| Hist | `histogram_optimization.go`, `parallel_histogram.go`, sort of `performance.go` |
| KMeans | `sklearn/cluster/minibatch_kmeans.go` |
| LGB | trees, models, loaders (text, JSON, leaves), predictors of `sklearn/lightgbm` |
| Linear | `linear/regression.go`, `sklearn/linear_model/linear_regression.go`, weights |
| Log | `pkg/log` |
| Api | `sklearn/lightgbm/api` Train, QuickTrain, callbacks |
| Logistic, Online | `sklearn/linear_model` logistic, SGD, passive-aggressive |
| Metrics | `metrics/` |
| NaiveBayes | `sklearn/naive_bayes` |
| Parallel, State | `core/parallel`, `core/model/state_manager.go` |
| ParamMap | parameter names, `GetParams`/`SetParams` of the LightGBM estimators |
| Performance | `performance/` |
| Persist | `core/model/persistence.go`, truncation of text models |
| Pipeline | `sklearn/pipeline` |
| Preprocessing | scalers and encoder |
| Overflow | metrics, scalers, probabilities, tree thresholds and linear predictions in binary64 with infinities and NaN |
| Round | metrics, scalers, tree thresholds, probabilities and linear predictions with every operation rounded |
| Quick | `quick.go` |
| Scores | `Score` methods, options of LinearRegression |
| Shap | `shap.go` |
| Stream | `FitStream`, `PredictStream`, `FitPredictStream` |
| Tensor | `core/tensor` |
| Trainer | `trainer.go`, sampling and regularisation of `trainer_params.go` |
| Tree | `sklearn/tree` |
| Wrapper | `lgbm_classifier.go`, `lgbm_regressor.go` on top of Trainer and LGB |

## 3. Plan per property

What is modelled is in the file(s) named; the second column says how it is proved, or what is
missing. "partial" with "False of the code" means the property as stated does not hold: the
negation is proved with a concrete witness, and a theorem with the suffix `_partial` proves
what does hold. No property is "not applicable". Full statements: `properties.jsonl`; theorem
names: `MANIFEST.json`.

| Property | Status | Theorems in | How, and what is missing |
|---|---|---|---|
| C01 Parallelize hands out every index exactly once | proved | `Parallel/Props.lean` | Law-free. |
| C02 Parallel row processing gives the sequential result under every schedule | proved | `Parallel/Props.lean` | Workers' atomic writes interleaved arbitrarily; Go memory model: each action on a cell is atomic, WaitGroup gives the happens-before edge. |
| C03 State manager observers never see a torn state | proved | `State/Props.lean` | Field accesses interleave one at a time under the RWMutex contract. Caller code under the lock (WithState, WithStateMut) is C249, which also covers the rule that a waiting Lock holds back new readers. |
| C04 No panic crosses a method that defers Recover | proved | `Errors/Props.lean` | Go's unrecoverable failures (stack exhaustion, concurrent map write, os.Exit, Goexit) are outside the model, as they are outside recover(). |
| C05 Numerical guard rails: clipping, safe division and gradient clipping | proved | `Errors/Props.lean` | ClipValue for any linear order (exact on non-NaN floats); SafeDivide/ClipGradient in exact real arithmetic: float rounding of the norm is not modelled. |
| C06 LogSumExp computes log of the sum of exponentials | proved | `Errors/Props.lean` | Exact arithmetic on finite numbers and -Inf. +Inf entries, NaN and rounding: see C325. |
| C07 CheckMatrix and CheckNumericalStability report exactly the unstable inputs | proved | `Errors/Props.lean` | Law-free. |
| C08 MSE, RMSE, MAE are errors: non-negative, symmetric, zero exactly on equality | proved | `Metrics/RegProps.lean`, `Metrics/ValueProps.lean` | Exact arithmetic: floating-point rounding is not modelled. |
| C09 R2 is at most 1, equals 1 exactly for perfect prediction, and is 0 for the mean predictor | proved | `Metrics/RegProps.lean`, `Metrics/ValueProps.lean` | Exact arithmetic: floating-point rounding is not modelled. |
| C10 Metrics do not depend on sample order | proved | `Metrics/RegProps.lean`, `Metrics/ClsProps.lean`, `Metrics/AucProps.lean` | AUC, error rate and accuracy law-free (bit-exact without NaN); the sums of MSE, MAE, R2, MAPE, explained variance and log loss in exact arithmetic, where reordering does not change rounding. |
| C11 AUC is the Mann-Whitney statistic | proved | `Metrics/AucProps.lean` | Exact arithmetic: floating-point rounding is not modelled. Scores without NaN. sort.Slice by its contract (any rearrangement of ties). |
| C12 AUC depends only on the ranking | proved | `Metrics/AucProps.lean` | Exact arithmetic: floating-point rounding is not modelled. |
| C13 Log loss is finite, non-negative and minimised by the truth | proved | `Metrics/ClsProps.lean` | Exact arithmetic: floating-point rounding is not modelled. |
| C14 Accuracy and error rate are complementary fractions | proved | `Metrics/ClsProps.lean` | Error count law-free; complement in exact arithmetic. |
| C15 NDCG is a normalised score | proved | `Metrics/RankProps.lean`, `Metrics/NdcgMatrix.lean` | Exact arithmetic: floating-point rounding is not modelled. |
| C16 Average precision is a fraction, and is order-independent without ties | proved | `Metrics/RankProps.lean`, `Metrics/ValueProps.lean` | Exact arithmetic: floating-point rounding is not modelled. ap_ties_order_dependent shows that with tied scores the value does depend on sample order. |
| C17 MAPE ignores zero targets and scales out | proved | `Metrics/RegProps.lean`, `Metrics/ValueProps.lean` | Exact arithmetic: floating-point rounding is not modelled. |
| C18 StandardScaler produces mean 0 and variance 1 columns | proved | `Preprocessing/Props.lean` | Exact arithmetic: floating-point rounding is not modelled. |
| C19 Scalers are invertible | proved | `Preprocessing/Props.lean` | Exact arithmetic: floating-point rounding is not modelled. |
| C20 MinMaxScaler maps the training data onto the requested range | proved | `Preprocessing/Props.lean` | Exact arithmetic: floating-point rounding is not modelled. |
| C21 Fit/Transform protocol of the scalers and encoder | proved | `Preprocessing/Props.lean` | Law-free: holds for float64 bit patterns. |
| C22 One-hot encoding is exact | proved | `Preprocessing/Props.lean` | Law-free. Strings are an arbitrary linearly ordered type. |
| C23 One-hot category layout is independent of row order and map iteration order | proved | `Preprocessing/Props.lean` | Law-free; map iteration and sort.Strings by contract. |
| C24 DDM drift protocol | proved | `Drift/Props.lean` | Law-free except ddm_drift_implies_warning (exact arithmetic, any non-negative square root). Each method holds the mutex, so calls are atomic steps. |
| C25 DDM tracks the minimum of the error level | proved | `Drift/Props.lean` | Law-free over any linear order (no NaN arises: rates lie in [0,1]). |
| C26 DDM can report drift in its statistics | partial | `Drift/Props.lean` | False as stated: Update resets the detector before returning a drift, so the statistics flag is never true (ddm_drift_statistics_false gives the witness). Proved: no drift or warning on error-free segments; the warning flag agrees. |
| C27 ADWIN's statistics describe a window of the most recent values | proved | `Drift/Props.lean` | Exact arithmetic: floating-point rounding is not modelled. |
| C28 ADWIN memory is bounded and compresses exponentially | partial | `Drift/Props.lean` | The bucket bound holds; exponential compression is false: buckets never exceed 2 samples and the window never exceeds 2*maxBuckets. |
| C29 ADWIN never signals drift on a constant stream | proved | `Drift/Props.lean` | Exact arithmetic: floating-point rounding is not modelled. |
| C30 MultinomialNB incremental learning equals batch learning | proved | `NaiveBayes/Props.lean` | Law-free: holds for float64 bit patterns. Map iteration by contract. |
| C31 MultinomialNB probabilities are a distribution and Predict is their argmax | proved | `NaiveBayes/Props.lean` | Exact arithmetic: floating-point rounding is not modelled. Over reals extended with NaN and infinities, so unseen classes (log prior -Inf) are covered; training data finite. |
| C32 MultinomialNB input validation | partial | `NaiveBayes/Props.lean` | Holds for PartialFit and the prediction methods. False for Fit: it resets the model before validating, so a rejected Fit loses everything learned (fit_reject_forgets). |
| C33 Decision tree growth terminates within its limits | proved | `Tree/Props.lean` | Law-free (float64 bit patterns) for minSamplesLeaf >= 1; termination for minSamplesLeaf <= 0 in exact arithmetic. Go stack depth not modelled. |
| C34 Decision tree predictions are training labels with a proper distribution | proved | `Tree/Props.lean` | Law-free, except that probabilities sum to 1 in exact arithmetic. Queries narrower than the training data panic in the code (example in Props.lean). |
| C35 Decision tree splits strictly decrease impurity and importances are normalised | proved | `Tree/Props.lean` | Exact arithmetic: floating-point rounding is not modelled. |
| C36 MiniBatchKMeans assigns to a nearest centre and keeps centres in the data hull | proved | `KMeans/Props.lean` | Exact arithmetic: floating-point rounding is not modelled. Randomness is an arbitrary oracle. predict_argmin_transform is law-free over a linear order. |
| C37 MiniBatchKMeans can be updated after Fit | partial | `KMeans/Props.lean` | False as stated: Fit never sets the counters, so PartialFit after Fit on a fresh model panics (proved law-free). Holds if an earlier PartialFit had made the counters. |
| C38 Pipeline is the composition of its steps | proved | `Pipeline/Props.lean` | Law-free: for arbitrary estimators acting on an arbitrary shared world (steps may share an object); panics propagate. |
| C39 Pipeline inverse undoes its transform | proved | `Pipeline/Props.lean` | Law-free. |
| C40 Linear regression solves the least-squares problem | proved | `Linear/Props.lean` | gonum's Inverse enters by contract (nil error: exact inverse; fit_ok_iff also: error means singular). Exact arithmetic: floating-point rounding is not modelled. |
| C41 A failed refit leaves a fitted linear regression usable | partial | `Linear/Props.lean` | False of the code: NFeatures is overwritten (linear/regression.go:144) before the singular-matrix error, so after a failed refit on another width every Predict on the old width fails (failed_refit_breaks_predict). Proved for histories on one width and for rejections by the shape checks. |
| C42 Cloning or exporting a fitted LinearRegression preserves predictions | partial | `Linear/Props.lean` | False of the code: ExportWeights stores n_features as int, ImportWeights expects float64, so Clone and in-memory import into a new model give a model whose Predict rejects everything; a checksum failure is reported after the weights were overwritten. The JSON route and same-width imports are proved to preserve predictions. SHA-256 is an arbitrary function; JSON syntax is not modelled. |
| C43 ModelWeights validation and deep copy | partial | `Linear/Props.lean` | Clone copies the two maps one level deep: slices or maps stored as values stay shared (clone_shares_nested). Independence is proved when all values are scalars. |
| C44 SGD updates follow the gradient of the configured loss | proved | `Online/Props.lean` | Exact arithmetic: floating-point rounding is not modelled. partialFit_split and partialFit_wrong_width are law-free. |
| C45 Passive-aggressive updates are minimal corrections | partial | `Online/PAProps.lean`, `Online/PAStep.lean` | Proved without intercept (both models). False with an intercept: the step length ignores the intercept coordinate, so the step is not the minimiser (pa_with_intercept_false). Exact arithmetic: floating-point rounding is not modelled. |
| C46 Logistic regression probabilities and labels are consistent | proved | `Logistic/FitProps.lean` | gonum's L-BFGS enters by contract (on success the returned point has the start's length and a gradient below tol). Predict does not check the width: narrower data panics, extra columns are ignored. Exact arithmetic: floating-point rounding is not modelled. |
| C47 Tree traversal returns exactly one leaf and never loops | proved | `LGB/TreeProps.lean` | Law-free (any carrier with comparisons): every node array with children after their parent or outside the array. |
| C48 Model JSON round trip preserves predictions | partial | `LGB/JsonProps.lean` | False of the code in general: the initial score is not written, categorical splits come back as numerical ones and multiclassova comes back as softmax (three counterexample theorems). Proved for numerical trees without initial score. -0 and 0 identified. |
| C49 Text model round trip preserves predictions | partial | `LGB/TextProps.lean` | False of the code for every trained model: after SaveToText and loading every prediction is the transformation of zero scores, since leaf values of leaf nodes and the initial score are not restored. What holds: the structure survives, so PredictLeaf is unchanged on samples without NaN. Printing and scanning of lines is not modelled. |
| C50 The leaves loader compiles LightGBM trees correctly | proved | `LGB/LeavesProps.lean` | Law-free in the carrier. For every tree-shaped block (any size, any numbering). The line scanner is not modelled. Categorical splits: see C94. |
| C51 The JSON loader compiles LightGBM trees correctly | partial | `LGB/LeavesJsonProps.lean` | False: a split whose two children are splits is compiled wrongly (right child assumed at index+1, but the left subtree is there). Holds when every split has a leaf among its children. |
| C52 Parallel prediction equals sequential prediction | proved | `LGB/PredictParallelProps.lean`, `LGB/BatchProps.lean` | Law-free; every interleaving of the goroutines. |
| C53 Every prediction entry point agrees | partial | `LGB/EnsembleProps.lean` | False of the code in general: Model.Predict ignores the shrinkage that Predictor and SimplePredictor apply (entry_points_disagree). Proved: Model.Predict is the link of PredictRawScore; SimplePredictor agrees without positive shrinkage; Predictor is within 2 epsilon per tree when the shrinkage is 1. Exact arithmetic: floating-point rounding is not modelled. |
| C54 Boosting training terminates and respects its limits | partial | `Trainer/GrowProps.lean` | False of the code: training may not end (MinGainToSplit = 0 or more values than bins, no depth limit), NumLeaves and MinDataInLeaf may be violated. Proved: MaxDepth is respected and suffices for termination; with as many bins as values and a positive minimum gain training ends and MinDataInLeaf holds. Exact arithmetic: floating-point rounding is not modelled. |
| C55 Objective gradients are derivatives of the reported loss | proved | `Boost/ObjectiveProps.lean` | Exact arithmetic: floating-point rounding is not modelled. |
| C56 Objective initial scores minimise the loss over constants | partial | `Boost/InitProps.lean` | False of the code for quantile levels other than 1/2: loss and initial score use opposite levels. Exact arithmetic: floating-point rounding is not modelled. |
| C57 Binary log loss objective reports the cross entropy | partial | `Boost/ObjectiveProps.lean` | False of the code for non-negative raw scores; the gradient is that of the cross entropy everywhere. Exact arithmetic: floating-point rounding is not modelled. |
| C58 Early stopping stops exactly after the configured number of rounds without improvement | proved | `Boost/EarlyStopProps.lean` | Law-free over any linear order of scores; NaN is modelled as an incomparable value. |
| C59 Training with early stopping returns a model | partial | `Boost/TrainProps.lean` | False of the code: with validation data and enough rounds Train always returns (nil, ErrEarlyStop), because all trees are built in the first iteration and the later scores repeat it. Characterised exactly for one validation set. |
| C60 KFold partitions the samples | proved | `CV/Props.lean` | For every shuffle permutation. |
| C61 StratifiedKFold preserves class proportions | proved | `CV/Props.lean` | For every partial equivalence of labels (NaN labels included), map order and shuffle. |
| C62 Exclusive feature bundling is lossless | partial | `EFB/Props.lean` | False in general: negative values are lost, values from 1000 on move to another feature, fewer than two sparse columns overlay all columns (round_trip_fails). Proved for at least two sparse columns, no conflicts allowed and values of sparse columns 0 or in (1e-10, 1000). Exact arithmetic: floating-point rounding is not modelled. |
| C63 Histogram construction conserves gradients and counts | proved | `Hist/Props.lean`, `Hist/MergeProps.lean`, `Hist/EdgeProps.lean` | fill_count and categorical_histogram hold for every arithmetic. With a NaN gradient the compare-and-swap loops may never end (merge_nan_hangs). Exact arithmetic: floating-point rounding is not modelled. |
| C64 Best split really is best | proved | `Hist/SplitProps.lean`, `Hist/GreedyProps.lean`, `Hist/EdgeProps.lean` | split_is_best, categorical_split_is_best and pick_is_best hold for every arithmetic on a linear order. Exact arithmetic: floating-point rounding is not modelled. |
| C65 SHAP values explain the prediction | partial | `Shap/Props.lean` | False: the means of the leaves are dropped, repeated features count twice, the learning rate does not match the prediction, the base value is 0 without trees (shap_not_additive). shap_sum gives the exact value of base value plus SHAP values for numerical trees; shap_additive_partial what it explains when no path repeats a feature. Exact arithmetic: floating-point rounding is not modelled. |
| C66 Confusion-matrix identities | proved | `Eval/Props.lean` | Exact arithmetic: floating-point rounding is not modelled. |
| C67 Tensor reshape and copy semantics | proved | `Tensor/Props.lean` | Element values are opaque. Heap of slices modelled explicitly. |
| C68 Memory-mapped dataset chunks round trip | proved | `Performance/MemoryMapProps.lean` | Byte-level model; bit reinterpretation of float64 and numeric conversions are parameters. |
| C69 Matrix pool never shares a live buffer | partial | `Performance/PoolProps.lean` | Sharing, zeroing and counting hold under every interleaving. ToMat is false for a recycled larger buffer: it panics. |
| C70 Memory budget is never exceeded | partial | `Performance/MemoryProps.lean` | False for requests so large that used+size overflows int64; holds otherwise. |
| C71 Column-major relayout is a transposition | proved | `Performance/MemoryProps.lean` | Law-free. |
| C72 Parameter names round trip | proved | `ParamMap/Props.lean` | strings.ToLower is a parameter. Values of other types are one constructor. |
| C73 Decision tree training does not depend on row order | proved | `Tree/Props.lean` | Law-free over a linear order (no NaN). |
| C74 MiniBatchKMeans labels, inertia and predictions agree | proved | `KMeans/Props.lean` | Exact arithmetic: floating-point rounding is not modelled. |
| C75 A rejected MiniBatchKMeans.Fit leaves the model as it was | partial | `KMeans/Props.lean` | False as stated: the rejected Fit overwrites the expected width. Holds when the rejected data has the trained width. Law-free. |
| C76 How MiniBatchKMeans data is cut into batches does not matter | proved | `KMeans/Props.lean` | Law-free: bit-exact. |
| C77 Pipeline.FitTransform is Fit followed by Transform | partial | `Pipeline/Props.lean` | False as stated: a Go type has one Fit method, and Fit and FitTransform require different signatures of the last step, so on a non-empty pipeline at most one of them can ever succeed. Proved: FitTransform's result is that of Transform right after it, for steps sharing no state. |
| C78 A failed refit leaves a fitted pipeline's predictions unchanged | partial | `Pipeline/Props.lean` | False as stated (concrete witness): transformers before the failing step are already retrained and the fitted flag stays. Holds when the first step itself rejects. |
| C79 Pipeline steps are reachable by name | proved | `Pipeline/Props.lean` | namedStep_duplicate: New accepts duplicate names, and then the later step hides the earlier. |
| C80 scikit-learn JSON files of linear.LinearRegression round trip | proved | `Linear/Props.lean` | JSON syntax and float formatting (Go prints shortest round-tripping decimals) are not modelled: a document is its decoded fields; non-finite numbers make the export fail. export_after_failed_refit_rejected records that the state left by a failed refit on another width exports an unloadable document. |
| C81 linear_model.LinearRegression solves the least-squares problem | proved | `Linear/Props.lean` | gonum's QR solve enters by contract (nil error: least-squares solution). With fewer rows than columns Fit panics. Exact arithmetic: floating-point rounding is not modelled. |
| C82 The positive option gives the best non-negative coefficients | partial | `Linear/Props.lean` | False of the code: negative coefficients of the unconstrained solution are clamped to 0, which is not the constrained optimum (positive_not_optimal). Non-negativity is proved, and optimality when the constraint is inactive (with C81). Exact arithmetic: floating-point rounding is not modelled. |
| C83 Streaming learners process every batch once, in order, test before train | proved | `Stream/Props.lean` | Law-free, for arbitrary Predict/PartialFit; no other goroutine uses the same model. Fairness of select is not modelled: after cancellation a loop may still take waiting batches first. |
| C84 SGDRegressor.Fit visits every row once per epoch and stops when it says | proved | `Online/FitProps.lean` | The random generator is an arbitrary oracle. epoch_visits_each_row_once is law-free; the stopping rule is in exact arithmetic: Exact arithmetic: floating-point rounding is not modelled. |
| C85 Refitting SGDRegressor without warm start forgets the past | partial | `Online/FitProps.lean` | False of the code: after a numerical instability eta0 is reduced and never restored, so a later Fit trains with another learning rate (concrete witness). Proved when no earlier call met an instability. |
| C86 SGDClassifier steps follow the gradient of the configured loss | partial | `Online/ClfProps.lean` | False of the code for logistic loss on misclassified samples: the derivative used is exp(margin) times the right one. Proved for hinge, squared hinge, modified Huber, perceptron, and logistic loss at margin >= 0. Exact arithmetic: floating-point rounding is not modelled. |
| C87 SGDClassifier probabilities, labels and decision values agree | partial | `Online/ClfProps.lean` | Proved when exp does not overflow. False for large scores: the softmax is not shifted by the maximum, so a score of 1000 gives NaN. Exact arithmetic: floating-point rounding is not modelled. |
| C88 A failed refit leaves a fitted logistic regression as it was | partial | `Logistic/FitProps.lean` | False of the code (concrete witness): a refused refit on another label set has already replaced classes and weights while the model still counts as fitted. Holds when the shapes are refused. |
| C89 Logistic regression training reaches the optimum it claims | proved | `Logistic/Props.lean`, `Logistic/FitProps.lean` | L-BFGS by contract: if it reports success the gradient there is below tol in every coordinate. Without warm start. Exact arithmetic: floating-point rounding is not modelled. |
| C90 Logistic regression parameters round trip | proved | `Logistic/FitProps.lean` | Law-free. |
| C91 A refused SetParams changes nothing | partial | `Logistic/FitProps.lean` | False of the code: parameters met before the unknown name stay changed. |
| C92 Model.Predict reports probabilities for binary objectives | proved | `LGB/TaylorProps.lean` | Exact arithmetic: floating-point rounding is not modelled. |
| C93 Model.Predict's probability exceeds one half exactly when the raw score is positive | partial | `LGB/TaylorProps.lean` | False of the code: the exponential is the power series up to the 20th power, so a raw score of 30 is reported as a probability below 1e-9. Proved for raw scores up to 8. Exact arithmetic: floating-point rounding is not modelled. |
| C94 Categorical splits of loaded models are honoured | partial | `LGB/LeavesJsonProps.lean` | False: loaded categorical splits send every value right. |
| C95 Loaded models predict single samples and batches alike | partial | `LGB/LeavesPredictProps.lean` | False for models with an initial score and at most two classes: PredictSingle leaves the initial score out, PredictBatch and PredictRaw add it. |
| C96 The text loader ends on every file | proved | `LGB/LeavesProps.lean` | For the loop over the parsed arrays; the line scanner is not modelled. |
| C97 LightGBM text files predict as LightGBM does | partial | `LGB/TextProps.lean` | False for Model.Predict, which gives 0 from every tree of every LightGBM text file (leaf references are negative). Predictor gives LightGBM's value for samples without missing values, up to its comparison tolerance. |
| C98 Submatrix views alias their parent and never leave the memory | partial | `Performance/MemoryProps.lean` | False for dimensions whose product overflows int64 (wild reads); holds for all others. |
| C99 Aligned buffers are aligned and long enough | proved | `Performance/MemoryProps.lean` | The address is a parameter divisible by 8. |
| C100 Memory-mapped data survives closing | proved | `Performance/MemoryMapProps.lean` | File system errors and crashes are not modelled. |
| C101 Stratified folds have balanced sizes | partial | `CV/Props.lean` | False of the code: the remainders of all classes go to the first folds. Proved: sizes differ by at most the number of classes. |
| C102 Cross-validation is schedule independent and does not leak the test fold | partial | `CV/ValidateProps.lean` | Schedule independence is proved for every interleaving. The leak part is false with early stopping, which uses the test fold as validation data; without early stopping the model depends on the training rows only. More folds than samples crash the process. |
| C103 Cross-validation reports the best fold | proved | `CV/ValidateProps.lean` | Scores in any linear order. |
| C104 Training with a validation set keeps the trees up to the best iteration | partial | `Boost/EarlyStopProps.lean` | False of the code when the iterations end before the patience, and for metrics where larger is better (the handler then maximises the loss). Characterised exactly. |
| C105 Callback patience counts iterations | partial | `Boost/EarlyStopProps.lean` | False of the code: callbacks run before and after every iteration with the same results, so patience is halved and patience 1 stops after one tree. |
| C106 api.Train builds the requested number of rounds | partial | `Boost/TrainProps.lean` | False of the code: the number of trees is the num_iterations parameter. |
| C107 WithNumIteration limits the trees used for prediction | partial | `Boost/BoosterProps.lean` | False of the code: prediction options are ignored. |
| C108 A cloned booster behaves like the original and is independent of it | partial | `Boost/BoosterProps.lean` | False of the code for loaded boosters, and the model is shared. |
| C109 Booster.FeatureImportance describes the current model | partial | `Boost/BoosterProps.lean` | False of the code after SetModel: the cache is not cleared. |
| C110 A loaded booster can be inspected and saved again | partial | `Boost/BoosterProps.lean` | False of the code for loaded boosters. |
| C111 Link-function objectives start from the best constant | partial | `Boost/InitProps.lean`, `Boost/NamesProps.lean` | False of the code for Tweedie (zero targets skipped in the mean) and Huber (mean). Exact arithmetic: floating-point rounding is not modelled. |
| C112 Multiclass softmax objective is consistent under every schedule | proved | `Boost/MultiProps.lean` | Exact arithmetic: floating-point rounding is not modelled. |
| C113 Macro-averaged precision, recall and F1 | partial | `Eval/Props.lean` | False of the code: the multiclass F1 is the harmonic mean of averaged precision and recall, not the average of F1. |
| C114 Tensor slices are live windows | proved | `Tensor/Props.lean` | Element values are opaque. |
| C115 Tensor shape agrees with its dimensions and T transposes | partial | `Tensor/Props.lean` | False of the code: NewTensor keeps the slice passed as shape, and T panics for every tensor. |
| C116 Hyperparameters can be copied between regressors | proved | `ParamMap/Props.lean` | strings.ToLower is a parameter that fixes the (lower case) canonical objective names. |
| C117 Classifier hyperparameters reported by GetParams can be set | partial | `ParamMap/Props.lean` | False of the code: LGBMClassifier.SetParams ignores objective, metric, verbosity and subsample_freq, which GetParams reports. |
| C118 Categorical splits are optimal over all subsets | partial | `Hist/GreedyProps.lean` | False of the code with L2 regularisation: categories are ordered by grad/(hess+lambda). Proved for reg_lambda = 0 and min_data_in_leaf <= 1. Exact arithmetic: floating-point rounding is not modelled. |
| C119 The split applied is the split evaluated | partial | `Hist/GreedyProps.lean`, `Hist/SplitProps.lean` | False of the code when a feature has more distinct values than max_bin, and with reg_alpha > 0. Exact arithmetic: floating-point rounding is not modelled. |
| C120 The hand-written quicksort sorts | proved | `Hist/QuickSort.lean` | The slice is a function from index to value. |
| C121 Training rows end where they were grouped | partial | `Trainer/GrowProps.lean` | rows_reach_their_leaf_partial holds for every arithmetic in which a NaN category does not occur; with NaN in a categorical feature the property is false (missing_category_misrouted). Exact arithmetic: floating-point rounding is not modelled. |
| C122 Leaf values are optimal | proved | `Trainer/FitProps.lean` | Exact arithmetic: floating-point rounding is not modelled. |
| C123 Row and feature subsampling draw the promised distinct indices | proved | `Trainer/SampleProps.lean` | The random generator is an arbitrary stream of draws. Bagging happens only in iterations divisible by the frequency. |
| C124 GOSS sampling keeps the large gradients and is unbiased | partial | `Trainer/SampleProps.lean` | False of the code: the small-gradient rows get total weight (1 - top_rate) * remaining instead of remaining. Exact arithmetic: floating-point rounding is not modelled. |
| C125 DART drops and normalises trees | partial | `Trainer/SampleProps.lean`, `Trainer/ServeProps.lean` | False of the code: Fit never calls the DART functions (boosting_type_ignored), and the selection panics for a drop rate above 1 without MaxDrop. Exact arithmetic: floating-point rounding is not modelled. |
| C126 Class weights balance the classes | proved | `Trainer/SampleProps.lean` | Exact arithmetic: floating-point rounding is not modelled. |
| C127 Monotone constraints are respected | partial | `Trainer/MonoProps.lean`, `Trainer/ServeProps.lean` | False of the code: Fit never calls the search that checks the constraints. Proved of that search itself. Exact arithmetic: floating-point rounding is not modelled. |
| C128 Boosting fits each tree to the gradients left by the previous ones | proved | `Trainer/FitProps.lean` | fit_boosts holds for every arithmetic. The recursion of the tree builder is bounded by a fuel argument; build_stable shows it is irrelevant once sufficient. Objectives multiclass and multiclass_native: one score per row, as the code computes. Exact arithmetic: floating-point rounding is not modelled. |
| C129 The returned model scores the training rows as the trainer did | partial | `Trainer/ServeProps.lean` | False of the code for a learning rate other than 1: the model ignores the rate. Exact arithmetic: floating-point rounding is not modelled. |
| C130 Training again starts over | partial | `Trainer/ServeProps.lean`, `Trainer/RefitProps.lean`, `?` | False of the code: trees and cached scores of the first Fit are kept. For a new trainer the result is that of fit_boosts. |
| C131 A bundling optimizer can be reused | partial | `EFB/Props.lean` | False with the default MaxBundles = 0, which the first call overwrites (optimizer_not_reusable); proved when MaxBundles is set. |
| C132 Bundles respect the limits and the mapping is faithful | proved | `EFB/Props.lean` | For every carrier; the sort is any function returning a permutation. |
| C133 SHAP interactions are symmetric | proved | `Shap/Props.lean` | For every carrier and every model, whenever the computation ends without a panic. |
| C134 A feature no tree uses has SHAP value 0 | proved | `Shap/Props.lean` | Exact arithmetic: a NaN or infinite learning rate, for which 0*lr is NaN, is not modelled. |
| C135 The provider's level is the threshold of its loggers | partial | `Log/Props.lean` | False of the code: slog numbers are passed as zerolog levels. setLevel_partial gives the threshold that results. |
| C136 A logger that is not Enabled writes nothing | proved | `Log/Props.lean` | Loggers obtained before SetLevel keep the old level (stale_logger_enabled); ToLogLevel panics on unknown names. |
| C137 Fields given to With appear in the entries of the derived logger | partial | `Log/Props.lean` | False of the code: With returns a logger without the fields. Proved for the field of GetLoggerWithName. |
| C138 The test logger captures every enabled call with its message | partial | `Log/Props.lean` | False for NaN and infinite values, and for fields named level or message. JSON encoding is modelled on the level of objects. |
| C139 With before a call equals fields in the call | proved | `Log/Props.lean` | Law-free. |
| C140 ContainsField finds what was logged | partial | `Log/Props.lean` | False for integers, which are read back as float64, and for errors. |
| C141 Concurrent logging through one test logger loses nothing | proved | `Log/Props.lean` | The mutex is a lock bit; a write to the buffer is two steps. |
| C142 Concurrent logging through derived test loggers loses nothing | partial | `Log/Props.lean` | False of the code: every derived logger has its own mutex. The lost entry is the model of a data race on the buffer; Go leaves the result open. |
| C143 Save then load gives the model back; a crash never gives a wrong one | proved | `Persist/Props.lean` | gob: message framing is modelled byte by byte, the encoding of the payload is an arbitrary lawful codec. The file system applies writes in order (no fsync in the code: a power failure may do otherwise). |
| C144 A save that fails keeps the model that was in the file | partial | `Persist/Props.lean` | False of the code: os.Create truncates the file first. Proved for a failure of os.Create. |
| C145 Loading replaces the whole content of the target | partial | `Persist/Props.lean` | False of the code: gob omits zero fields, which keep their old content. |
| C146 A truncated model file is rejected | partial | `Persist/Props.lean` | Proved for SaveModel files; false for the text form, which loads with fewer trees. |
| C147 A label column of zeros and ones is recognised as binary | partial | `Dataset/Props.lean` | False for fewer than eight rows. binary_iff holds for NaN labels too. |
| C148 GetSubset holds exactly the samples asked for | proved | `Dataset/Props.lean` | A short weight vector, which NewDataset accepts, makes GetSubset panic; the theorem asks for one weight per row. |
| C149 GetField returns what SetField stored | partial | `Dataset/Props.lean` | False for data, n_samples and n_features, and for a rejected label, which stays. |
| C150 CreateValidDatasets lists every dataset once, in order | proved | `Dataset/Props.lean` | Law-free. |
| C151 PredictLeaf numbers the leaves of a tree from left to right | proved | `LGB/LeafIndexProps.lean` | Law-free. |
| C152 Samples in different leaves have different leaf indices | partial | `LGB/LeafIndexProps.lean` | False for trees loaded from text files, where every sample has index 0. |
| C153 The task is chosen by the values, not their order | proved | `Quick/Props.lean` | isInt stands for val == float64(int(val)). |
| C154 AutoFit returns the best configuration it tried | partial | `Quick/Props.lean` | False if no score is above 0: the result has a nil model and Predict panics. Training and scoring are parameters. |
| C155 QuickCrossValidate reports mean and deviation of held-out scores | partial | `Quick/Props.lean` | False of the code: every fold trains and scores on all rows, and the second number lacks the square root. Exact arithmetic: floating-point rounding is not modelled. |
| C156 PrintSummary lists the most important features | proved | `Quick/Props.lean` | NaN importances are not modelled. |
| C157 Score of a classifier is the accuracy of Predict | partial | `Scores/Props.lean` | False of the code: a failing Predict of the tree scores 0, labels are compared without fractional part by naive Bayes and SGDClassifier, and both accept fewer labels than rows; the tree panics then. Proved for one whole-number label per row. LogisticRegression: C46. Exact arithmetic: floating-point rounding is not modelled. |
| C158 Score of a regressor is the coefficient of determination of Predict | proved | `Scores/Props.lean` | Fewer targets than rows: only the rows with targets are scored; more targets: panic. Exact arithmetic: floating-point rounding is not modelled. |
| C159 LinearRegression options read back as set | proved | `Scores/Props.lean` | For every carrier. |
| C160 A gradient boosting classifier predicts labels it has seen | proved | `Wrapper/Props.lean`, `Wrapper/RealProps.lean` | trained_knows is law-free; that probabilities are positive somewhere uses exact real arithmetic, so a model with NaN scores is outside (the code then returns 0, see predict_follows_proba). Exact arithmetic: floating-point rounding is not modelled. |
| C161 A failed training leaves the classifier as it was | partial | `Wrapper/Props.lean` | False of the code: classes and width are overwritten before training can fail. Proved: model, fitted flag and options are kept, and nothing changes when a shape or weight check fails. |
| C162 Predict is the class of highest probability, PredictLogProba the logarithm of PredictProba | proved | `Wrapper/Props.lean` | Law-free over a linear order; when no probability is positive the label is 0, stated in the theorem. NaN not modelled. |
| C163 Probabilities of a trained classifier are probabilities | proved | `Wrapper/RealProps.lean` | Exact real arithmetic; the deviation of the row sum is at most the number of classes times 1e-15. Exact arithmetic: floating-point rounding is not modelled. |
| C164 DecisionFunction returns raw scores | partial | `Wrapper/RealProps.lean` | False of the code: for every trained binary classifier the values are probabilities. Proved for objectives without link in Model.Predict. Exact arithmetic: floating-point rounding is not modelled. |
| C165 Which two integers name the classes does not matter | partial | `Wrapper/LabelProps.lean` | False of the code: the labels are passed to the logistic loss as they are; with labels of at least 1 every prediction is the larger class, whatever the data. Proved: labels 0 and 1 train the logistic loss of the class indicator. Exact arithmetic: floating-point rounding is not modelled. |
| C166 Trivial weights and the objective's own initial score change nothing | partial | `Wrapper/TrainProps.lean` | Proved for the classifier, and for the regressor when the boosting type is not goss; with goss it is false, see C167. Exact arithmetic: floating-point rounding is not modelled. |
| C167 The regressor uses its boosting type | partial | `Wrapper/TrainProps.lean` | False of the code: Fit ignores the boosting type, FitWeighted honours it. Equal for every boosting type other than goss. |
| C168 Training on well-shaped data succeeds and the result can predict | proved | `Wrapper/ServeProps.lean`, `Wrapper/RegProps.lean` | For every ordered field and every sort of the categories by ratio that permutes them. Exact arithmetic: floating-point rounding is not modelled. |
| C169 A failed training leaves the regressor as it was | partial | `Wrapper/RegProps.lean` | False of the code: the width is overwritten before an unknown objective is noticed. |
| C170 Predicted quantiles do not cross | partial | `Wrapper/RegProps.lean` | False of the code: the levels scale one prediction, so they cross where it is negative. Exact arithmetic: floating-point rounding is not modelled. |
| C171 Residual statistics agree with the residuals | proved | `Wrapper/RegProps.lean` | Rows of X beyond those of y are not counted; stated in the theorem. Exact arithmetic: floating-point rounding is not modelled. |
| C172 A saved and loaded classifier predicts the same labels | partial | `Wrapper/RegProps.lean` | False of the code: the file has no labels, so positions 0, 1, ... are predicted; LoadModel keeps stale classes for objectives other than binary and multiclass. Reading the file itself: C48, C49 and C146. |
| C173 Online models answer Predict after every training history | partial | `Online/SessionProps.lean`, `Online/SessionPA.lean`, `Online/SessionClf.lean`, `Online/SessionMore.lean` | Law-free. The histories exclude warm-started Fit on another width (which panics, or keeps leftover weights: warm_fit_wider_panics) and an empty list of classes given to the first PartialFit (Predict then panics: empty_classes_panic). |
| C174 Online training on labelled data never crashes and fixes the width | partial | `Online/SessionProps.lean`, `Online/SessionPA.lean`, `Online/SessionClf.lean`, `Online/SessionMore.lean` | Law-free. False of the code for a warm-started Fit on a wider matrix, which panics. |
| C175 Refitting the other online models without warm start forgets the past | proved | `Online/SessionClf.lean`, `Online/SessionPA.lean` | Law-free. The base learning rate counts as an option (SGDClassifier never changes it). SGDRegressor: C85. |
| C176 Splitting a batch into several PartialFit calls trains the same model | partial | `Online/SessionPA.lean`, `Online/SessionMore.lean` | Law-free. False of the classifiers if the first call is given no list of classes: the labels of the second batch are then unknown to the split model (paClf_split_false). |
| C177 The classes of an online classifier are fixed by its first training call | proved | `Online/ClassesProps.lean`, `Online/SessionClf.lean` | Law-free. |
| C178 PassiveAggressiveClassifier predicts the first class of greatest score | proved | `Online/SessionMore.lean` | For every linear order; NaN scores are not covered. |
| C179 LogisticRegression.Fit accepts exactly the settings its solver supports | proved | `Logistic/SettingsProps.lean` | Law-free; gonum's optimiser enters as a parameter. lr_unknown_penalty_ignored: with other solver names penalty l1 trains the same model as none. |
| C180 A training parameter given to api.Train takes effect | partial | `Api/ParamProps.lean`, `Api/ErrorProps.lean` | Law-free. False of the code: a value of another Go type (the integer 1 as learning_rate) is dropped without an error (param_dropped). |
| C181 The validation score of api.Train is the metric it is called | partial | `Api/MetricProps.lean` | False of the code: the score called binary_logloss or multi_logloss is an accuracy, labels other than 0 and 1 never count as right, and objectives without a metric score 0. Exact arithmetic: floating-point rounding is not modelled. |
| C182 Early stopping of api.Train prefers the better score | partial | `Api/MetricProps.lean` | For every linear order. False of the code: for binary_logloss, softmax and multiclass_logloss the score is an accuracy but lower counts as better. |
| C183 QuickTrain only fills in what is missing | partial | `Api/MetricProps.lean` | Law-free. False of the code: num_class may be replaced and the caller's own map is changed. |
| C184 QuickTrain picks the task from the labels | partial | `Api/MetricProps.lean`, `Api/ErrorProps.lean` | Law-free up to equality. False of the code: more than two classes in one column are fitted by a regression; num_iterations of another type panics. |
| C185 Callbacks are called in the documented order | proved | `Api/CallbackProps.lean` | Law-free. For tasks whose training and evaluation succeed. |
| C186 A callback can stop training and keep the model | partial | `Api/CallbackProps.lean` | Law-free. env.ShouldStop works; ErrEarlyStop returned from BeforeIteration stops nothing, from AfterIteration it makes Train fail. |
| C187 RecordEvaluation records every score | proved | `Api/RecordProps.lean`, `Api/ErrorProps.lean` | Law-free. All scores of a set are equal because all trees are built in the first iteration (C106). Names that repeat share one history (example). |
| C188 PrintEvaluation prints each due iteration under its number | partial | `Api/PrintProps.lean` | Law-free. False of the code: the last iteration is printed under the number before it, or not at all. The order of the entries within a line (Go map order) is not modelled. |
| C189 ResetParameter changes training from the given iteration on | partial | `Api/PrintProps.lean` | Law-free. False of the code: the trainer is built before the first callback, so only the caller's map changes. |
| C190 DumpModel describes the trees | partial | `LGB/DumpProps.lean` | Law-free. False of the code: categories of categorical splits are not dumped, nor the leaf values of trees read from text files (negative child numbers). |
| C191 A booster saved as JSON is read back with the same predictions | partial | `LGB/DumpProps.lean`, `?` | Law-free. False of the code: the loader misplaces a right subtree if both children are splits (C51), the initial score and the way of missing values are not written, a tree without nodes cannot be read back. The bytes of the file are not modelled. |
| C192 Leaf numbers of loaded models tell the leaves apart | partial | `LGB/LoadedLeafProps.lean` | Law-free. False of the code: in trees with two splits below a split different leaves share a number; NaN and values near 0 are sent another way than in Predict. |
| C193 The two ways to get raw scores of a loaded model agree | partial | `LGB/LoadedLeafProps.lean` | Law-free. False of the code for three or more classes with an initial score: PredictRawScore leaves it out. |
| C194 Training callbacks are called around every iteration and can stop it | proved | `Trainer/CallbackProps.lean` | Law-free. The trainer is any machine making one iteration at a time. Not modelled: callbacks that write into the nodes of the trees they are shown. The results shown before an iteration are those of the iteration before. |
| C195 A learning rate schedule changes the learning rate of training | partial | `Trainer/CallbackProps.lean` | Law-free. False of the code: callbacks get a fresh copy of the model, so rate and leaves written into it are never read by the trainer; the decay is not even accumulated in what other callbacks see; 0 steps panic. |
| C196 TimeLimit ends training at the first late reading | proved | `Trainer/CallbackProps.lean` | Law-free. The clock is an arbitrary sequence of readings. |
| C197 PrintEvaluation prints each due iteration once with its own results | partial | `Trainer/CallbackProps.lean` | Law-free. False of the code: every due iteration is printed twice, first with the results of the iteration before; period 0 panics. |
| C198 A checkpoint named after an iteration holds the model after it | partial | `Trainer/CallbackProps.lean` | Law-free; scores in a linear order. Holds without saveOnlyImproved, and with it for period 1. False of the code with saveOnlyImproved and longer periods: the file may hold the model before the iteration. A file is identified by its iteration number; its bytes are not modelled. |
| C199 Base estimators do not interfere with each other | partial | `BaseEst/Props.lean` | Independence holds for every program as far as the parameter maps go (an operation that does not concern an estimator leaves all it shows unchanged). It fails when a parameter value is a pointer, slice or map: Clone, GetParams(true) and ExportWeights copy the map but share such values (clone_shares_references). |
| C200 Which maps returned by GetParams are live | proved | `BaseEst/Props.lean` | Law-free. |
| C201 SetParams of the base estimator merges | proved | `BaseEst/Props.lean` | Law-free. |
| C202 Exported weights and the weight hash reflect what is visible | proved | `BaseEst/ExportProps.lean` | JSON encoding, SHA-256 and hex are one function parameter that may fail; collisions are not excluded. |
| C203 Importing weights reproduces the exporting model | partial | `BaseEst/ExportProps.lean` | Proved when the importing estimator has no parameter the exporting one lacks. False in general: parameters of the importing estimator that the weights do not mention survive, so the hashes differ after a successful import; and weights with is_fitted=false leave a fitted estimator fitted. |
| C204 EvaluateRegression: when it succeeds and what it reports | proved | `Eval/ReportProps.lean` | Exact arithmetic: floating-point rounding is not modelled. |
| C205 ClassificationReport covers exactly the labels that occur and its figures fit together | proved | `Eval/ReportProps.lean` | The key of a class is the label itself, in the code class_%d. Exact arithmetic: floating-point rounding is not modelled. |
| C206 A streaming pipeline delivers what its last stage sends, in order, and does not get stuck | proved | `Performance/PipelineProps.lean` | The stages are arbitrary functions on channels; what the last one sends is arbitrary. Matrix contents are opaque. |
| C207 Pipeline counters are the totals over everything that passed | partial | `Performance/PipelineProps.lean` | No update is lost, for all executions. The counters are totals modulo 2^64 only, and the overflow test of the byte count can miss: a matrix of 2^31 x 2^31 counts for 0 bytes (bytes_overflow_missed); exact below 2^63 bytes (bytes_exact_partial). |
| C208 The chunked processor hands every row to the callback | partial | `Performance/Chunked.lean` | False: the scanner never yields a row, so the callback is never called and nil is returned, whatever the data; a negative chunk size panics. chunks_partial: the chunking loop itself is right for any scanner that does yield rows. |
| C209 A fold is scored with the metric that was asked for | partial | `CV/ScoreProps.lean` | True for l2, mse, rmse, l1, mae, logloss and, with labels 0 and 1, accuracy. False otherwise: every other name, auc and r2 included, is scored with the mean squared error; for auc and r2 the fold with the largest error is reported as best; with accuracy labels other than 0 and 1 are never right. |
| C210 Mean and spread of cross-validation scores | proved | `CV/ScoreProps.lean` | Exact arithmetic: floating-point rounding is not modelled. |
| C211 Cross-validating an estimator trains each fold as its Fit would | partial | `CV/ScoreProps.lean` | Folds are trained as by Fit up to the smallest split gain (0 instead of 1e-7) when the objective has no parameter. False in general: the parameters of quantile, huber, fair and tweedie are dropped, and the objective of a classifier is not derived from the labels. Early stopping on the test rows is C102. |
| C212 Every warning reaches the handler in force, once, and no call waits for ever | partial | `Errors/WarnProps.lean` | Delivery and order hold for all executions. That calls return holds only if handlers do not call the package: Warn holds the mutex while the handler runs, so a handler that warns or sets a handler blocks every goroutine for ever (reentrant_handler_blocks). A handler set while a zerolog function is set has no effect (zerolog_takes_all). Handlers that panic are not modelled. |
| C213 The garbage-collection optimizer limits forced collections and can be stopped | partial | `Performance/GC.lean` | Rate limit, count and termination of the monitors are proved for all histories. False: Stop leaves the percentage at 100 and the memory limit at 1 GiB whatever they were before Start, and a stopped optimizer cannot be started again. The heap size is an arbitrary choice at each check. |
| C214 The statistics of the matrix pool | partial | `Performance/GC.lean` | The peak reported is never too high, and exact when calls do not overlap. With overlapping calls it can miss the peak (peak_missed). The reuse rate is not a share: it grows without bound. |
| C215 An error of a callback ends the training | proved | `Api/ErrorProps.lean` | Law-free. Training and evaluation themselves succeed and the other callbacks report no error and do not ask to stop; they may change everything else. |
| C216 Text files printed by LightGBM load as the model they describe | partial | `LGB/LeavesTextProps.lean` | Proved for sections separated by one or two blank lines and numerical splits. A third blank line makes loading fail (three_blank_lines_rejected); categorical splits are C50 and C51. The number parsers and the set of white space characters are parameters. |
| C217 A truncated text model file is rejected | partial | `LGB/LeavesTextProps.lean` | A file with fewer sections than tree_sizes announces is rejected. False otherwise: a file cut inside the last leaf values loads with another value or a missing leaf, and one with fewer thresholds than splits crashes the loader. |
| C218 SaveModel and LoadModel of the LightGBM estimators are inverse | partial | `LGB/LoaderTextProps.lean` | False for every tree with a split: SaveToFile writes no child arrays, and loading panics with an index out of range. What holds: models of constants are read back, without initial score. Numbers go through an arbitrary printer and reader that are inverse up to rounding. |
| C219 LoadFromFile reads LightGBM text files as the model they describe | partial | `LGB/LoaderFileProps.lean` | What holds: files of trees with splits, blank lines between trees, no features named like header keys and no line of 64 KiB. Each of these restrictions has its own counter-theorem. |
| C220 Feature importances account for every split | proved | `LGB/ImportanceProps.lean`, `Trainer/ImportanceProps.lean` | Exact arithmetic: floating-point rounding is not modelled. |
| C221 A booster predicts with the model it was given last | partial | `Boost/SessionProps.lean` | False: a trained model given to a booster that was loaded before never predicts, although NumTrees counts it (set_model_ignored). What answers is characterised for all histories (answers_from). Predictors are arbitrary functions of model and input. |
| C222 Raw scores, probabilities and leaves of a booster | partial | `Boost/SessionProps.lean` | False for loaded models: raw scores and probabilities are the plain predictions, so the raw score of a binary model is a probability, and leaves are refused. Proved for trained models (the predictor of the model given last is asked), and for loaded regressions. |
| C223 Iteration counters of a booster describe its model | partial | `Boost/SessionProps.lean` | False: Update only counts, and SetModel keeps the counters of the model before. |
| C224 Evaluation results of different datasets and metrics stay apart | partial | `Boost/SessionProps.lean` | Proved for dataset names without hyphen. The key joins the names with a hyphen, so pairs with hyphens in the dataset name can share a list. |
| C225 Training with validation data trains the same model | partial | `Trainer/ValidateProps.lean` | False with bagging, GOSS or an initial score that was set: FitWithValidation uses all rows and the initial score of the objective. Proved for all other settings. A recursion deeper than the given bound counts as a panic. |
| C226 The validation score is the weighted mean loss | partial | `Trainer/ValidateProps.lean` | False: the loop multiplies the loss summed so far by every weight, so a last weight 0 makes every score 0; and for the binary objective the loss is taken at the probability, where it is lower for worse predictions. Proved without weights for objectives without link. Exact arithmetic: floating-point rounding is not modelled. |
| C227 Decision tree parameters can be copied, and SetParams accepts exactly what GetParams can report | proved | `Settings/Props.lean` | A map is the list of its entries in the order visited. |
| C228 A refused SetParams of a decision tree leaves the tree as it was | partial | `Settings/Props.lean` | The claim is false of the code; the part that holds is proved beside a counterexample. |
| C229 A limit on the leaves of a decision tree is kept | partial | `Settings/Props.lean` | The claim is false of the code: max_leaf_nodes, max_features and random_state are stored and never read. |
| C230 Pipeline GetParams reports its own and every step's parameters under unambiguous names | proved | `Settings/PipeProps.lean` | Steps whose GetParams takes an argument (the linear regression of sklearn/linear_model, BaseEstimator) are skipped by the code and count as steps without parameters. |
| C231 Pipeline SetParams sets what GetParams reports | partial | `Settings/PipeProps.lean` | The claim is false of the code (a TODO there): only verbose is set. |
| C232 QuickTrain returns the model it trained with its own training score | proved | `Quick/TrainProps.lean` | The trainer is an arbitrary function here (it is modelled in Verif/Trainer). Times and printed text are not modelled. |
| C233 QuickLoadAndPredict predicts with the model in the file | partial | `Quick/TrainProps.lean` | False for files with another objective read as a classifier: all labels are 0. The outcome of reading the file is arbitrary here (readers: C216-C219). |
| C234 QuickBenchmark times predictions | partial | `Quick/TrainProps.lean` | False: all timed calls return a dimension error; only the number of calls is right. |
| C235 Learned attributes returned by estimators belong to the caller | proved | `Own/Props.lean` | Law-free. Slices are whole buffers; training is any sequence of in-place writes, fresh slices, copies and resets of the fields, with arbitrary values. Single goroutine (the locks are not modelled here). |
| C236 Slices handed to an estimator are taken by value | partial | `Own/Props.lean` | False for WithClassPrior. (pipeline.New, NewTensor and Booster.SetFeatureNames keep the slices they are given as well; not modelled.) |
| C237 The same seed gives the same incremental training | proved | `Online/SeedProps.lean`, `Online/SeedRefineProps.lean` | Law-free, for every generator: math/rand/v2 is a state machine whose functions are parameters (Verif/Base/Rand.lean). |
| C238 Fitting again with a seed gives the same model | partial | `Online/SeedProps.lean` | False of the code: Fit does not seed the generator again. Proved: nothing but the state of the generator (and options) carries over. |
| C239 Shuffled folds depend on the seed only | partial | `CV/SeedProps.lean` | False for the shuffled StratifiedKFold: one generator serves the classes in the order of a map. True for KFold (a function of its arguments) and without shuffling (rows within a test fold up to order); the folds partition the rows in all cases. |
| C240 Logistic regression respects its random state | partial | `Logistic/SeedProps.lean` | False of the code: the seed is stored and the first weights come from crypto/rand. Proved: with two classes, lbfgs and no warm start the first weights do not matter. |
| C241 LightGBM training is reproducible | partial | `Trainer/SeedProps.lean` | False for goss with seed 0 in the deterministic mode. Law-free; sorting functions of the library are functions of their input. The parallel histogram builder is treated in C63. |
| C242 GOSS samples anew for every tree | partial | `Trainer/SeedProps.lean` | False of the code with a seed: the same ranks (in the order of the gradients) are drawn for every tree. |
| C243 The objective trained is the one named | proved | `Boost/NamesProps.lean` | Exact arithmetic: floating-point rounding is not modelled. |
| C244 Feature bundling is greedy and leaves nothing that fits | proved | `EFB/OrderProps.lean` | Law-free. sort.Slice is any function that sorts. |
| C245 GetParams of a new estimator reports the options it was made with | proved | `Options/Props.lean` | Decimal literals are a parameter of the model. |
| C246 Options of clusterers, drift detectors and naive Bayes | proved | `Options/Props.lean` | Counts given to the clusterer are natural numbers. |
| C247 The two leaf outputs of a predictor | partial | `LGB/BatchProps.lean`, `Trainer/LeafProps.lean` | False in general: PredictLeaf numbers leaves from left to right, PredictLeafIndex by position in the node array (loaded trees may differ), and only the latter compares with a tolerance. Proved for every trained tree and every sample without a value within the tolerance above a threshold. PredictLeaf of a model without trees panics. |
| C248 Diagnostics of the SGD models describe the training | partial | `Online/Diagnostics.lean` | False in two ways: after a warm-started Fit the flag of an earlier Fit remains, so a run that did not converge reports convergence and gives no warning; SGDClassifier.PartialFit adds a loss but no iteration. Proved: SGDRegressor in every history; the flag and warning for Fit from scratch. Law-free. |
| C249 Callbacks run under the state lock | partial | `State/NestedProps.lean` | False as stated: a callback of WithStateMut that uses the state manager, or one of WithState that sets, never returns, and one of WithState that reads can deadlock with a concurrent setter. Proved: exclusion for all calls; progress and termination when callbacks do not use the manager, and when nobody writes. RWMutex with writer preference; fairness of the scheduler not needed. |
| C250 Node histograms of the trainer partition the rows | proved | `Trainer/NodeHistProps.lean` | binning_panics_iff and findBin_upper law-free; the rest in exact arithmetic over any linearly ordered field, with any correct sort in place of sort.Float64s. Exact arithmetic: floating-point rounding is not modelled. |
| C251 Which files the model loaders open | partial | `LGB/PathProps.lean` | False as stated: LoadFromFile and LoadFromJSONFile (and the estimators' LoadModel) refuse nothing, so '../x' leaves the directory; every loader opens absolute paths; './m' and names with two dots are refused by LoadLeavesModelFromFile; LoadModelAutoDetect accepts './m' only if it holds JSON. Proved: cleaning never changes the place a path names; the two checking loaders open only files below the working directory for relative paths; exactly which paths each opens. Unix separators; symbolic links not modelled. |
| C252 Cached feature values are those asked for | partial | `Hist/CacheProps.lean` | False as stated: the cache is keyed by the feature alone, so other rows or another matrix get the first caller's values, and a call in flight during ClearCache refills the cache with old data. Proved for every schedule: a result is some caller's column, and everybody's own if the calls for a feature agree. Law-free. |
| C253 Multiclass probabilities of Model.Predict | partial | `LGB/TaylorSoftmaxProps.lean` | exact real arithmetic; the order of the probabilities is proved for scores within 6 (winner: 8) of the largest and refuted beyond. Exact arithmetic: floating-point rounding is not modelled. |
| C254 Early stopping without validation data | partial | `Trainer/LegacyProps.lean` | False of the code: proved that the setting has no effect at all. Law-free; logging not modelled. |
| C255 Settings of the parallel histogram builder do not change its result | proved | `Hist/DispatchProps.lean` | Exact arithmetic: floating-point rounding is not modelled. In floats the order of the additions of the chunks may change the last bits. NaN sums, for which the merge may spin, are in C63. |
| C256 IsEFBBeneficial tells whether bundling helps | partial | `EFB/BenefitProps.lean` | The exact condition is proved; the equivalence with CreateBundles is refuted in both directions. Exact arithmetic: floating-point rounding is not modelled. |
| C257 SHAP values of a matrix are computed row by row, and wrong widths are refused | partial | `Shap/BatchProps.lean` | Rows, shapes, symmetry and the unfitted case are proved for every model. The width is not checked: a matrix with too few columns gets values that explain nothing, and its interactions panic (narrow_matrix_explained). The sum of the values is in exact arithmetic. Exact arithmetic: floating-point rounding is not modelled. |
| C258 Predictors return the probabilities of the raw scores | proved | `LGB/SimpleLinkProps.lean`, `Wrapper/LoglossProps.lean` | Exact arithmetic: floating-point rounding is not modelled. |
| C259 Best iteration limits the trees used for a prediction | partial | `LGB/SimpleLinkProps.lean` | False of the code for several classes: the best iteration counts trees, not iterations. Proved: how many trees are used, for every model. |
| C260 Objective names mean the same everywhere | partial | `ParamMap/TableProps.lean` | False of the code: the tables disagree on mape, logistic and others. strings.ToLower is a parameter. |
| C261 Parameter defaults and Python names | proved | `ParamMap/TableProps.lean` | Law-free; strings.ToLower is a parameter. |
| C262 A log record contains its message, level and fields | partial | `Log/FieldProps.lean` | False of the code: the key of an error is replaced by "error", and the last argument of an odd number is dropped. The JSON encoding of zerolog is not modelled. |
| C263 SHAP interactions are defined by the splits on the way and add up | partial | `Shap/InteractionProps.lean` | The value, the sign and the zero case are proved for every model; that the rows sum up to the SHAP values is false of the code. Exact arithmetic: floating-point rounding is not modelled. |
| C264 The categorical split used in training is the best of all groupings of the categories | partial | `Hist/OptimalProps.lean` | Proved for every data set without L1 regularisation, minData at most 1, hessians above the smallest accepted, and either no L2 regularisation or equal hessians of the categories. False with L2 regularisation and with a larger minimum of rows: both witnesses are proved. Exact arithmetic: floating-point rounding is not modelled. |
| C265 A categorical split found without histograms describes a group of categories | partial | `Trainer/CatSplitProps.lean` | Proved of the split returned; false of the categories of the node built from it (witness proved). Fit does not call this search: only findBestSplitWithHistogram does. Exact arithmetic: floating-point rounding is not modelled. |
| C266 Weight hashes tell the weights of a linear regression apart | partial | `Linear/HashProps.lean` | Proved for finite weights; false with NaN or infinite weights (proved: json.Marshal fails, its error is dropped, and the hash is that of no bytes). The JSON encoding and SHA-256 are parameters assumed free of collisions: SHA-256 is not modelled, and its collisions, which exist but are not known, are outside the claim. |
| C267 ImportWeights of a linear regression refuses altered weights | partial | `Linear/HashProps.lean` | Proved of changed coefficients; false of a changed intercept (proved for every model). The JSON encoding and SHA-256 are parameters assumed free of collisions. |
| C268 With methods of LightGBM estimators set what GetParams reports | partial | `ParamMap/BuildersProps.lean` | Proved for every chain of calls; the agreement with SetParams is false of objectives (witness mse proved). |
| C269 Metrics keep their range in floating point | partial | `Round/MetricsProps.lean` | Ranges and perfect scores proved; "MSE is 0 only for equal vectors" is false with underflow (proved) and proved without. Rounded arithmetic (Verif/Base/Round.lean): every operation is followed by an arbitrary monotone rounding; binary64 without overflow is the instance in Verif/Base/Binary64.lean. Not modelled: overflow, NaN, the sign of zero, fused multiply-add. |
| C270 MinMaxScaler stays in its range in floating point | partial | `Round/ScalerProps.lean` | The upper limit is false for ranges whose width is not representable (proved for [-0.2, 0.4] in binary64); the rest is proved. Rounded arithmetic (Verif/Base/Round.lean): every operation is followed by an arbitrary monotone rounding; binary64 without overflow is the instance in Verif/Base/Binary64.lean. Not modelled: overflow, NaN, the sign of zero, fused multiply-add. |
| C271 StandardScaler maps constant columns to zero in floating point | partial | `Round/ScalerProps.lean` | False (proved for three times 100000000.1 in binary64); proved for values whose multiples are representable. The square root is a parameter. Rounded arithmetic (Verif/Base/Round.lean): every operation is followed by an arbitrary monotone rounding; binary64 without overflow is the instance in Verif/Base/Binary64.lean. Not modelled: overflow, NaN, the sign of zero, fused multiply-add. |
| C272 Split thresholds separate neighbouring values in floating point | partial | `Round/TreeProps.lean`, `Overflow/LinearProps.lean` | The threshold lies between the two values (proved); it does not always separate them (proved for two binary64 numbers). Rounded arithmetic (Verif/Base/Round.lean): every operation is followed by an arbitrary monotone rounding; binary64 without overflow is the instance in Verif/Base/Binary64.lean. Not modelled: overflow, NaN, the sign of zero, fused multiply-add. |
| C273 Predicted probabilities in floating point | proved | `Round/ProbaProps.lean` | The exponential is a parameter with the stated properties. Rounded arithmetic (Verif/Base/Round.lean): every operation is followed by an arbitrary monotone rounding; binary64 without overflow is the instance in Verif/Base/Binary64.lean. Not modelled: overflow, NaN, the sign of zero, fused multiply-add. |
| C274 Error of linear predictions in floating point | proved | `Round/ProbaProps.lean` | Rounded arithmetic (Verif/Base/Round.lean): every operation is followed by an arbitrary monotone rounding; binary64 without overflow is the instance in Verif/Base/Binary64.lean. Not modelled: overflow, NaN, the sign of zero, fused multiply-add. |
| C275 The number of iterations an online learner reports is the number of passes over the data | proved | `Online/EpochProps.lean` | Law-free for the PassiveAggressive estimators and PartialFit, exact reals for the convergence test of SGDClassifier. The estimators differ: PartialFit increments the count for SGDRegressor and leaves it for the other three (partial_fit_counts). |
| C276 Metrics of finite vectors are finite | partial | `Overflow/MetricsProps.lean` | False in general: squares and differences of large finite numbers overflow (finite_vectors_overflow); proved for numbers of at most 2^484 in absolute value and fewer than 2^53 rows. Binary64 with overflow: operations as in IEEE 754 with two infinities, one NaN and one zero; the sign of zero and fused multiply-add are not modelled. |
| C277 Scaling finite data gives finite data | partial | `Overflow/ScalerProps.lean` | False in general (minmax_not_a_number, standard_all_zero); proved for data of at most 2^1022 (MinMaxScaler) and 2^484 (StandardScaler) in absolute value. The square root is a parameter. Binary64 with overflow: operations as in IEEE 754 with two infinities, one NaN and one zero; the sign of zero and fused multiply-add are not modelled. |
| C278 Probabilities of logistic regression are numbers | partial | `Overflow/ProbaProps.lean` | False in general: a score that overflows makes all probabilities NaN (logistic_not_a_number, logistic_proba_nan); proved whenever the scores are finite, whether or not the exponential overflows. The exponential is a parameter with the stated properties. Binary64 with overflow: operations as in IEEE 754 with two infinities, one NaN and one zero; the sign of zero and fused multiply-add are not modelled. |
| C279 Linear predictions of finite data are finite | partial | `Overflow/LinearProps.lean` | False in general (linear_not_a_number); proved for data and coefficients of at most 2^485 in absolute value. Binary64 with overflow: operations as in IEEE 754 with two infinities, one NaN and one zero; the sign of zero and fused multiply-add are not modelled. |
| C280 Warm start of logistic regression resumes from the last fit | partial | `Logistic/WarmProps.lean` | Law-free. False for data of another shape: with more columns Fit succeeds and Predict panics, with more classes Fit panics (both proved for every model). Proved for data of the shape of the last Fit and the default solver; the optimiser is a parameter. |
| C281 MiniBatchKMeans starts from distinct rows | partial | `KMeans/PlusProps.lean` | False for init="random", which draws with replacement, and when a random number is exactly 0. Proved for k-means++ with positive random numbers; the generator is arbitrary, so "with probability" means: the row at which the running sum of squared distances reaches the random number times their total. Exact arithmetic: floating-point rounding is not modelled. |
| C282 Rounding error of MSE, MAE and MAPE | proved | `Round/ErrorProps.lean` | Against the exact mean over the pairs. Rounded arithmetic (Verif/Base/Round.lean): every operation is followed by an arbitrary monotone rounding; binary64 without overflow is the instance in Verif/Base/Binary64.lean. Not modelled: overflow, NaN, the sign of zero, fused multiply-add. |
| C283 Scaling and scaling back loses only rounding errors | partial | `Round/RoundTripProps.lean` | Proved for StandardScaler and for MinMaxScaler with the default range [0, 1]; false for other ranges (proved: with range [2^53, 2^53 + 2] a value of 1/4 comes back as 0). Rounded arithmetic (Verif/Base/Round.lean): every operation is followed by an arbitrary monotone rounding; binary64 without overflow is the instance in Verif/Base/Binary64.lean. Not modelled: overflow, NaN, the sign of zero, fused multiply-add. |
| C284 Rounding error of ensemble scores | proved | `Round/ScoreProps.lean` | The outputs of the trees are exact leaf values. Rounded arithmetic (Verif/Base/Round.lean): every operation is followed by an arbitrary monotone rounding; binary64 without overflow is the instance in Verif/Base/Binary64.lean. Not modelled: overflow, NaN, the sign of zero, fused multiply-add. |
| C285 A perfect ranking has an area under the curve of exactly 1, and the rounded area is close to the fraction of correctly ordered pairs | partial | `Round/AucProps.lean` | False with tied scores: a perfect ranking of one positive and six negatives in groups of 2, 3 and 1 gives 0.9999999999999999 (proved in float64). Proved for distinct scores; the error bound is proved for all scores. Rounded arithmetic (Verif/Base/Round.lean): every operation is followed by an arbitrary monotone rounding; binary64 without overflow is the instance in Verif/Base/Binary64.lean. Not modelled: overflow, NaN, the sign of zero, fused multiply-add. |
| C286 The mean of the adaptive window is the mean of the values in the window, also in floating point | partial | `Round/AdwinProps.lean` | False in float64: with one bucket, after 2^53, 1, 1 the window holds 1 and the mean is 0 (proved). Proved for whole numbers of bounded total; the root and the logarithm of the drift test are arbitrary functions. Rounded arithmetic (Verif/Base/Round.lean): every operation is followed by an arbitrary monotone rounding; binary64 without overflow is the instance in Verif/Base/Binary64.lean. Not modelled: overflow, NaN, the sign of zero, fused multiply-add. |
| C287 Naive Bayes on counts does not depend on the order of the training rows, bit for bit | partial | `Round/CountProps.lean` | False in float64 for fractional counts: the counts 0.1, 0.1, 0.6 in the opposite order give another probability (proved; for every logarithm that tells the two apart). Proved for whole numbers, for an arbitrary logarithm. Rounded arithmetic (Verif/Base/Round.lean): every operation is followed by an arbitrary monotone rounding; binary64 without overflow is the instance in Verif/Base/Binary64.lean. Not modelled: overflow, NaN, the sign of zero, fused multiply-add. |
| C288 Cluster centres stay in the range of the data in float64 | partial | `Round/CentreProps.lean` | False in float64: five rows that are all 3 give the centre 3.0000000000000004 (proved, for every generator). Proved: every call succeeds and the distance from the range is at most about 3 n unit roundoffs of the largest value after n rows, for an arbitrary square root. Rounded arithmetic (Verif/Base/Round.lean): every operation is followed by an arbitrary monotone rounding; binary64 without overflow is the instance in Verif/Base/Binary64.lean. Not modelled: overflow, NaN, the sign of zero, fused multiply-add. |
| C289 Decision tree splits are optimal in float64 | partial | `Round/GiniProps.lean` | False in float64: fifteen rows mixed 1:4 and 2:8 are split although the exact decrease is 0 (proved). Proved for Gini: reported decrease, optimality and stopping hold up to (10 classes + 17) unit roundoffs. Rounded arithmetic (Verif/Base/Round.lean): every operation is followed by an arbitrary monotone rounding; binary64 without overflow is the instance in Verif/Base/Binary64.lean. Not modelled: overflow, NaN, the sign of zero, fused multiply-add. |
| C290 Pure nodes are recognised in float64 | proved | `Round/GiniProps.lean` | Equivalence for Gini and a number of rows times classes small against the precision; pure nodes are leaves for both criteria and any size (log2 1 = 0 assumed). Rounded arithmetic (Verif/Base/Round.lean): every operation is followed by an arbitrary monotone rounding; binary64 without overflow is the instance in Verif/Base/Binary64.lean. Not modelled: overflow, NaN, the sign of zero, fused multiply-add. |
| C291 SetLearningRate takes effect | partial | `Online/RateProps.lean` | False for the schedule "optimal", the default of the classifier: the rate set changes no outcome, weight, loss or reported rate of any later history of training calls, and another rate is reported (proved). Proved for all other schedules. Law-free: holds for float64. |
| C292 StandardScaler fits the mean and the variance of the data in float64 | partial | `Round/MomentProps.lean` | False in float64: the mean of 2^53, 1, -2^53 is 1/3, the mean fitted is 0 (proved). Proved: the mean is exact up to n + 1 relative errors of the mean absolute value; the squared scale is the population variance plus the squared error of the mean up to n + 6 relative errors, or the scale is 1 and that variance is tiny. Rounded arithmetic (Verif/Base/Round.lean): every operation is followed by an arbitrary monotone rounding; binary64 without overflow is the instance in Verif/Base/Binary64.lean. Not modelled: overflow, NaN, the sign of zero, fused multiply-add. |
| C293 Standardised data has unit mean square and mean near zero in float64 | proved | `Round/MomentProps.lean` | The square root is any function as accurate as a correctly rounded one; such a function exists (exists_sqrt). Rounded arithmetic (Verif/Base/Round.lean): every operation is followed by an arbitrary monotone rounding; binary64 without overflow is the instance in Verif/Base/Binary64.lean. Not modelled: overflow, NaN, the sign of zero, fused multiply-add. |
| C294 Large feature values do not hide splits | partial | `Round/LargeProps.lean` | False of the code from magnitude 2^21 on: two values are never separated, and every other split is shifted by one value. Holds up to magnitude 2^19 for values at least 2^-32 apart. Binary64 without overflow. |
| C295 Histogram subtraction gives the sibling's histogram in float64 | partial | `Round/SubProps.lean` | False in float64: with hessians 2^53, 1, 1 the difference is 2^53-2 instead of 2^53 (proved). Proved: counts are exact, hessian sums are not negative when the child lists its rows in the order of the parent, and sums are exact up to 7n roundings of the absolute sums. Rounded arithmetic (Verif/Base/Round.lean): every operation is followed by an arbitrary monotone rounding; binary64 without overflow is the instance in Verif/Base/Binary64.lean. Not modelled: overflow, NaN, the sign of zero, fused multiply-add. |
| C296 Exclusive feature bundling is lossless in float64 | partial | `Round/BundleProps.lean` | False in float64: 0.1 comes back with other last digits and the number just below 1000 comes back as 0 (proved). Proved: whole numbers up to 999 and columns outside bundles are exact, other values up to 999 are within 2^-53*1000*(columns+1). Binary64 without overflow. |
| C297 A missing value is not hidden by a metric | partial | `?` | False of the code for AUC, accuracy and MAPE: scores that are all NaN give 1 or 0 depending on the row order, a NaN label counts as wrong, a NaN predicted for a zero target is skipped. Proved: MSE, RMSE and MAE are NaN, R2 and explained variance NaN or an error. Over binary64 with overflow, infinities and NaN (signed zeros are not distinguished). |
| C298 A row with a missing value does not damage a MiniBatchKMeans model | partial | `NonFinite/KMeansProps.lean` | False of the code: one row with NaN makes the first centre NaN for ever, after which no complete row is assigned to it. Proved: complete data of magnitude up to 2^1023 keep the centres finite and within the magnitude of the data. Over binary64 with overflow, infinities and NaN (signed zeros are not distinguished). |
| C299 Samples are assigned to a nearest centre, also for very large coordinates | partial | `NonFinite/KMeansProps.lean` | False of the code beyond about 1e154, where the squared distance overflows and the sample gets label 0. Proved when some distance is finite, which holds for coordinates up to 2^484. Over binary64 with overflow, infinities and NaN (signed zeros are not distinguished). |
| C300 An adaptive window forgets a missing value | partial | `NonFinite/AdwinProps.lean` | False of the code: the running sum stays NaN through every further run of updates without drift, and no drift is found while NaN is in the window. Proved: a reported drift and Reset repair the sum. Over binary64 with overflow, infinities and NaN (signed zeros are not distinguished). |
| C301 A missing value affects only its own row of a MinMaxScaler | partial | `NonFinite/ScalerProps.lean` | False of the code when the NaN is in the first row: the whole column becomes NaN in every later Transform. Proved: NaN in later rows is passed over. Over binary64 with overflow, infinities and NaN (signed zeros are not distinguished). |
| C302 MultinomialNB without smoothing | partial | `NonFinite/NaiveBayesProps.lean` | False of the code: 0 * log 0 is NaN, so a class other than the first is never predicted for a sample that like the class does not use some feature; a sample of the training data is misplaced. Proved when no score is NaN. Over binary64 with overflow, infinities and NaN (signed zeros are not distinguished). |
| C303 A sample with a missing value leaves an SGDRegressor usable | partial | `NonFinite/OnlineProps.lean` | False of the code for the default loss: one NaN target makes every prediction after any later batches NaN. Proved: a NaN feature leaves weights and intercept, but divides the learning rate by ten for good. Over binary64 with overflow, infinities and NaN (signed zeros are not distinguished). |
| C304 Samples with a missing value do not change passive-aggressive models | proved | `NonFinite/OnlineProps.lean`, `NonFinite/ClassifierProps.lean` | Over binary64 with overflow, infinities and NaN (signed zeros are not distinguished). |
| C305 A sample with a missing value leaves an SGDClassifier usable | partial | `NonFinite/ClassifierProps.lean` | False of the code for every loss and penalty: one NaN feature makes all decision values NaN for ever, and Predict returns the first class for every sample. Proved: samples of an unknown class are not used. Over binary64 with overflow, infinities and NaN (signed zeros are not distinguished). |
| C306 A decision tree separates values of every magnitude | partial | `NonFinite/TreeProps.lean` | False of the code when the sum of two neighbouring values reaches 2^1024: the threshold is +Inf, no split is accepted and the tree is one leaf. Proved below: the threshold lies between the values. Over binary64 with overflow, infinities and NaN (signed zeros are not distinguished). |
| C307 A missing value affects only its own row of a StandardScaler | partial | `NonFinite/StandardProps.lean` | False of the code: the whole column is NaN in every later Transform, for every row. Proved: the other columns do not change. Over binary64 with overflow, infinities and NaN (signed zeros are not distinguished). |
| C308 A missing target leaves an LGBMRegressor usable | partial | `NonFinite/BoostProps.lean` | False of the code for the objectives regression (the default), huber and poisson: Fit succeeds and every prediction is NaN whatever trees were grown. Proved for complete targets: training starts from a finite score no larger than the targets. Over binary64 with overflow, infinities and NaN (signed zeros are not distinguished). |
| C309 In float64 a sample is assigned to a nearest centre | partial | `Round/AssignProps.lean` | False of the code: with the centres -1 and 0 the value 2^53 is given the centre -1. Proved: the exact squared distance to the chosen centre exceeds that to any other by at most 6(n+5) units of 2^-53, n the number of columns, as long as no distance overflows. Rounded arithmetic (Verif/Base/Round.lean): every operation is followed by an arbitrary monotone rounding; binary64 without overflow is the instance in Verif/Base/Binary64.lean. Not modelled: overflow, NaN, the sign of zero, fused multiply-add. |
| C310 Distances and inertia of MiniBatchKMeans are accurate in float64 | proved | `Round/AssignProps.lean` | The square root is any function with the accuracy of a correctly rounded one. Rounded arithmetic (Verif/Base/Round.lean): every operation is followed by an arbitrary monotone rounding; binary64 without overflow is the instance in Verif/Base/Binary64.lean. Not modelled: overflow, NaN, the sign of zero, fused multiply-add. |
| C311 Leaf values of boosted trees are optimal in float64 | partial | `Round/LeafProps.lean` | False relative to the value itself: gradients 2^53, 1, -2^53 give the value 0, and another order of the rows a negative one. Proved: the distance from the minimum is at most 6(n+2) units of 2^-53 times the sum of the absolute gradients over the denominator, and the excess of the objective correspondingly. Rounded arithmetic (Verif/Base/Round.lean): every operation is followed by an arbitrary monotone rounding; binary64 without overflow is the instance in Verif/Base/Binary64.lean. Not modelled: overflow, NaN, the sign of zero, fused multiply-add. |
| C312 The split taken from a histogram is nearly the best one in float64 | partial | `Round/GainProps.lean` | False of the code as exact optimality: for the gradients 2^53, 1, -2^53 (hessians 1, 0, 1) the first boundary is returned though the second has a gain larger by more than 2^52. Proved: the exact gain of the boundary returned is within 2E of that of every other admissible boundary, and the reported gain within E of it, E = 120 y S^2 (H + lambda) / m^2 plus underflow, y the relative error of the sums, S the sum of absolute gradients, m the least hessian of a side. Missing: L1 regularisation, overflow. Rounded arithmetic (Verif/Base/Round.lean): every operation is followed by an arbitrary monotone rounding; binary64 without overflow is the instance in Verif/Base/Binary64.lean. Not modelled: overflow, NaN, the sign of zero, fused multiply-add. |
| C313 R2Score is accurate in float64 and refuses constant targets | partial | `Round/R2Props.lean` | The second half is false of the code: for the constant target 0.1 and the prediction 0.2 the score is below -10^30 instead of an error, because the rounded mean of three times 0.1 is not 0.1; two different targets of size 2^-600 are refused. Proved: the error is at most 8(n+4) units of 2^-52 times 1 + RSS/TSS when the spread is above 2^-480 and above about 2^-25 sqrt(n+4) of the mean absolute value. Rounded arithmetic (Verif/Base/Round.lean): every operation is followed by an arbitrary monotone rounding; binary64 without overflow is the instance in Verif/Base/Binary64.lean. Not modelled: overflow, NaN, the sign of zero, fused multiply-add. |
| C314 DDM keeps its protocol in float64 | proved | `Round/DdmProps.lean` | The square root is any function that is non-negative on non-negative numbers and 0 at 0. Rounded arithmetic (Verif/Base/Round.lean): every operation is followed by an arbitrary monotone rounding; binary64 without overflow is the instance in Verif/Base/Binary64.lean. Not modelled: overflow, NaN, the sign of zero, fused multiply-add. |
| C315 Fractions ask for the number of rows, features and trees they say, in float64 | partial | `Round/FracProps.lean` | False of the code for whole shares: BaggingFraction 0.29 uses 28 of 100 rows, FeatureFraction 0.57 uses 56 of 100 features, a drop rate of 0.07 drops 8 of 100 trees. Proved: the number is at most one off, and right unless n*q is within n*q/2^51 of a whole number; DART never panics for rates in [0, 1]. Rounded arithmetic (Verif/Base/Round.lean): every operation is followed by an arbitrary monotone rounding; binary64 without overflow is the instance in Verif/Base/Binary64.lean. Not modelled: overflow, NaN, the sign of zero, fused multiply-add. |
| C316 Boosting starts from a score in the range of the targets, in float64 | partial | `Round/StartProps.lean` | True for the median (regression_l1, fair) without overflow. False for the mean (0.1 three times) and for the quantile (0.3 twice, level 0.1), and for the median of two targets 2^1023, which is infinite. Proved: the mean is off by at most n+1 and the quantile by at most 3 roundings, and the quantile never reads outside of the slice. Rounded arithmetic (Verif/Base/Round.lean): every operation is followed by an arbitrary monotone rounding; binary64 without overflow is the instance in Verif/Base/Binary64.lean. Not modelled: overflow, NaN, the sign of zero, fused multiply-add.Binary64 with overflow: operations as in IEEE 754 with two infinities, one NaN and one zero; the sign of zero and fused multiply-add are not modelled. |
| C317 A row with a missing feature value does not keep a decision tree from separating the other rows | partial | `NonFinite/TreeMissingProps.lean` | False as stated: `missing_hides_split` trains on the values 3, NaN, 1 of the classes 0, 0, 1 and gets a single leaf, because NaN is not less than anything and nothing is less than NaN, so that the sort leaves 3, NaN, 1 in place and every candidate threshold is NaN. Proved in binary64: if the rows with a missing value come last, every threshold that would be tried without them is tried; a missing threshold is never accepted and a feature missing everywhere is never used, when a leaf needs at least one row; missing values go right. The sort is the insertion sort that sort.Slice uses up to twelve elements. Over binary64 with overflow, infinities and NaN (signed zeros are not distinguished). |
| C318 A missing value of a feature does not spoil the splits of boosted trees on that feature | partial | `NonFinite/HistMissingProps.lean` | False of the code, proved for every input: sort.Float64s puts NaN first, so the lowest bound is NaN. With more different values than bins all bounds above it are dropped and the feature has no bins; otherwise the binary search does not find the bin of the smallest value and its rows are counted in the last bin, with the largest. Proved: rows with a missing value are counted in the last bin, and other features find the same splits. Over binary64 with overflow, infinities and NaN (signed zeros are not distinguished). |
| C319 Linear classifiers predict a class with the greatest score, in float64 | partial | `Round/ClassProps.lean` | The exact claim is false in float64: `rounding_changes_class` gives weights for which the class with the smaller exact score is predicted. Proved for every input: the predicted class is behind the best by at most the rounding errors of the two scores, and a class ahead by more than that is predicted. The weights and log probabilities are those the model holds; scores are assumed above the start value of the scan, which is minus infinity in the code. Rounded arithmetic (Verif/Base/Round.lean): every operation is followed by an arbitrary monotone rounding; binary64 without overflow is the instance in Verif/Base/Binary64.lean. Not modelled: overflow, NaN, the sign of zero, fused multiply-add. |
| C320 BinaryLogLoss is accurate in float64 and treats both classes alike | partial | `Round/LogLossProps.lean` | The symmetry is false in float64: clipping to 1 - 1e-15 and subtracting from 1 gives 9/2^53, not 1e-15. Proved: accuracy, sign and bound of the loss, symmetry when the complements are exact and nothing is clipped, NaN for NaN. The cost of a row is minus the computed logarithm of the computed probability. Rounded arithmetic (Verif/Base/Round.lean): every operation is followed by an arbitrary monotone rounding; binary64 without overflow is the instance in Verif/Base/Binary64.lean. Not modelled: overflow, NaN, the sign of zero, fused multiply-add. |
| C321 An error can still be recognised after it was wrapped | partial | `Errors/ChainProps.lean` | Survival of type, fields, matches, nil and text is proved for every error and every list of layers. What does not hold: an error value the code panics with cannot be found with Is (panic_value_not_found), a panic after an error was set cannot be told by type (panic_hidden), and Is takes every error made by New with the same text for the same one (is_new_iff). Is and As of the cockroachdb library are modelled by their documented behaviour; foreign Is/As methods and errors with several causes are left out. |
| C322 The drop rate of a forgetting warning says how much performance was lost | partial | `Errors/ChainProps.lean` | Holds for an old performance above zero, in exact arithmetic; below zero the sign is reversed, at zero the rate is infinite or NaN in float64. |
| C323 Probabilities and feature importances of a decision tree in float64 | proved | `Round/LeafShareProps.lean` | The sum is not exactly 1 (tree_proba_sum_not_one), so the error in the statement is needed. That a tested feature has a positive importance is proved in exact arithmetic (C35) only; in float64 its share may underflow. Rounded arithmetic (Verif/Base/Round.lean): every operation is followed by an arbitrary monotone rounding; binary64 without overflow is the instance in Verif/Base/Binary64.lean. Not modelled: overflow, NaN, the sign of zero, fused multiply-add. |
| C324 Numerical guards with overflow, infinities and NaN | partial | `NonFinite/GuardProps.lean` | What a user expects of the guards does not hold for a NaN (clip_value_nan, clip_gradient_nan) nor for a gradient whose sum of squares overflows (clip_gradient_overflow: all finite entries become 0). math.Sqrt enters with sqrt(Inf) = Inf and sqrt(NaN) = NaN. Rounded arithmetic (Verif/Base/Round.lean): every operation is followed by an arbitrary monotone rounding; binary64 without overflow is the instance in Verif/Base/Binary64.lean. Not modelled: overflow, NaN, the sign of zero, fused multiply-add. |
| C325 LogSumExp in float64 | partial | `NonFinite/GuardProps.lean` | The bounds hold for all finite numbers; the expected results for +Inf (log_sum_exp_inf) and for a NaN after -Inf (log_sum_exp_hides) do not. math.Exp is assumed to be 1 at 0, at most 1 below and never negative, math.Log monotone with log 1 = 0. Rounded arithmetic (Verif/Base/Round.lean): every operation is followed by an arbitrary monotone rounding; binary64 without overflow is the instance in Verif/Base/Binary64.lean. Not modelled: overflow, NaN, the sign of zero, fused multiply-add. |
| C326 The norm of a clipped gradient in float64 | proved | `Round/ClipNormProps.lean` | Overflow and NaN: see C324. math.Sqrt is assumed correctly rounded (SqrtAccurate). Rounded arithmetic (Verif/Base/Round.lean): every operation is followed by an arbitrary monotone rounding; binary64 without overflow is the instance in Verif/Base/Binary64.lean. Not modelled: overflow, NaN, the sign of zero, fused multiply-add. |
| C327 A passive-aggressive step moves the model towards the sample, in float64 | proved | `Round/PassiveProps.lean` | Whether a step can overshoot the target is not stated (with an intercept it can, see C45). Labels must be pairwise different for the last part. Rounded arithmetic (Verif/Base/Round.lean): every operation is followed by an arbitrary monotone rounding; binary64 without overflow is the instance in Verif/Base/Binary64.lean. Not modelled: overflow, NaN, the sign of zero, fused multiply-add. |
| C328 The predicted class is a most probable one, in float64 | partial | `Round/LabelProps.lean` | Agreement of Predict and PredictProba and monotony are proved; that a negative score gives the first class is false next to zero (lr_negative_score_second_class). math.Exp is assumed monotone. Scores that overflow: see C278 and C87. Rounded arithmetic (Verif/Base/Round.lean): every operation is followed by an arbitrary monotone rounding; binary64 without overflow is the instance in Verif/Base/Binary64.lean. Not modelled: overflow, NaN, the sign of zero, fused multiply-add. |
| C329 ADWIN on a constant stream in float64 | partial | `Round/ConstantProps.lean` | Holds while the multiples of the value are exact; false for large values (adwin_constant_alarm). Exact arithmetic: C29. Rounded arithmetic (Verif/Base/Round.lean): every operation is followed by an arbitrary monotone rounding; binary64 without overflow is the instance in Verif/Base/Binary64.lean. Not modelled: overflow, NaN, the sign of zero, fused multiply-add. |
| C330 Mean and spread of cross-validation scores in float64 | partial | `Round/FoldScoreProps.lean` | The error bounds are proved; that equal scores give their own value and no spread is false (cv_equal_scores_spread) except when the multiples are exact (cv_equal_scores_partial). math.Sqrt is assumed correctly rounded. Exact arithmetic: C210. Rounded arithmetic (Verif/Base/Round.lean): every operation is followed by an arbitrary monotone rounding; binary64 without overflow is the instance in Verif/Base/Binary64.lean. Not modelled: overflow, NaN, the sign of zero, fused multiply-add. |
| C331 Naive Bayes log probabilities and labels in float64 | proved | `Round/BayesProps.lean` | The joint log probabilities are assumed finite (above the starting value of the scan); infinite ones are C302. A class prior given by the user may have entries above 1 and is left out of the first part. math.Log and math.Exp enter by LogLike, ExpLike and monotony. Rounded arithmetic (Verif/Base/Round.lean): every operation is followed by an arbitrary monotone rounding; binary64 without overflow is the instance in Verif/Base/Binary64.lean. Not modelled: overflow, NaN, the sign of zero, fused multiply-add. |
| C332 Classification reports in float64 | partial | `Round/ReportProps.lean` | Ranges, perfect scores and the meaning of an accuracy of 1 are proved; that F1 is not above both precision and recall is false by a rounding error (f1_above_both). Exact arithmetic: C66, C113. Rounded arithmetic (Verif/Base/Round.lean): every operation is followed by an arbitrary monotone rounding; binary64 without overflow is the instance in Verif/Base/Binary64.lean. Not modelled: overflow, NaN, the sign of zero, fused multiply-add. |
| C333 Scalers keep the order of the values in float64 | proved | `Round/OrderProps.lean` | scaled_values_merge shows that the order is kept only weakly. Rounded arithmetic (Verif/Base/Round.lean): every operation is followed by an arbitrary monotone rounding; binary64 without overflow is the instance in Verif/Base/Binary64.lean. Not modelled: overflow, NaN, the sign of zero, fused multiply-add. |
| C334 Boosting objectives push every prediction towards its target in float64 | partial | `Round/ObjectiveProps.lean` | For any rounding that is monotone, odd and keeps 0 and 1: signs, order and bounds of the gradients and non-negative Hessians of every objective. Three parts fail for the fair objective, each with a binary64 witness: its Hessian is 0 for a difference of 2^540, its gradient exceeds the parameter 0.1 by one unit in the last place, and its gradient falls by a rounding error while the prediction grows. math.Exp is assumed non-negative and monotone. Overflow is not part of this model. Rounded arithmetic (Verif/Base/Round.lean): every operation is followed by an arbitrary monotone rounding; binary64 without overflow is the instance in Verif/Base/Binary64.lean. Not modelled: overflow, NaN, the sign of zero, fused multiply-add. |
| C335 Missing targets and very large values in boosting gradients | partial | `NonFinite/MissingTargetProps.lean` | A NaN target gives a NaN gradient for every objective except the absolute error, Huber and quantile; for these it has the gradient -1, minus the threshold and 0, with an ordinary Hessian, so that it acts as a target far above the prediction or as one already met. The gradients of the absolute error and of Huber are finite for all inputs. The fair objective overflows: with the parameter 2^600 its Hessian at 1 for the target 0 is NaN and its gradient at 2^600 is infinite. math.Max and math.Min of a NaN prediction are not modelled; the statements are about NaN targets. Over binary64 with overflow, infinities and NaN (signed zeros are not distinguished). |
| C336 When a node of a boosted tree becomes a leaf, and the minimum of rows with GOSS | partial | `Trainer/MinRowsProps.lean` | The first part holds for all inputs (law-free), with the smaller minimum for GOSS. But that minimum has no effect: the split finder still asks for MinDataInLeaf rows on each side, so with a positive MinGainToSplit exactly the tree without the adjustment is grown (goss_minimum_without_effect, exact arithmetic). Exact arithmetic: floating-point rounding is not modelled. |
| C337 Tensors of zeros and of ones | proved | `Tensor/FilledProps.lean` | Law-free; the memory is a heap of slices. Shapes of another length or with a dimension that is not positive are outside this statement. |
| C338 The adaptive learning rate is halved exactly when the loss stagnates | proved | `Online/AdaptiveProps.lean` | Law-free over any linear order; the history is the sequence of recorded losses. Losses that are NaN are not part of this model. |
| C339 All ways of feeding the drift detector are one | proved | `Drift/ErrorCallProps.lean` | Exact arithmetic for the distance of a prediction; the rest is law-free. The second theorem records that a negative error, however large, counts as a correct prediction. Exact arithmetic: floating-point rounding is not modelled. |
| C340 A booster predicts row by row in order and refuses without a model | proved | `Boost/RowOrderProps.lean` | Law-free. Hypothesis of the first theorem: no trained model was given after a loaded one, since otherwise the booster keeps answering with the older loaded model (C221). |
| C341 A regressor after loading a model | partial | `Wrapper/RegLoadProps.lean` | Law-free. The last part holds for LoadModel only: LoadModelFromString and LoadModelFromJSON keep the objective the regressor had before, so the next Fit trains another objective than after LoadModel (string_load_keeps_old_objective). An objective that is not one of regression becomes squared error. |
| C342 The JSON writer refuses exactly the numbers JSON cannot hold | proved | `LGB/JsonFiniteProps.lean` | Law-free; which numbers JSON can hold is a parameter, true for 0. A cyclic tree overflows the stack, which the model reports as a panic. |
| C343 The options of an estimator reach training | partial | `Wrapper/OptionProps.lean` | The first part holds, with 0 standing for the default. The last part is false: without bagging, colsample_bytree, the rounds of early stopping and the seed have no effect on Fit for any data, whatever random numbers are drawn for them; the sampled columns are read only by a function nothing calls. Law-free. |
| C344 The ranking objectives rank | partial | `Wrapper/RankingProps.lean` | False of the code: both objectives train the squared error on the relevances, with the same trees and starting score for any data (ranking_trains_regression, law-free), and a query of one document has a gradient. What holds: of two documents with equal scores the more relevant one is pushed up more. Exact arithmetic: floating-point rounding is not modelled. |
| C345 The drift detector on exact, missing and infinite predictions | partial | `NonFinite/DDMFloatProps.lean` | Proved for finite predictions. An infinite prediction equal to its target counts as a mistake (exact_infinite_counts_mistake) and can signal drift. math.Sqrt enters with sqrt(0) = 0. Over binary64 with overflow, infinities and NaN (signed zeros are not distinguished). |
| C346 Missing values in the data of a linear regression stay in their row | proved | `NonFinite/LinearMissingProps.lean` | linear.LinearRegression. Over binary64 with overflow, infinities and NaN (signed zeros are not distinguished). |
| C347 A row with a missing value is labelled as the first class by every linear classifier | proved | `NonFinite/LogisticMissingProps.lean` | math.Exp enters with exp(NaN) = NaN. Over binary64 with overflow, infinities and NaN (signed zeros are not distinguished). |

## 4. Where the code departs from what its users would expect

Found by writing the model and trying to prove the property; each has a theorem (see the
property) unless marked "(read)", which means noticed while reading and visible in the
model but without a theorem of its own.

**Estimators that a failed call corrupts.** `linear.LinearRegression` (C41), MultinomialNB
(C32), MiniBatchKMeans (C75), Pipeline (C78), LogisticRegression (C88, C91), LGBMClassifier
(C161), LGBMRegressor (C169): the expected width, the classes or the steps are overwritten
before the call can fail.

**Linear models.** `Clone`/`ImportWeights` of LinearRegression lose `n_features` (C42);
`Positive` clamps instead of solving (C82); weights share nested values (C43). SGD: a reduced
`eta0` is never restored (C85), logistic derivative wrong for misclassified samples (C86),
softmax without shift (C87); averaging options are dead (read). PA: step length ignores the
intercept (C45). LogisticRegression.Predict does not check the width (C46).

**Clustering, drift, trees.** `PartialFit` after `Fit` panics in MiniBatchKMeans (C37). DDM
never reports a drift in its statistics (C26). ADWIN never compresses (C28). Narrow queries
panic in the decision tree (C34).

**Scores.** The tree and LogisticRegression turn an error of Predict into 0; labels are
compared without fractional part; short label columns are accepted or panic (C157).

**LightGBM trees and files.** Initial score, categorical splits and one-vs-all are lost in
JSON (C48); text files predict the transformation of zero (C49); JSON and text loaders build
wrong trees (C51, C94, C97); prediction entry points disagree on shrinkage, initial score and
exponential (C53, C93, C95); dumps lose categories and text-loaded leaf values (C190); a booster
saved as JSON is read back with wrong right subtrees, without initial score and with missing
values sent another way (C191); leaf numbers of loaded models collide (C192); raw scores of
loaded multiclass models leave the initial score out (C193); leaf indices are 0 for text-loaded trees (C152); a child index
beyond the array panics in PredictLeafIndex while Predict returns 0 (read).

**LightGBM training.** No depth limit and MinGainToSplit = 0 may never end; NumLeaves and
MinDataInLeaf may be violated (C54). Quantile loss and initial score use opposite levels
(C56); binary loss wrong for non-negative scores (C57); Huber and Tweedie initial scores
(C111). NaN categories are routed differently in training and prediction (C121); GOSS
weights biased (C124); DART, random forests and monotone constraints are never used by Fit
(C125, C127); the model ignores the learning rate (C129); refitting a trainer keeps old trees
and scores, and a stop request ends later trainings at once (C130). Schedules and parameter resets
never reach the trainer (C195); PrintEvaluation prints twice (C197); improved-only checkpoints may hold
the model before the iteration they are named after (C198). Multiclass training fits one score from the raw labels; feature_fraction,
MaxCatToOnehot, MinDataInBin and checkEarlyStopping have no effect (read). Quantile bins with
a repeated maximum diverge; a NaN gradient makes the compare-and-swap loops spin (C63).
Categorical order and the L1 gain are not optimal (C118, C119).

**LightGBM API.** `Train` with early stopping returns no booster (C59); patience is
halved (C105); trees ignore the round argument (C106); prediction options ignored (C107);
loaded boosters misreport (C108, C110); cached predictions survive SetModel (C109); metrics
where larger is better are stopped the wrong way (C104). Cross-validation leaks the test fold
through early stopping (C102). Dataset: fewer than eight rows are never binary (C147), rejected
labels are kept (C149), short weights panic later (C148). Quick: AutoFit may return a nil model
(C154), QuickCrossValidate reports training scores (C155).

**LightGBM wrappers.** Labels are not mapped to 0/1, so labels {1,2} always predict 2 (C165);
DecisionFunction applies the link (C164); save and load lose the labels (C172); regressor Fit
ignores the boosting type (C167); quantiles are one scaled prediction and cross (C170);
CategoricalFeatures and MinChildWeight of the classifier are ignored (read). SetParams of the
classifier ignores four names GetParams reports (C117).

**Python-style training.** Parameters of an unexpected Go type are dropped silently (C180); scores
called logloss are accuracies, and some objectives always score 0 (C181); early stopping then prefers
the worse accuracy for three objective names (C182); `QuickTrain` writes into the caller's map and
replaces `num_class` (C183) and fits several classes by a regression (C184); `ErrEarlyStop` from
`BeforeIteration` is ignored and from `AfterIteration` fails training (C186); the last printed line
has the wrong number or is missing (C188); `ResetParameterCallback` never affects training (C189);
`WithInitModel` is read by nothing (read).

**Online models, logistic regression.** A warm-started Fit on a wider matrix panics and on a
narrower one keeps leftover weights (C173, C174); an empty class list makes Predict panic (C173);
labels first seen in later batches are skipped silently (C176, C177). Solver names other than
lbfgs accept every penalty name and ignore all but l2 (C179).

**EFB, SHAP, evaluation.** EFB loses negative values and values from 1000 on (C62), and its
optimizer is not reusable (C131). SHAP values do not add up (C65); NaN goes right unlike
Predict (read). Multiclass F1 is not the macro average (C113).

**Core.** Tensor: `T` panics, shapes alias (C115). Pool: `ToMat` of a recycled buffer panics
(C69); sizes overflow (C70, C98). `ChunkedProcessor.Process` never calls its callback: the scanner's `Scan` is always false (C208). A nil matrix in a `StreamingPipeline` ends the process; its byte counter misses overflow (C206, C207).
Base estimator: clones, deep parameter maps and exported weights share pointer, slice and map values
(C199); `GetParams(false)` returns the live map, but a detached one before the first `SetParams`
(C200); an import keeps parameters the weights lack and never makes a model unfitted (C203).
`EvaluateRegression` fails as a whole for constant targets; its NaN fallback is dead (C204).
Logging: SetLevel wrong (C135), With drops fields (C137), NaN loses the entry (C138), integers
are never found (C140), derived loggers race (C142). Persistence: a failed save destroys the
old file (C144), zero fields keep old content (C145), truncated text models load (C146).
Cross-validation (`cross_validation.go`): `auc`, `r2` and unknown metric names compute the mean squared error, and for `auc`/`r2` the fold with the
largest error is called best; `accuracy` knows the labels 0 and 1 only although it is the default for more than two classes (C209).
`CrossValidateRegressor` drops `Alpha`, `HuberAlpha`, `FairC`, `TweedieVariancePower`; `CrossValidateClassifier` does not look at the labels (C211).

`Warn` calls the handler with the mutex held: a handler that uses the package blocks every goroutine; `SetWarningHandler` has no effect while a zerolog
function is set (C212). `GCOptimizer.Stop` leaves a memory limit of 1 GiB behind and the optimizer cannot be restarted; its average pause is always 0
(C213). `MatrixPool` can miss its peak and its reuse rate exceeds 1 (C214).

LightGBM text files: three blank lines between sections are refused by the `leaves` loader (C216), and a file that lost its last characters is loaded
as another model, or crashes the loader or the first prediction (C217). `SaveModel` of `LGBMRegressor`/`LGBMClassifier` writes no child references:
`LoadModel` panics on every file with a split, and the initial score is not written (C218). `LoadFromFile` loads constant trees without nodes, which
`Predictor` counts as 0; drops a tree that is not followed by a blank line; takes the importance of a feature called `num_class`, `objective` or
`max_feature_idx` for the header; and cannot read files with a line of 64 KiB, which models of some thousand leaves have (C219).

Booster: a booster that was loaded predicts with the loaded model for ever, also after `SetModel` and `InitFromModel` (C221); its raw scores are
predictions with the link applied (C222); `Update` trains nothing and `SetModel` keeps the old counters (C223); evaluation results of `("a-b","c")` and
`("a","b-c")` share a list (C224).

`FitWithValidation` ignores bagging, GOSS and an initial score that was set (C225). Its validation score multiplies the running sum by each weight, so a last
weight 0 makes every score 0; for `binary` it takes the loss at the probability instead of the raw score, together with the sign error of C57 this
makes the model with the worse probabilities win (C226).
- **Decision tree parameters** (`sklearn/tree/tree.go:37-40,545-569`): `max_leaf_nodes`, `max_features` and `random_state` are accepted and reported but never read by training (C229); a refused `SetParams` keeps the assignments made before the offending name (C228); a value of another integer type (`int64` for `max_depth`) panics.
- **Pipeline parameters** (`sklearn/pipeline/pipeline.go:308-342`): `SetParams` ignores the parameters of steps, `steps` and `memory` and always returns nil (C231); steps called `a` and `a__b` can hide each other's parameters in `GetParams` (C230).
- **QuickBenchmark** (`sklearn/lightgbm/quick.go:384-402`): sets `NumFeatures` of the model but not `nFeatures` of the classifier, so every timed `Predict` returns a dimension error, which is discarded (C234).
- **QuickLoadAndPredict** (`sklearn/lightgbm/quick.go:260-274`): a regression file read with `isClassifier` predicts the label 0 for every row without an error (C233).
- **WithClassPrior** (`sklearn/naive_bayes/multinomial_nb.go:83-87`): keeps the caller's slice; a later write by the caller changes the priors of the next training (C236).
- **Refitting** (`sklearn/linear_model/sgd_regressor.go`, `sgd_classifier.go`, `sklearn/cluster/minibatch_kmeans.go`): `Fit` without warm start does not seed the generator again, so a second `Fit` on the same data gives another model although `random_state` is set (C238).
- **StratifiedKFold** (`sklearn/lightgbm/cross_validation.go:134-200`): with shuffling, one seeded generator serves the classes in map order, so the folds differ from run to run in spite of the seed (C239).
- **LogisticRegression random_state** (`sklearn/linear_model/logistic.go:83-90,939-956`): stored but the first weights are drawn from `crypto/rand` (C240).
- **GOSS seeds** (`sklearn/lightgbm/trainer.go:961-970`): seed 0 takes the clock even in the deterministic mode (C241); any other seed restarts the generator in every iteration, so the same ranks are drawn for every tree (C242).
- `Predictor.PredictLeaf` and `Predictor.PredictLeafIndex` number the leaves of a tree differently unless its leaves stand in the node array from left to right (trained trees: yes; loaded trees: not always), and only the second compares with a tolerance (C247). `PredictLeaf` panics for a model without trees.
- SGDRegressor and SGDClassifier: a warm-started `Fit` does not clear the convergence flag, so after one converged call every later one reports convergence and never warns; `SGDClassifier.PartialFit` adds a loss but does not count an iteration, `SGDRegressor.PartialFit` does both (C248).
- `StateManager.WithState`/`WithStateMut` (`core/model/state_manager.go:105-116`) hold the lock while the callback runs: a callback of `WithStateMut` that calls any method of the manager (`IsFitted`, …) hangs for ever, so does one of `WithState` that calls a setter, and one of `WithState` that only reads hangs if another goroutine's setter comes in between (C249).
- Training with a negative `max_bin` panics in `findQuantileBinBoundaries` (trainer.go:763-802) instead of returning an error
  (`Scigo.Trainer.binning_panics_iff`, C250). The compensation term of `kahanAdd` is a local that is never stored, so the "Kahan" sums of the
  histograms are plain sums.
- `LoadFromFile` and `LoadFromJSONFile` clean their path "to prevent path traversal attacks" (loader.go:16-17, 272-273) and then open whatever comes
  out: `../x` stays `../x`. `LoadLeavesModelFromFile` refuses `./model.txt` and `a..b`; all loaders open absolute paths; `LoadModelAutoDetect`
  accepts `./m` if it holds JSON and refuses it if it holds a text model (C251).
- `GetCachedFeatureValues` (histogram_optimization.go:540-569) keys its cache by the feature index alone and ignores the matrix and rows it is
  given: the second call for a feature gets the first call's values, even with other rows or another matrix; and a call in flight while
  `ClearCache` runs puts its old values back (`Scigo.Hist.Cache.cache_is_stale`, `clear_is_overtaken`, C252).

- **Multiclass probabilities are inverted for scores far apart** (C253). `Model.Predict` normalises raw scores with a 21-term power series in place
  of the exponential (model.go:475-519). After the shift by the largest score all arguments are negative, where the truncated series grows again:
  raw scores 30, 0, 0 give the first class a probability below 1e-9 and the others about one half each (`multiclass_wrong_for_large_gaps`). Scores
  within 6 of the largest are ordered correctly, and the winner is right within 8 (`multiclass_order_partial`).

- **Early stopping without validation data does nothing** (C254). `checkEarlyStopping` (trainer.go:1319-1332) returns false on every path; the best
  score it keeps starts at 0, below every loss of the usual objectives, and nothing reads it (`early_stopping_never_stops`).
- **IsEFBBeneficial and CreateBundles disagree** (C256): ten columns with one common non-zero row are "beneficial" and nothing is bundled; two
  exclusive columns are not, and are bundled (`beneficial_without_bundles`, `bundles_without_benefit`).
- `PredictSHAP` (shap.go:421-439) does not compare the number of columns with the model: with too few columns the way through a tree ends at the split on the missing column and the leaf value 0 of that inner node is explained; `CalculateInteractions` of the same matrix panics with an index out of range (C257, `narrow_matrix_explained`).
- C259: `Predictor` compares the best iteration and the number of iterations with the number of **trees**; with several classes, one tree per class and iteration, it cuts
  inside an iteration, so some classes lose trees (`best_iteration_cuts_classes`).
- C260: `ValidateObjective`, `CreateObjectiveFunction` and `parseObjective` know different names: `mape` is validated but cannot be trained (`mape_not_trained`),
  `logistic` can be trained but is refused (`logistic_not_validated`), and the JSON loader reads several names as another objective (`json_disagrees`).
- C262: the production logger writes an error passed as a field under `error` instead of its key, so two errors share one key (`error_key_lost`), and drops the last
  argument of an odd number (`odd_argument_dropped`).
- C263: the rows of the SHAP interaction matrix do not sum up to the SHAP values: the diagonal already holds the whole value (`interaction_rows_not_additive`).

* **Categorical splits are not the best grouping with L2 regularisation or a minimum of rows** (C264, `l2_order_not_optimal`, `min_data_not_optimal`): sorting by
  `grad / (hess + lambda)` and cutting the list finds the best of all groupings only when `lambda = 0` or the categories carry equal hessians, and only when
  no prefix is excluded by `min_data_in_leaf`.
* **A categorical split and its categories are computed with different orders** (C265, `categories_of_split_differ`): `findBestCategoricalSplit` sorts by
  `SumGrad / (SumHess + CatSmooth)` and stores only the number of categories; `getCategoriesForSplit` sorts by `SumGrad / (SumHess + Lambda)` and takes that many.
  The search is reached only from `findBestSplitWithHistogram`, which `Fit` does not call.
* **Weight hashes of models with NaN or infinite weights are all the same** (C266, `nonfinite_hash`): `json.Marshal` fails on such numbers, its error is dropped, and
  the hash is that of no bytes.
* **The checksum of exported weights does not cover the intercept** (C267, `altered_intercept_accepted`): weights with another intercept are imported without error.
* **WithObjective and SetParams store different objectives** (C268, `objective_not_normalised`): `SetParams` stores the canonical name, `WithObjective` the name given.
* **C269** `MSE` can be 0 for different vectors: squared differences below 2^-1075 underflow (`metrics/regression.go`).
* **C270** `MinMaxScaler` with feature range [-0.2, 0.4] maps the largest training value to 0.4000000000000001: the width is rounded before the
  lower limit is added back (`preprocessing/scaler.go`).
* **C271** `StandardScaler` maps three rows with the value 100000000.1 to 1, not 0: the rounded mean differs from the value by 2^-26, which passes
  the test against 1e-8 (`preprocessing/scaler.go`).
* **C272** `DecisionTreeClassifier`: the midpoint of the neighbouring numbers 1 + 2^-52 and 1 + 2·2^-52 rounds to the larger one, so the rows cannot
  be separated (`sklearn/tree/tree.go:353`).
* **C276** `MSE` and `MAE` of finite vectors can be `+Inf` and `R2Score` NaN: the differences and their squares overflow (`metrics/regression.go`).
* **C277** `MinMaxScaler` maps the finite column [-2^1023, 2^1023] to NaN, `StandardScaler` maps [-2^600, 2^600] to zeros: range and variance overflow
  (`preprocessing/scaler.go`).
* **C278** `LogisticRegression.PredictProba` gives NaN for every class of a row if one score overflows to `+Inf` and there are not two classes
  (`sklearn/linear_model/logistic.go:834-857`).
* **C279** linear predictions of finite data with finite coefficients can be NaN (`linear/regression.go`).
* **C272** the midpoint of two large finite values overflows; the decision tree does not separate such rows (`sklearn/tree/tree.go:353`).
* **C280** `LogisticRegression` with `warm_start`: fitted again on data with more columns, `Fit` succeeds and every `Predict` panics, because `copy` keeps the old length of
  the coefficients; fitted again on more than two classes after two, `Fit` panics (`sklearn/linear_model/logistic.go:230`, `sklearn/linear_model/logistic.go:523`).
* C281: `MiniBatchKMeans` with `init="random"` draws rows with replacement, so two clusters can start from the same row however many distinct rows there are; k-means++ repeats the first row when the random number is exactly 0.
* **C283**: a `MinMaxScaler` with a range that is narrow for its place loses data: with range `[2^53, 2^53 + 2]` the value 1/4 is scaled to
  `2^53` and comes back as 0 (`minmax_range_loses`). With the default range the round trip loses a few unit roundoffs only.
* **C285** `AUC` of a perfect ranking with tied negatives can be 0.9999999999999999 instead of 1: the widths of the steps are differences of rounded
  fractions and do not add up to 1 (`perfect_ranking_below_one`). With distinct scores the widths are exact and the area is 1.
* **C286** `ADWIN.GetMean` keeps the rounding errors of values that have left the window, because the running sum is corrected by subtraction
  (`sklearn/drift/ddm.go:397`): with one bucket, after 2^53, 1, 1 the window holds the value 1 and the mean is 0 (`adwin_mean_forgets`).
* **C287** `MultinomialNB` on fractional counts (tf-idf weights) depends on the order of the rows in the last bit: 0.1, 0.1, 0.6 and 0.6, 0.1, 0.1 give
  different feature probabilities (`fractional_counts_depend_on_order`); on whole-number counts it does not.
- **C288** `PartialFit` of `MiniBatchKMeans` updates a centre as `(1-eta)*c + eta*x` (minibatch_kmeans.go:278), which in float64 is not a convex combination: five rows equal to 3 give the centre 3.0000000000000004, and the drift can grow with the number of rows. `c + eta*(x-c)` would leave a centre equal to the sample unchanged.
- **C289** `findBestSplit` takes any computed decrease above 0 (tree.go:383), so rounding errors make splits that separate nothing: fifteen rows, five mixed 1:4 and ten mixed 2:8, are split with the default parameters although the exact decrease is 0. A small positive `minImpurityDecrease` avoids this (theorem `split_near_optimal_partial`).
- **C291**: with the schedule "optimal" (default of SGDClassifier) `SetLearningRate` changes nothing: no later training call, weight, loss or reported rate depends on it, and `GetLearningRate` does not give back what was set (1/2 set, 10 reported).
- **C292**: the mean of a column is a plain running sum, so it can lose everything: 2^53, 1, -2^53 has the mean 1/3, the scaler stores 0.
* **C294** LightGBM training on a feature whose values have magnitude `2^21` or more (amounts, identifiers, timestamps): the margin `1e-10` added to each
  bin bound is lost in rounding (`sklearn/lightgbm/histogram_optimization.go:233-240`). A feature with two such values is never split, and every split found on
  more values counts the rows below its threshold while the trainer also sends the rows equal to it left.
* **C295** `HistogramSubtraction` loses rows to cancellation in float64: parent hessians `2^53, 1, 1` minus the child with the two small ones leave
  `2^53 - 2` for a sibling whose only row has `2^53` (`sklearn/lightgbm/histogram_optimization.go:458-478`).
* **C296** Feature bundling adds the value to an offset of 1000 or more: in float64 `0.1` comes back as `0.10000000000002274`, and the largest number below
  1000 comes back as 0, the row then reading as all zero in the bundle (`sklearn/lightgbm/efb.go:316-333`, `sklearn/lightgbm/efb.go:377-418`).
* **C297** Metrics hide NaN: `AUC` of all-NaN scores is 1 or 0 depending on the order of the rows, `Accuracy` counts a NaN as a wrong label, and `MAPE` skips it when the target is 0.
* **C298** One row with NaN passed to `PartialFit` of `MiniBatchKMeans` makes the first centre NaN for ever (`sklearn/cluster/minibatch_kmeans.go:203-214`), and no later row is assigned to it.
* **C299** `euclideanDistance` overflows for coordinates beyond about 1e154 (`sklearn/cluster/minibatch_kmeans.go:586-598`): the sample `2^600` with centres `0` and `2^599` gets label 0.
* **C300** One NaN passed to `ADWIN.Update` stays in the running sum: `GetMean` is NaN until a drift is reported, also when the window holds only numbers, and no drift is reported while the NaN is in the window (`sklearn/drift/ddm.go:289-316`).
* **C301** `MinMaxScaler.Fit` starts from row 0 (`preprocessing/scaler.go:409-423`): NaN there makes the whole column NaN, NaN in any other row is ignored, so the result depends on the order of the rows.
* **C302** `MultinomialNB` with `WithAlpha(0)`, documented as "no smoothing", computes `0 * log 0 = NaN` (`sklearn/naive_bayes/multinomial_nb.go:264-274`): fitted on `(1,0)` of class 0 and `(0,1)` of class 1, `Predict` puts `(0,1)` into class 0.
* **C303** `SGDRegressor`: the rollback of an unstable weight adds the NaN step again and the intercept is not tested (`sklearn/linear_model/sgd_regressor.go:361-380`), so one NaN target spoils the model for ever. A NaN feature divides the learning rate by ten for good.
* **C305** `SGDClassifier` multiplies a zero gradient by the NaN feature (`sklearn/linear_model/sgd_classifier.go:362-376`), so one NaN feature makes every decision value NaN for ever and `Predict` constant.
* **C306** `findBestSplit` averages neighbours as `(v1 + v2) / 2` (`sklearn/tree/tree.go:353`): above about 9e307 the sum overflows, the threshold is infinite and the feature is never split.
* **C307** `StandardScaler.Fit` (`preprocessing/scaler.go:126-162`) takes NaN into mean and deviation: one NaN in a training column makes that column NaN in every later `Transform`.
* **C308** `LGBMRegressor.Fit` does not look for NaN in the targets: with the default objective, huber or poisson the mean is the initial score of the model (`sklearn/lightgbm/trainer.go:438-446`), so one NaN target makes every prediction NaN although `Fit` reports success.
* **C309** `findNearestCluster` (`sklearn/cluster/minibatch_kmeans.go:553-566`) compares rounded distances: with the centres -1 and 0 the value 2^53 is assigned to -1. The excess is a few units of rounding.
* **C311** `calculateLeafValue` (`sklearn/lightgbm/trainer.go:1278-1294`) adds gradients in row order without compensation: 2^53, 1, -2^53 give the leaf value 0, the order 2^53, -2^53, 1 about -1/3. The error is bounded by the sum of the absolute gradients.
* **C312** `FindBestSplitFromHistogram` (`sklearn/lightgbm/histogram_optimization.go:289-336`) compares rounded gains: gradients 2^53, 1, -2^53 with hessians 1, 0, 1 make it return the first boundary although the second is better. The loss is bounded by the error of the sums.
* **C313** `R2Score` (`metrics/regression.go:249-272`) tests `tss == 0` after rounding: the constant target 0.1, 0.1, 0.1 passes the test (its rounded mean is 0.10000000000000002) and predictions 0.2 get a score below -1e30 instead of the error "no variance"; different targets of size 1e-180 are refused.
* **C315** the number of rows, features and trees is `int(float64(n) * fraction)` (`sklearn/lightgbm/trainer_params.go:45, 96`, `trainer.go:255, 941`): a fraction of 0.29 takes 28 of 100 rows instead of 29, and a DART drop rate of 0.07 drops 8 of 100 trees instead of 7.
* **C316** starting scores (`sklearn/lightgbm/objectives.go:52-62, 616-678`): the mean of 0.1 three times and the 0.1-quantile of 0.3 twice are above every target, and the median of two targets `2^1023` is infinite (`(a + b) / 2` overflows).
- **A missing feature value hides splits of a decision tree** (sklearn/tree/tree.go:333-365). The rows are sorted by a comparison that is false in both directions for NaN, so a NaN splits the sorted order into parts that are not merged, and the candidate thresholds next to it are NaN and rejected. With the values 3, NaN, 1 of the classes 0, 0, 1 the tree is a single leaf (`missing_hides_split`, C317).
- **One missing value spoils the histogram of a feature** (sklearn/lightgbm/histogram_optimization.go:214-286). `sort.Float64s` puts NaN first, so the lowest bound is NaN. If the node has more different values than `MaxBin`, no bound is greater than NaN and the feature has no bins at all (`missing_disables_feature`); otherwise the rows with the smallest value are not found by the binary search and land in the last bin, while every threshold sends them left (`missing_moves_smallest`). The values 1, 2 are split; the values 1, 2, NaN are not (`missing_hides_boosted_split`, C318).
- **BinaryLogLoss does not treat both classes alike** (metrics/classification.go:253-281). In float64 `1 - (1 - 1e-15)` is `9/2^53`, about `9.992e-16`: a certain wrong prediction of class 1 costs `-log(9.992e-16)`, one of class 0 `-log(1e-15)` (`swap_classes_changes`, C320).
`Recover` loses the cause of a panic: `PanicError.Unwrap` returns nil even if the code panicked with an error value, and if an error was already set the result is
a plain `fmt.Errorf` value in which no `PanicError` can be found (C321). `NewCatastrophicForgettingWarning` divides by the old performance: for a negative one, as
R² can be, a rise is reported as a drop and a drop as a rise, and for zero the rate is infinite or NaN (C322).
- **ClipGradient loses a large gradient** (pkg/errors/numerical.go:74-93). The squares are summed without scaling: for `[2^600, 1]` the norm is `+Inf`, the factor `maxNorm / Inf` is 0 and the clipped gradient is zero (`clip_gradient_overflow`); infinite entries become NaN, and a gradient with a NaN is not clipped at all (`clip_gradient_nan`, C324). `SafeDivide` of `2^1000` by `2^-30` is infinite (`safe_divide_overflow`).
- **LogSumExp of a list with +Inf is NaN** (pkg/errors/numerical.go:119-144), as `Inf - Inf` is computed, and a NaN after values that are all `-Inf` is hidden (`log_sum_exp_inf`, `log_sum_exp_hides`, C325).
- ADWIN raises a false alarm on a constant stream of large values (sklearn/drift/ddm.go:319-379): the bound of Hoeffding is for values in [0, 1] and is not scaled, so the rounding of the sums exceeds it. Five equal values of 1.6e18 (nanosecond time stamps) signal drift (`adwin_constant_alarm`, C329).
- `GetMeanScore` and `GetStdScore` of equal fold scores (sklearn/lightgbm/cross_validation.go:214-239): three folds with score 0.1 report a mean above 0.1 and a positive standard deviation (`cv_equal_scores_spread`, C330). A rounding effect, harmless unless the spread is compared with 0.
- F1 above precision and recall (sklearn/lightgbm/evaluation_metrics.go:98-102): with precision and recall both 0.8 the reported F1 is 0.8000000000000002 (`f1_above_both`, C332). A rounding effect; 2tp/(2tp+fp+fn) would be correctly rounded.
* `fair` objective in `float64` (C334): the Hessian underflows to 0 far from the target (the other objectives with a vanishing Hessian have a floor of `1e-7` or `1e-16`, this one and `poisson` have none), the gradient can exceed its bound by a rounding error and can fall while the prediction grows (`sklearn/lightgbm/objectives.go:246-262`).
* A NaN target is taken for a number by three objectives (C335): the absolute error gives it the gradient -1, Huber's loss minus its threshold, the quantile loss 0 (`sklearn/lightgbm/objectives.go:71-90,127-145,198-212`). With a large parameter the `fair` objective overflows to a NaN Hessian (`:254-259`).
* `buildNode` lowers `MinDataInLeaf` for GOSS, but the split finder keeps the full value, so the lower minimum has no effect (C336, `sklearn/lightgbm/trainer.go:1029-1049`, `sklearn/lightgbm/histogram_optimization.go:521-524`).
- `DDM.UpdateWithError` compares the signed error with 0.1, so an error of -5 counts as a correct prediction (`negative_error_counts_correct`, sklearn/drift/ddm.go:158-162).
- `LGBMRegressor.LoadModelFromString` and `LoadModelFromJSON` do not take over the objective of the model, `LoadModel` does: a later `Fit` trains different objectives (`string_load_keeps_old_objective`, sklearn/lightgbm/lgbm_regressor.go:498-525).
- `ColsampleBytree` has no effect: the columns sampled per iteration are stored and read only by `findBestSplitWithHistogram`, which nothing but a test calls (`colsample_without_effect`, `regressor_colsample_without_effect`, sklearn/lightgbm/trainer.go:477,1146).
- The objectives `lambdarank` and `rank_xendcg` train the squared error on the relevances; query groups are ignored (`ranking_trains_regression`, sklearn/lightgbm/objectives.go:562-614,715).
- `DDM.UpdateWithPrediction(+Inf, +Inf)` counts as a mistake, since the difference is NaN (`exact_infinite_counts_mistake`, sklearn/drift/ddm.go:152-155).
- A row with a missing value is labelled as the first class by `LogisticRegression`, `SGDClassifier` and
  `PassiveAggressiveClassifier`, without an error, though the probabilities are NaN (C347).

### Tests against wrong programs

`seeded/LOG.jsonl` records one line per edited model: the definition, the edit, the claim it
breaks, the theorems that failed to prove, and the theorems tightened when none failed.
## 5. Trusted base

* The Lean 4 kernel. `vcheck` and `lake build` re-check every theorem.
* Axioms: every theorem named in `MANIFEST.json` depends on a subset of `propext`,
  `Classical.choice`, `Quot.sound`. `AXIOMS.txt` lists them theorem by theorem
  (made by `scripts/axioms.sh`). No axiom is added; no `sorry`, `native_decide`,
  `bv_decide`, `implemented_by` or `unsafe` is used.
* The reading of the Go source by hand: each definition cites the lines it models; no
  tool checks that correspondence. Where a definition simplifies, its comment says so.
* gonum, the Go runtime, `encoding/json`, `encoding/gob`, `zerolog` are not modelled beyond
  the behaviour stated in the model comments.

### Modelled and not modelled

A function counts as modelled if a definition cites its lines. Not modelled: everything
in `examples/`, `benchmarks/`, `cmd/`, `sklearn/debug`, `tests/`, the files
`sklearn/lightgbm/test_*.go`, and the functions of the following list (constructors, option
setters and plain accessors of at most three lines left out).

* `pkg/log/logger.go`: LogError, LogWarningWithDetails, extractStacktrace, GetDefaultLogger, GetLoggerWithName
* `sklearn/linear_model/passive_aggressive.go`: NIterations, NIterations, IsWarmStart, IsWarmStart, SetWarmStart, SetWarmStart, initializeWeights, getClassIndex
* `sklearn/lightgbm/objectives.go`: CalculateGradient, CalculateHessian, CalculateLoss, GetInitScore, NewMulticlassLogLoss
* `preprocessing/scaler.go`: GetParams, String, GetParams, String
* `core/model/sklearn_import.go`: LoadSKLearnModelFromFile, ExportSKLearnModel
* `pkg/errors/errors.go`: Error, MarshalZerologObject, MarshalZerologObject
* `pkg/log/testing.go`: NewTestLoggerProvider
* `sklearn/linear_model/sgd_classifier.go`: IsWarmStart, SetWarmStart, GetConverged, getClassIndex
* `sklearn/lightgbm/histogram_optimization.go`: NewHistogramBuilder
* `sklearn/lightgbm/cross_validation.go`: NewKFold, NewStratifiedKFold
* `sklearn/lightgbm/api/train.go`: WithCallbacks, WithValidNames, WithEarlyStopping, WithVerboseEval, WithInitModel
* `sklearn/linear_model/sgd_regressor.go`: IsWarmStart, SetWarmStart, Intercept
* `sklearn/drift/ddm.go`: GetStatistics, GetWidth
* `sklearn/lightgbm/api/dataset.go`: ConstructFromFile
* `performance/large_scale.go`: NewChunkedProcessor, GetMetrics
* `sklearn/lightgbm/api/booster.go`: NumFeatures
* `sklearn/lightgbm/shap.go`: NewTreeSHAP, NewInteractionSHAP, contains
* `sklearn/lightgbm/predictor.go`: NewPredictor, SetNumThreads
* `sklearn/cluster/minibatch_kmeans.go`: NIterations, Inertia
* `sklearn/linear_model/linear_regression.go`: String
* `pkg/log/interface.go`: String
* `linear/regression.go`: GetParams, SetParams
* `sklearn/lightgbm/lgbm_classifier.go`: SaveModel
* `sklearn/lightgbm/lgbm_regressor.go`: SaveModel
* `sklearn/lightgbm/predictor_extended.go`: PredictLeaf
* `sklearn/lightgbm/trainer.go`: WithCallbacks, findOptimalBinBoundaries
* `sklearn/pipeline/pipeline.go`: Steps
* `core/model/persistence.go`: SaveModelToWriter
* `performance/memory_optimizer.go`: GetUsage
* `sklearn/lightgbm/trainer_params.go`: NewRegularizationStrategy
* `sklearn/lightgbm/simple_predictor.go`: NewSimplePredictor
* `sklearn/lightgbm/leaves_predictor.go`: NewLeavesPredictor
* `core/model/state_manager.go`: NewStateManager
* `sklearn/linear_model/logistic.go`: fitMultinomial
* `sklearn/lightgbm/loader.go`: LoadFromString
