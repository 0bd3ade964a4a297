{
 "claims": [
  {
   "property": "C01",
   "status": "proved",
   "theorems": [
    "Scigo.Parallel.parallelize_covers_exactly_once",
    "Scigo.Parallel.threshold_covers_exactly_once"
   ],
   "note": ""
  },
  {
   "property": "C02",
   "status": "proved",
   "theorems": [
    "Scigo.Parallel.parallelize_schedule_independent",
    "Scigo.Parallel.parallelize_no_deadlock",
    "Scigo.Parallel.parallelize_terminates"
   ],
   "note": "Workers' atomic writes interleaved arbitrarily; Go memory model: each action on a cell is atomic, WaitGroup gives the happens-before edge."
  },
  {
   "property": "C03",
   "status": "proved",
   "theorems": [
    "Scigo.State.state_linearizable",
    "Scigo.State.state_log_is_interleaving",
    "Scigo.State.getDimensions_not_torn",
    "Scigo.State.state_no_deadlock"
   ],
   "note": "Field accesses interleave one at a time under the RWMutex contract. Caller code under the lock (WithState, WithStateMut) is C249, which also covers the rule that a waiting Lock holds back new readers."
  },
  {
   "property": "C04",
   "status": "proved",
   "theorems": [
    "Scigo.Errors.method_never_panics",
    "Scigo.Errors.method_return_unchanged",
    "Scigo.Errors.method_panic_becomes_error",
    "Scigo.Errors.method_nil_iff",
    "Scigo.Errors.deep_panic_is_caught",
    "Scigo.Errors.caller_continues",
    "Scigo.Errors.safeExecute_spec"
   ],
   "note": "Go's unrecoverable failures (stack exhaustion, concurrent map write, os.Exit, Goexit) are outside the model, as they are outside recover()."
  },
  {
   "property": "C05",
   "status": "proved",
   "theorems": [
    "Scigo.Errors.clipValue_spec",
    "Scigo.Errors.clipValue_outside",
    "Scigo.Errors.safeDivide_spec",
    "Scigo.Errors.clipGradient_spec",
    "Scigo.Errors.clipGradient_negative_bound",
    "Scigo.Errors.stabilize_spec"
   ],
   "note": "ClipValue for any linear order (exact on non-NaN floats); SafeDivide/ClipGradient in exact real arithmetic: float rounding of the norm is not modelled."
  },
  {
   "property": "C06",
   "status": "proved",
   "theorems": [
    "Scigo.Errors.logSumExp_eq",
    "Scigo.Errors.logSumExp_finite",
    "Scigo.Errors.logSumExp_shift",
    "Scigo.Errors.logSumExp_exponents_nonpos"
   ],
   "note": "Exact arithmetic on finite numbers and -Inf. +Inf entries, NaN and rounding: see C325."
  },
  {
   "property": "C07",
   "status": "proved",
   "theorems": [
    "Scigo.Errors.checkMatrix_iff",
    "Scigo.Errors.checkSlice_iff"
   ],
   "note": ""
  },
  {
   "property": "C08",
   "status": "proved",
   "theorems": [
    "Scigo.Metrics.mse_ok_iff",
    "Scigo.Metrics.mae_rmse_ok_iff",
    "Scigo.Metrics.mse_rejects",
    "Scigo.Metrics.mse_is_error",
    "Scigo.Metrics.mae_is_error",
    "Scigo.Metrics.mseMatrix_spec",
    "Scigo.Metrics.rmse_ge_mae",
    "Scigo.Metrics.mse_mae_value"
   ],
   "note": "Exact arithmetic: floating-point rounding is not modelled."
  },
  {
   "property": "C09",
   "status": "proved",
   "theorems": [
    "Scigo.Metrics.r2_spec",
    "Scigo.Metrics.r2_le_one",
    "Scigo.Metrics.r2_mean_predictor",
    "Scigo.Metrics.r2_le_explained_variance",
    "Scigo.Metrics.explained_variance_shift",
    "Scigo.Metrics.r2_ok_iff"
   ],
   "note": "Exact arithmetic: floating-point rounding is not modelled."
  },
  {
   "property": "C10",
   "status": "proved",
   "theorems": [
    "Scigo.Metrics.regression_metrics_perm",
    "Scigo.Metrics.error_rate_perm",
    "Scigo.Metrics.logLoss_perm",
    "Scigo.Metrics.auc_order_independent"
   ],
   "note": "AUC, error rate and accuracy law-free (bit-exact without NaN); the sums of MSE, MAE, R2, MAPE, explained variance and log loss in exact arithmetic, where reordering does not change rounding."
  },
  {
   "property": "C11",
   "status": "proved",
   "theorems": [
    "Scigo.Metrics.auc_mann_whitney",
    "Scigo.Metrics.auc_range",
    "Scigo.Metrics.auc_one_class",
    "Scigo.Metrics.auc_errors",
    "Scigo.Metrics.auc_no_panic",
    "Scigo.Metrics.auc_order_independent",
    "Scigo.Metrics.aucMatrix_eq",
    "Scigo.Metrics.aucMatrix_rejects"
   ],
   "note": "Exact arithmetic: floating-point rounding is not modelled. Scores without NaN. sort.Slice by its contract (any rearrangement of ties)."
  },
  {
   "property": "C12",
   "status": "proved",
   "theorems": [
    "Scigo.Metrics.auc_monotone_invariant",
    "Scigo.Metrics.auc_negate_scores",
    "Scigo.Metrics.auc_flip_labels"
   ],
   "note": "Exact arithmetic: floating-point rounding is not modelled."
  },
  {
   "property": "C13",
   "status": "proved",
   "theorems": [
    "Scigo.Metrics.logLoss_spec",
    "Scigo.Metrics.logLoss_rejects",
    "Scigo.Metrics.logLoss_mono"
   ],
   "note": "Exact arithmetic: floating-point rounding is not modelled."
  },
  {
   "property": "C14",
   "status": "proved",
   "theorems": [
    "Scigo.Metrics.classificationError_eq",
    "Scigo.Metrics.classificationError_ok_iff",
    "Scigo.Metrics.accuracy_spec"
   ],
   "note": "Error count law-free; complement in exact arithmetic."
  },
  {
   "property": "C15",
   "status": "proved",
   "theorems": [
    "Scigo.Metrics.ndcg_ok_iff",
    "Scigo.Metrics.ndcg_formula",
    "Scigo.Metrics.ndcg_range",
    "Scigo.Metrics.ndcg_perfect",
    "Scigo.Metrics.ndcg_all_zero",
    "Scigo.Metrics.ndcgMatrix_eq"
   ],
   "note": "Exact arithmetic: floating-point rounding is not modelled."
  },
  {
   "property": "C16",
   "status": "proved",
   "theorems": [
    "Scigo.Metrics.ap_ok_iff",
    "Scigo.Metrics.ap_range",
    "Scigo.Metrics.ap_one_by_scores",
    "Scigo.Metrics.ap_perm_no_ties",
    "Scigo.Metrics.ap_ties_order_dependent",
    "Scigo.Metrics.map_is_mean",
    "Scigo.Metrics.map_first_error",
    "Scigo.Metrics.ap_formula"
   ],
   "note": "Exact arithmetic: floating-point rounding is not modelled. ap_ties_order_dependent shows that with tied scores the value does depend on sample order."
  },
  {
   "property": "C17",
   "status": "proved",
   "theorems": [
    "Scigo.Metrics.mape_spec",
    "Scigo.Metrics.mape_nonneg_scale",
    "Scigo.Metrics.mape_ok_iff"
   ],
   "note": "Exact arithmetic: floating-point rounding is not modelled."
  },
  {
   "property": "C18",
   "status": "proved",
   "theorems": [
    "Scigo.Preprocessing.std_standardizes"
   ],
   "note": "Exact arithmetic: floating-point rounding is not modelled."
  },
  {
   "property": "C19",
   "status": "proved",
   "theorems": [
    "Scigo.Preprocessing.std_roundtrip",
    "Scigo.Preprocessing.minmax_roundtrip"
   ],
   "note": "Exact arithmetic: floating-point rounding is not modelled."
  },
  {
   "property": "C20",
   "status": "proved",
   "theorems": [
    "Scigo.Preprocessing.minmax_range",
    "Scigo.Preprocessing.minmax_monotone"
   ],
   "note": "Exact arithmetic: floating-point rounding is not modelled."
  },
  {
   "property": "C21",
   "status": "proved",
   "theorems": [
    "Scigo.Preprocessing.std_transform_protocol",
    "Scigo.Preprocessing.std_inverse_protocol",
    "Scigo.Preprocessing.minmax_transform_protocol",
    "Scigo.Preprocessing.minmax_inverse_protocol",
    "Scigo.Preprocessing.fitTransform_is_fit_then_transform",
    "Scigo.Preprocessing.encoder_protocol"
   ],
   "note": "Law-free: holds for float64 bit patterns."
  },
  {
   "property": "C22",
   "status": "proved",
   "theorems": [
    "Scigo.Preprocessing.encoder_protocol",
    "Scigo.Preprocessing.oneHot_block",
    "Scigo.Preprocessing.oneHot_injective",
    "Scigo.Preprocessing.transform_faithful",
    "Scigo.Preprocessing.featureNames_length"
   ],
   "note": "Law-free. Strings are an arbitrary linearly ordered type."
  },
  {
   "property": "C23",
   "status": "proved",
   "theorems": [
    "Scigo.Preprocessing.encoder_order_independent"
   ],
   "note": "Law-free; map iteration and sort.Strings by contract."
  },
  {
   "property": "C24",
   "status": "proved",
   "theorems": [
    "Scigo.Drift.ddm_silent_in_warmup",
    "Scigo.Drift.ddm_drift_restarts",
    "Scigo.Drift.ddm_update_result",
    "Scigo.Drift.ddm_drift_implies_warning"
   ],
   "note": "Law-free except ddm_drift_implies_warning (exact arithmetic, any non-negative square root). Each method holds the mutex, so calls are atomic steps."
  },
  {
   "property": "C25",
   "status": "proved",
   "theorems": [
    "Scigo.Drift.ddm_statistics",
    "Scigo.Drift.ddm_update_result"
   ],
   "note": "Law-free over any linear order (no NaN arises: rates lie in [0,1])."
  },
  {
   "property": "C26",
   "status": "partial",
   "theorems": [
    "Scigo.Drift.ddm_statistics_never_show_drift",
    "Scigo.Drift.ddm_drift_statistics_false",
    "Scigo.Drift.ddm_first_error_is_drift",
    "Scigo.Drift.ddm_statistics_partial"
   ],
   "note": "False as stated: Update resets the detector before returning a drift, so the statistics flag is never true (ddm_drift_statistics_false gives the witness). Proved: no drift or warning on error-free segments; the warning flag agrees."
  },
  {
   "property": "C27",
   "status": "proved",
   "theorems": [
    "Scigo.Drift.adwin_window"
   ],
   "note": "Exact arithmetic: floating-point rounding is not modelled."
  },
  {
   "property": "C28",
   "status": "partial",
   "theorems": [
    "Scigo.Drift.adwin_buckets_bounded_partial",
    "Scigo.Drift.adwin_window_linear",
    "Scigo.Drift.adwin_not_exponential"
   ],
   "note": "The bucket bound holds; exponential compression is false: buckets never exceed 2 samples and the window never exceeds 2*maxBuckets."
  },
  {
   "property": "C29",
   "status": "proved",
   "theorems": [
    "Scigo.Drift.adwin_constant_no_drift",
    "Scigo.Drift.adwin_drift_sound",
    "Scigo.Drift.adwin_no_drift_complete"
   ],
   "note": "Exact arithmetic: floating-point rounding is not modelled."
  },
  {
   "property": "C30",
   "status": "proved",
   "theorems": [
    "Scigo.NaiveBayes.partialFit_batches",
    "Scigo.NaiveBayes.fit_is_reset_partialFit",
    "Scigo.NaiveBayes.fit_classes"
   ],
   "note": "Law-free: holds for float64 bit patterns. Map iteration by contract."
  },
  {
   "property": "C31",
   "status": "proved",
   "theorems": [
    "Scigo.NaiveBayes.nb_posterior",
    "Scigo.NaiveBayes.nb_proba_distribution",
    "Scigo.NaiveBayes.posterior_is_distribution",
    "Scigo.NaiveBayes.theta_sum_one"
   ],
   "note": "Exact arithmetic: floating-point rounding is not modelled. Over reals extended with NaN and infinities, so unseen classes (log prior -Inf) are covered; training data finite."
  },
  {
   "property": "C32",
   "status": "partial",
   "theorems": [
    "Scigo.NaiveBayes.partialFit_validation_partial",
    "Scigo.NaiveBayes.fit_reject_forgets",
    "Scigo.NaiveBayes.predict_validation",
    "Scigo.NaiveBayes.unknown_labels_ignored",
    "Scigo.NaiveBayes.partialFit_counts"
   ],
   "note": "Holds for PartialFit and the prediction methods. False for Fit: it resets the model before validating, so a rejected Fit loses everything learned (fit_reject_forgets)."
  },
  {
   "property": "C33",
   "status": "proved",
   "theorems": [
    "Scigo.Tree.fit_terminates",
    "Scigo.Tree.fit_terminates_exact",
    "Scigo.Tree.fit_tree_limits",
    "Scigo.Tree.counts_unfitted"
   ],
   "note": "Law-free (float64 bit patterns) for minSamplesLeaf >= 1; termination for minSamplesLeaf <= 0 in exact arithmetic. Go stack depth not modelled."
  },
  {
   "property": "C34",
   "status": "proved",
   "theorems": [
    "Scigo.Tree.predict_from_leaf",
    "Scigo.Tree.probaRow_distribution",
    "Scigo.Tree.predict_unfitted",
    "Scigo.Tree.mem_classes",
    "Scigo.Tree.predict_no_rows"
   ],
   "note": "Law-free, except that probabilities sum to 1 in exact arithmetic. Queries narrower than the training data panic in the code (example in Props.lean)."
  },
  {
   "property": "C35",
   "status": "proved",
   "theorems": [
    "Scigo.Tree.impurity_nonneg_and_pure",
    "Scigo.Tree.gain_nonneg",
    "Scigo.Tree.findBestSplit_optimal",
    "Scigo.Tree.importances_normalised"
   ],
   "note": "Exact arithmetic: floating-point rounding is not modelled."
  },
  {
   "property": "C36",
   "status": "proved",
   "theorems": [
    "Scigo.KMeans.predict_nearest",
    "Scigo.KMeans.predict_argmin_transform",
    "Scigo.KMeans.partialFit_running_mean",
    "Scigo.KMeans.partialFit_in_range",
    "Scigo.KMeans.fit_labels_inertia"
   ],
   "note": "Exact arithmetic: floating-point rounding is not modelled. Randomness is an arbitrary oracle. predict_argmin_transform is law-free over a linear order."
  },
  {
   "property": "C37",
   "status": "partial",
   "theorems": [
    "Scigo.KMeans.partialFit_after_fit_panics",
    "Scigo.KMeans.partialFit_after_fit_partial"
   ],
   "note": "False as stated: Fit never sets the counters, so PartialFit after Fit on a fresh model panics (proved law-free). Holds if an earlier PartialFit had made the counters."
  },
  {
   "property": "C38",
   "status": "proved",
   "theorems": [
    "Scigo.Pipeline.fit_ok_iff",
    "Scigo.Pipeline.fit_first_failure",
    "Scigo.Pipeline.unfitted_refused",
    "Scigo.Pipeline.predict_ok_iff",
    "Scigo.Pipeline.predict_first_failure",
    "Scigo.Pipeline.predictProba_score_ok_iff",
    "Scigo.Pipeline.transform_ok_iff",
    "Scigo.Pipeline.transform_first_failure"
   ],
   "note": "Law-free: for arbitrary estimators acting on an arbitrary shared world (steps may share an object); panics propagate."
  },
  {
   "property": "C39",
   "status": "proved",
   "theorems": [
    "Scigo.Pipeline.inverse_undoes_transform"
   ],
   "note": "Law-free."
  },
  {
   "property": "C40",
   "status": "proved",
   "theorems": [
    "Scigo.Linear.fit_normal_equations",
    "Scigo.Linear.fit_least_squares",
    "Scigo.Linear.fit_unique_minimiser",
    "Scigo.Linear.fit_ok_iff",
    "Scigo.Linear.predict_spec",
    "Scigo.Linear.predict_after_fit",
    "Scigo.Linear.score_spec",
    "Scigo.Linear.train_score_unit",
    "Scigo.Linear.getters_predict"
   ],
   "note": "gonum's Inverse enters by contract (nil error: exact inverse; fit_ok_iff also: error means singular). Exact arithmetic: floating-point rounding is not modelled."
  },
  {
   "property": "C41",
   "status": "partial",
   "theorems": [
    "Scigo.Linear.failed_refit_keeps_model_partial",
    "Scigo.Linear.history_failed_calls_irrelevant_partial",
    "Scigo.Linear.failed_refit_breaks_predict"
   ],
   "note": "False of the code: NFeatures is overwritten (linear/regression.go:144) before the singular-matrix error, so after a failed refit on another width every Predict on the old width fails (failed_refit_breaks_predict). Proved for histories on one width and for rejections by the shape checks."
  },
  {
   "property": "C42",
   "status": "partial",
   "theorems": [
    "Scigo.Linear.json_import_predictions_partial",
    "Scigo.Linear.import_same_width_partial",
    "Scigo.Linear.rejected_import_unchanged_partial",
    "Scigo.Linear.import_ok_iff",
    "Scigo.Linear.clone_forgets_width",
    "Scigo.Linear.clone_predicts_differently",
    "Scigo.Linear.json_import_loses_nJobs",
    "Scigo.Linear.rejected_import_overwrites",
    "Scigo.Linear.json_trip_iff"
   ],
   "note": "False of the code: ExportWeights stores n_features as int, ImportWeights expects float64, so Clone and in-memory import into a new model give a model whose Predict rejects everything; a checksum failure is reported after the weights were overwritten. The JSON route and same-width imports are proved to preserve predictions. SHA-256 is an arbitrary function; JSON syntax is not modelled."
  },
  {
   "property": "C43",
   "status": "partial",
   "theorems": [
    "Scigo.Linear.validate_iff",
    "Scigo.Linear.export_validates",
    "Scigo.Linear.clone_view_eq",
    "Scigo.Linear.clone_independent_partial",
    "Scigo.Linear.clone_shares_nested"
   ],
   "note": "Clone copies the two maps one level deep: slices or maps stored as values stay shared (clone_shares_nested). Independence is proved when all values are scalars."
  },
  {
   "property": "C44",
   "status": "proved",
   "theorems": [
    "Scigo.Online.sgd_step",
    "Scigo.Online.partialFit_split",
    "Scigo.Online.partialFit_wrong_width",
    "Scigo.Online.learningRate_spec"
   ],
   "note": "Exact arithmetic: floating-point rounding is not modelled. partialFit_split and partialFit_wrong_width are law-free."
  },
  {
   "property": "C45",
   "status": "partial",
   "theorems": [
    "Scigo.Online.pa_unchanged_iff",
    "Scigo.Online.pa_step_optimal_partial",
    "Scigo.Online.paClf_step_optimal_partial",
    "Scigo.Online.paClf_step_partial",
    "Scigo.Online.pa_with_intercept_false"
   ],
   "note": "Proved without intercept (both models). False with an intercept: the step length ignores the intercept coordinate, so the step is not the minimiser (pa_with_intercept_false). Exact arithmetic: floating-point rounding is not modelled."
  },
  {
   "property": "C46",
   "status": "proved",
   "theorems": [
    "Scigo.Logistic.lr_fit_trained",
    "Scigo.Logistic.lr_predictions_consistent",
    "Scigo.Logistic.softmaxShift_eq",
    "Scigo.Logistic.softmaxShift_no_overflow",
    "Scigo.Logistic.lr_unfitted",
    "Scigo.Logistic.lr_score"
   ],
   "note": "gonum's L-BFGS enters by contract (on success the returned point has the start's length and a gradient below tol). Predict does not check the width: narrower data panics, extra columns are ignored. Exact arithmetic: floating-point rounding is not modelled."
  },
  {
   "property": "C47",
   "status": "proved",
   "theorems": [
    "Scigo.LGB.tree_predict_unique_leaf",
    "Scigo.LGB.paths_unique",
    "Scigo.LGB.predict_diverges",
    "Scigo.LGB.stores_unique"
   ],
   "note": "Law-free (any carrier with comparisons): every node array with children after their parent or outside the array."
  },
  {
   "property": "C48",
   "status": "partial",
   "theorems": [
    "Scigo.LGB.json_roundtrip_partial",
    "Scigo.LGB.json_loses_init_score",
    "Scigo.LGB.json_loses_categories",
    "Scigo.LGB.json_renames_multiclassova",
    "Scigo.LGB.written_node"
   ],
   "note": "False of the code in general: the initial score is not written, categorical splits come back as numerical ones and multiclassova comes back as softmax (three counterexample theorems). Proved for numerical trees without initial score. -0 and 0 identified."
  },
  {
   "property": "C49",
   "status": "partial",
   "theorems": [
    "Scigo.LGB.text_roundtrip_leaf_partial",
    "Scigo.LGB.text_roundtrip_constant",
    "Scigo.LGB.text_roundtrip_tree_zero",
    "Scigo.LGB.text_roundtrip_false",
    "Scigo.LGB.text_leaf_values"
   ],
   "note": "False of the code for every trained model: after SaveToText and loading every prediction is the transformation of zero scores, since leaf values of leaf nodes and the initial score are not restored. What holds: the structure survives, so PredictLeaf is unchanged on samples without NaN. Printing and scanning of lines is not modelled."
  },
  {
   "property": "C50",
   "status": "proved",
   "theorems": [
    "Scigo.LGB.text_tree_compiled",
    "Scigo.LGB.compile"
   ],
   "note": "Law-free in the carrier. For every tree-shaped block (any size, any numbering). The line scanner is not modelled. Categorical splits: see C94."
  },
  {
   "property": "C51",
   "status": "partial",
   "theorems": [
    "Scigo.LGB.json_tree_compiled_partial",
    "Scigo.LGB.json_tree_wrong"
   ],
   "note": "False: a split whose two children are splits is compiled wrongly (right child assumed at index+1, but the left subtree is there). Holds when every split has a leaf among its children."
  },
  {
   "property": "C52",
   "status": "proved",
   "theorems": [
    "Scigo.LGB.batch_row_by_row",
    "Scigo.LGB.predictor_parallel_eq_sequential",
    "Scigo.LGB.parallel_predict_schedule_independent",
    "Scigo.LGB.parallel_predict_no_deadlock",
    "Scigo.LGB.parallel_predict_terminates",
    "Scigo.LGB.predictions_width",
    "Scigo.LGB.simple_batch"
   ],
   "note": "Law-free; every interleaving of the goroutines."
  },
  {
   "property": "C53",
   "status": "partial",
   "theorems": [
    "Scigo.LGB.predict_eq_link_rawScore",
    "Scigo.LGB.simple_raw_eq",
    "Scigo.LGB.traversals_agree",
    "Scigo.LGB.predictor_raw_near_partial",
    "Scigo.LGB.entry_points_disagree"
   ],
   "note": "False of the code in general: Model.Predict ignores the shrinkage that Predictor and SimplePredictor apply (entry_points_disagree). Proved: Model.Predict is the link of PredictRawScore; SimplePredictor agrees without positive shrinkage; Predictor is within 2 epsilon per tree when the shrinkage is 1. Exact arithmetic: floating-point rounding is not modelled."
  },
  {
   "property": "C54",
   "status": "partial",
   "theorems": [
    "Scigo.Trainer.max_depth_partial",
    "Scigo.Trainer.num_leaves_partial",
    "Scigo.Trainer.terminates_partial",
    "Scigo.Trainer.min_data_partial",
    "Scigo.Trainer.never_ends_zero_gain",
    "Scigo.Trainer.never_ends_repeated_maximum",
    "Scigo.Trainer.num_leaves_exceeded",
    "Scigo.Trainer.min_data_violated"
   ],
   "note": "False of the code: training may not end (MinGainToSplit = 0 or more values than bins, no depth limit), NumLeaves and MinDataInLeaf may be violated. Proved: MaxDepth is respected and suffices for termination; with as many bins as values and a positive minimum gain training ends and MinDataInLeaf holds. Exact arithmetic: floating-point rounding is not modelled."
  },
  {
   "property": "C55",
   "status": "proved",
   "theorems": [
    "Scigo.Boost.l2_derivative",
    "Scigo.Boost.l1_derivative",
    "Scigo.Boost.huber_derivative",
    "Scigo.Boost.quantile_derivative",
    "Scigo.Boost.fair_derivative",
    "Scigo.Boost.poisson_derivative",
    "Scigo.Boost.gamma_derivative",
    "Scigo.Boost.tweedie_derivative",
    "Scigo.Boost.tweedie_hessian"
   ],
   "note": "Exact arithmetic: floating-point rounding is not modelled."
  },
  {
   "property": "C56",
   "status": "partial",
   "theorems": [
    "Scigo.Boost.l2_init_optimal",
    "Scigo.Boost.l1_init_optimal",
    "Scigo.Boost.l1_init_median",
    "Scigo.Boost.quantile_init_partial",
    "Scigo.Boost.quantile_init_not_optimal"
   ],
   "note": "False of the code for quantile levels other than 1/2: loss and initial score use opposite levels. Exact arithmetic: floating-point rounding is not modelled."
  },
  {
   "property": "C57",
   "status": "partial",
   "theorems": [
    "Scigo.Boost.binary_loss_partial",
    "Scigo.Boost.binary_loss_error",
    "Scigo.Boost.binary_loss_wrong",
    "Scigo.Boost.binary_gradient"
   ],
   "note": "False of the code for non-negative raw scores; the gradient is that of the cross entropy everywhere. Exact arithmetic: floating-point rounding is not modelled."
  },
  {
   "property": "C58",
   "status": "proved",
   "theorems": [
    "Scigo.Boost.early_stopping_signal",
    "Scigo.Boost.early_stopping_best",
    "Scigo.Boost.early_stopping_disabled",
    "Scigo.Boost.early_stopping_direction"
   ],
   "note": "Law-free over any linear order of scores; NaN is modelled as an incomparable value."
  },
  {
   "property": "C59",
   "status": "partial",
   "theorems": [
    "Scigo.Boost.train_early_stop_partial",
    "Scigo.Boost.train_early_stop_fails"
   ],
   "note": "False of the code: with validation data and enough rounds Train always returns (nil, ErrEarlyStop), because all trees are built in the first iteration and the later scores repeat it. Characterised exactly for one validation set."
  },
  {
   "property": "C60",
   "status": "proved",
   "theorems": [
    "Scigo.CV.kfold_partition",
    "Scigo.CV.kfold_bad_count"
   ],
   "note": "For every shuffle permutation."
  },
  {
   "property": "C61",
   "status": "proved",
   "theorems": [
    "Scigo.CV.stratified_partition"
   ],
   "note": "For every partial equivalence of labels (NaN labels included), map order and shuffle."
  },
  {
   "property": "C62",
   "status": "partial",
   "theorems": [
    "Scigo.EFB.round_trip_partial",
    "Scigo.EFB.round_trip_fails",
    "Scigo.EFB.bundles_sound"
   ],
   "note": "False in general: negative values are lost, values from 1000 on move to another feature, fewer than two sparse columns overlay all columns (round_trip_fails). Proved for at least two sparse columns, no conflicts allowed and values of sparse columns 0 or in (1e-10, 1000). Exact arithmetic: floating-point rounding is not modelled."
  },
  {
   "property": "C63",
   "status": "proved",
   "theorems": [
    "Scigo.Hist.continuous_histogram",
    "Scigo.Hist.continuous_histogram_opt",
    "Scigo.Hist.histogram_conserves",
    "Scigo.Hist.fill_count",
    "Scigo.Hist.subtraction_sibling",
    "Scigo.Hist.categorical_histogram",
    "Scigo.Hist.pool_histograms",
    "Scigo.Hist.pool_progress",
    "Scigo.Hist.pool_terminates",
    "Scigo.Hist.merge_conserves",
    "Scigo.Hist.merge_progress",
    "Scigo.Hist.merge_terminates",
    "Scigo.Hist.merge_histogram",
    "Scigo.Hist.merge_nan_hangs",
    "Scigo.Hist.opt_bin_of_value",
    "Scigo.Hist.opt_counts_every_row"
   ],
   "note": "fill_count and categorical_histogram hold for every arithmetic. With a NaN gradient the compare-and-swap loops may never end (merge_nan_hangs). Exact arithmetic: floating-point rounding is not modelled."
  },
  {
   "property": "C64",
   "status": "proved",
   "theorems": [
    "Scigo.Hist.split_is_best",
    "Scigo.Hist.categorical_split_is_best",
    "Scigo.Hist.pick_is_best",
    "Scigo.Hist.gain_is_decrease",
    "Scigo.Hist.split_maximal",
    "Scigo.Hist.split_divides_rows",
    "Scigo.Hist.exact_greedy",
    "Scigo.Hist.min_gain_is_inclusive"
   ],
   "note": "split_is_best, categorical_split_is_best and pick_is_best hold for every arithmetic on a linear order. Exact arithmetic: floating-point rounding is not modelled."
  },
  {
   "property": "C65",
   "status": "partial",
   "theorems": [
    "Scigo.Shap.shap_additive_partial",
    "Scigo.Shap.shap_sum",
    "Scigo.Shap.shap_not_additive"
   ],
   "note": "False: the means of the leaves are dropped, repeated features count twice, the learning rate does not match the prediction, the base value is 0 without trees (shap_not_additive). shap_sum gives the exact value of base value plus SHAP values for numerical trees; shap_additive_partial what it explains when no path repeats a feature. Exact arithmetic: floating-point rounding is not modelled."
  },
  {
   "property": "C66",
   "status": "proved",
   "theorems": [
    "Scigo.Eval.confusion_entry",
    "Scigo.Eval.confusion_marginals",
    "Scigo.Eval.confusion_total",
    "Scigo.Eval.accuracy_trace",
    "Scigo.Eval.class_precision_recall",
    "Scigo.Eval.class_f1",
    "Scigo.Eval.scores_unit",
    "Scigo.Eval.auc_eq_metrics",
    "Scigo.Eval.logLoss_eq_metrics"
   ],
   "note": "Exact arithmetic: floating-point rounding is not modelled."
  },
  {
   "property": "C67",
   "status": "proved",
   "theorems": [
    "Scigo.Tensor.rawData_row_major",
    "Scigo.Tensor.newTensor_spec",
    "Scigo.Tensor.reshape_spec",
    "Scigo.Tensor.reshape_rejects",
    "Scigo.Tensor.copy_independent"
   ],
   "note": "Element values are opaque. Heap of slices modelled explicitly."
  },
  {
   "property": "C68",
   "status": "proved",
   "theorems": [
    "Scigo.Performance.setChunk_getChunk",
    "Scigo.Performance.stored_float64",
    "Scigo.Performance.stored_other",
    "Scigo.Performance.getChunk_ok_iff",
    "Scigo.Performance.new_full",
    "Scigo.Performance.iterate_all",
    "Scigo.Performance.iterate_bad_size",
    "Scigo.Performance.access_inside"
   ],
   "note": "Byte-level model; bit reinterpretation of float64 and numeric conversions are parameters."
  },
  {
   "property": "C69",
   "status": "partial",
   "theorems": [
    "Scigo.Performance.pool_exclusive",
    "Scigo.Performance.pool_fresh",
    "Scigo.Performance.pool_count",
    "Scigo.Performance.pool_toMat_partial",
    "Scigo.Performance.pool_toMat_panics"
   ],
   "note": "Sharing, zeroing and counting hold under every interleaving. ToMat is false for a recycled larger buffer: it panics."
  },
  {
   "property": "C70",
   "status": "partial",
   "theorems": [
    "Scigo.Performance.budget_respected_partial",
    "Scigo.Performance.budget_overflow",
    "Scigo.Performance.budget_megabytes"
   ],
   "note": "False for requests so large that used+size overflows int64; holds otherwise."
  },
  {
   "property": "C71",
   "status": "proved",
   "theorems": [
    "Scigo.Performance.relayout_transposes",
    "Scigo.Performance.relayout_perm",
    "Scigo.Performance.relayout_involutive",
    "Scigo.Performance.relayout_short_panics"
   ],
   "note": ""
  },
  {
   "property": "C72",
   "status": "proved",
   "theorems": [
    "Scigo.ParamMap.setParams_getParams",
    "Scigo.ParamMap.setParams_exists",
    "Scigo.ParamMap.getParams_lookup",
    "Scigo.ParamMap.repeated_name_nondeterministic"
   ],
   "note": "strings.ToLower is a parameter. Values of other types are one constructor."
  },
  {
   "property": "C73",
   "status": "proved",
   "theorems": [
    "Scigo.Tree.fit_order_independent"
   ],
   "note": "Law-free over a linear order (no NaN)."
  },
  {
   "property": "C74",
   "status": "proved",
   "theorems": [
    "Scigo.KMeans.fit_labels_inertia"
   ],
   "note": "Exact arithmetic: floating-point rounding is not modelled."
  },
  {
   "property": "C75",
   "status": "partial",
   "theorems": [
    "Scigo.KMeans.rejected_fit_breaks_predict",
    "Scigo.KMeans.rejected_fit_keeps_model_partial"
   ],
   "note": "False as stated: the rejected Fit overwrites the expected width. Holds when the rejected data has the trained width. Law-free."
  },
  {
   "property": "C76",
   "status": "proved",
   "theorems": [
    "Scigo.KMeans.partialFit_batches"
   ],
   "note": "Law-free: bit-exact."
  },
  {
   "property": "C77",
   "status": "partial",
   "theorems": [
    "Scigo.Pipeline.fitTransform_excludes_fit",
    "Scigo.Pipeline.fit_excludes_transform",
    "Scigo.Pipeline.fitTransform_eq_transform_partial"
   ],
   "note": "False as stated: a Go type has one Fit method, and Fit and FitTransform require different signatures of the last step, so on a non-empty pipeline at most one of them can ever succeed. Proved: FitTransform's result is that of Transform right after it, for steps sharing no state."
  },
  {
   "property": "C78",
   "status": "partial",
   "theorems": [
    "Scigo.Pipeline.failed_refit_changes_predictions",
    "Scigo.Pipeline.failed_refit_first_step_partial"
   ],
   "note": "False as stated (concrete witness): transformers before the failing step are already retrained and the fitted flag stays. Holds when the first step itself rejects."
  },
  {
   "property": "C79",
   "status": "proved",
   "theorems": [
    "Scigo.Pipeline.namedStep_distinct",
    "Scigo.Pipeline.namedStep_duplicate",
    "Scigo.Pipeline.make_names_distinct"
   ],
   "note": "namedStep_duplicate: New accepts duplicate names, and then the later step hides the earlier."
  },
  {
   "property": "C80",
   "status": "proved",
   "theorems": [
    "Scigo.Linear.load_spec",
    "Scigo.Linear.export_load_predictions",
    "Scigo.Linear.export_after_failed_refit_rejected"
   ],
   "note": "JSON syntax and float formatting (Go prints shortest round-tripping decimals) are not modelled: a document is its decoded fields; non-finite numbers make the export fail. export_after_failed_refit_rejected records that the state left by a failed refit on another width exports an unloadable document."
  },
  {
   "property": "C81",
   "status": "proved",
   "theorems": [
    "Scigo.Linear.lm_fit_least_squares",
    "Scigo.Linear.lm_predict_spec",
    "Scigo.Linear.lm_fit_underdetermined_panics",
    "Scigo.Linear.lm_fit_shape_errors"
   ],
   "note": "gonum's QR solve enters by contract (nil error: least-squares solution). With fewer rows than columns Fit panics. Exact arithmetic: floating-point rounding is not modelled."
  },
  {
   "property": "C82",
   "status": "partial",
   "theorems": [
    "Scigo.Linear.positive_nonneg_partial",
    "Scigo.Linear.positive_inactive_partial",
    "Scigo.Linear.positive_not_optimal"
   ],
   "note": "False of the code: negative coefficients of the unconstrained solution are clamped to 0, which is not the constrained optimum (positive_not_optimal). Non-negativity is proved, and optimality when the constraint is inactive (with C81). Exact arithmetic: floating-point rounding is not modelled."
  },
  {
   "property": "C83",
   "status": "proved",
   "theorems": [
    "Scigo.Stream.fitStream_history",
    "Scigo.Stream.fitStream_progress",
    "Scigo.Stream.fitStream_returned",
    "Scigo.Stream.predictStream_history",
    "Scigo.Stream.fitPredictStream_history",
    "Scigo.Stream.fitPredictStream_cancel",
    "Scigo.Stream.predictStream_cancel"
   ],
   "note": "Law-free, for arbitrary Predict/PartialFit; no other goroutine uses the same model. Fairness of select is not modelled: after cancellation a loop may still take waiting batches first."
  },
  {
   "property": "C84",
   "status": "proved",
   "theorems": [
    "Scigo.Online.epoch_visits_each_row_once",
    "Scigo.Online.fit_epochs",
    "Scigo.Online.checkConvergence_iff"
   ],
   "note": "The random generator is an arbitrary oracle. epoch_visits_each_row_once is law-free; the stopping rule is in exact arithmetic: Exact arithmetic: floating-point rounding is not modelled."
  },
  {
   "property": "C85",
   "status": "partial",
   "theorems": [
    "Scigo.Online.fit_forgets_history_partial",
    "Scigo.Online.fit_forgets_history_false"
   ],
   "note": "False of the code: after a numerical instability eta0 is reduced and never restored, so a later Fit trains with another learning rate (concrete witness). Proved when no earlier call met an instability."
  },
  {
   "property": "C86",
   "status": "partial",
   "theorems": [
    "Scigo.Online.sgdClf_step_partial",
    "Scigo.Online.sgdClf_log_loss_gradient_false"
   ],
   "note": "False of the code for logistic loss on misclassified samples: the derivative used is exp(margin) times the right one. Proved for hinge, squared hinge, modified Huber, perceptron, and logistic loss at margin >= 0. Exact arithmetic: floating-point rounding is not modelled."
  },
  {
   "property": "C87",
   "status": "partial",
   "theorems": [
    "Scigo.Online.sgdClf_predictions_consistent_partial",
    "Scigo.Online.sgdClf_proba_overflow_false"
   ],
   "note": "Proved when exp does not overflow. False for large scores: the softmax is not shifted by the maximum, so a score of 1000 gives NaN. Exact arithmetic: floating-point rounding is not modelled."
  },
  {
   "property": "C88",
   "status": "partial",
   "theorems": [
    "Scigo.Logistic.lr_failed_refit_false",
    "Scigo.Logistic.lr_failed_refit_partial"
   ],
   "note": "False of the code (concrete witness): a refused refit on another label set has already replaced classes and weights while the model still counts as fitted. Holds when the shapes are refused."
  },
  {
   "property": "C89",
   "status": "proved",
   "theorems": [
    "Scigo.Logistic.lr_objective_and_gradient",
    "Scigo.Logistic.lr_gradient_descent",
    "Scigo.Logistic.lr_fit_trained"
   ],
   "note": "L-BFGS by contract: if it reports success the gradient there is below tol in every coordinate. Without warm start. Exact arithmetic: floating-point rounding is not modelled."
  },
  {
   "property": "C90",
   "status": "proved",
   "theorems": [
    "Scigo.Logistic.lr_params_round_trip",
    "Scigo.Logistic.lr_params_order"
   ],
   "note": "Law-free."
  },
  {
   "property": "C91",
   "status": "partial",
   "theorems": [
    "Scigo.Logistic.lr_params_refused_false",
    "Scigo.Logistic.lr_params_refused_partial"
   ],
   "note": "False of the code: parameters met before the unknown name stay changed."
  },
  {
   "property": "C92",
   "status": "proved",
   "theorems": [
    "Scigo.LGB.model_probability_range",
    "Scigo.LGB.model_predict_binary_range"
   ],
   "note": "Exact arithmetic: floating-point rounding is not modelled."
  },
  {
   "property": "C93",
   "status": "partial",
   "theorems": [
    "Scigo.LGB.model_probability_order_partial",
    "Scigo.LGB.model_probability_wrong_for_large_scores"
   ],
   "note": "False of the code: the exponential is the power series up to the 20th power, so a raw score of 30 is reported as a probability below 1e-9. Proved for raw scores up to 8. Exact arithmetic: floating-point rounding is not modelled."
  },
  {
   "property": "C94",
   "status": "partial",
   "theorems": [
    "Scigo.LGB.categorical_right_partial",
    "Scigo.LGB.text_categorical_always_right",
    "Scigo.LGB.categorical_split_ignored"
   ],
   "note": "False: loaded categorical splits send every value right."
  },
  {
   "property": "C95",
   "status": "partial",
   "theorems": [
    "Scigo.LGB.leaves_single_eq_batch_partial",
    "Scigo.LGB.leaves_batch_eq_link_raw",
    "Scigo.LGB.leaves_single_ignores_init_score",
    "Scigo.LGB.leaves_sigmoid_real"
   ],
   "note": "False for models with an initial score and at most two classes: PredictSingle leaves the initial score out, PredictBatch and PredictRaw add it."
  },
  {
   "property": "C96",
   "status": "proved",
   "theorems": [
    "Scigo.LGB.read_terminates"
   ],
   "note": "For the loop over the parsed arrays; the line scanner is not modelled."
  },
  {
   "property": "C97",
   "status": "partial",
   "theorems": [
    "Scigo.LGB.text_predictor_partial",
    "Scigo.LGB.text_model_predicts_zero"
   ],
   "note": "False for Model.Predict, which gives 0 from every tree of every LightGBM text file (leaf references are negative). Predictor gives LightGBM's value for samples without missing values, up to its comparison tolerance."
  },
  {
   "property": "C98",
   "status": "partial",
   "theorems": [
    "Scigo.Performance.view_safe_partial",
    "Scigo.Performance.slice_aliases",
    "Scigo.Performance.view_read_write",
    "Scigo.Performance.view_overflow_wild"
   ],
   "note": "False for dimensions whose product overflows int64 (wild reads); holds for all others."
  },
  {
   "property": "C99",
   "status": "proved",
   "theorems": [
    "Scigo.Performance.aligned_buffer"
   ],
   "note": "The address is a parameter divisible by 8."
  },
  {
   "property": "C100",
   "status": "proved",
   "theorems": [
    "Scigo.Performance.reopen_same"
   ],
   "note": "File system errors and crashes are not modelled."
  },
  {
   "property": "C101",
   "status": "partial",
   "theorems": [
    "Scigo.CV.stratified_balanced_partial",
    "Scigo.CV.stratified_unbalanced"
   ],
   "note": "False of the code: the remainders of all classes go to the first folds. Proved: sizes differ by at most the number of classes."
  },
  {
   "property": "C102",
   "status": "partial",
   "theorems": [
    "Scigo.CV.cv_schedule_independent",
    "Scigo.CV.cv_train_rows",
    "Scigo.CV.cv_empty_fold_panics",
    "Scigo.CV.cv_no_leak_partial",
    "Scigo.CV.cv_early_stopping_uses_test_rows"
   ],
   "note": "Schedule independence is proved for every interleaving. The leak part is false with early stopping, which uses the test fold as validation data; without early stopping the model depends on the training rows only. More folds than samples crash the process."
  },
  {
   "property": "C103",
   "status": "proved",
   "theorems": [
    "Scigo.CV.cv_best"
   ],
   "note": "Scores in any linear order."
  },
  {
   "property": "C104",
   "status": "partial",
   "theorems": [
    "Scigo.Boost.fit_truncates_partial",
    "Scigo.Boost.fit_keeps_worse_trees",
    "Scigo.Boost.fit_auc_keeps_worst"
   ],
   "note": "False of the code when the iterations end before the patience, and for metrics where larger is better (the handler then maximises the loss). Characterised exactly."
  },
  {
   "property": "C105",
   "status": "partial",
   "theorems": [
    "Scigo.Boost.callback_improving_partial",
    "Scigo.Boost.callback_patience_one",
    "Scigo.Boost.callback_halves_patience",
    "Scigo.Boost.record_doubles"
   ],
   "note": "False of the code: callbacks run before and after every iteration with the same results, so patience is halved and patience 1 stops after one tree."
  },
  {
   "property": "C106",
   "status": "partial",
   "theorems": [
    "Scigo.Boost.train_rounds_partial",
    "Scigo.Boost.train_ignores_rounds",
    "Scigo.Boost.train_round_count_wrong"
   ],
   "note": "False of the code: the number of trees is the num_iterations parameter."
  },
  {
   "property": "C107",
   "status": "partial",
   "theorems": [
    "Scigo.Boost.iteration_limit_partial",
    "Scigo.Boost.iteration_limit_ignored"
   ],
   "note": "False of the code: prediction options are ignored."
  },
  {
   "property": "C108",
   "status": "partial",
   "theorems": [
    "Scigo.Boost.clone_same_partial",
    "Scigo.Boost.clone_of_loaded_fails",
    "Scigo.Boost.clone_shares_model"
   ],
   "note": "False of the code for loaded boosters, and the model is shared."
  },
  {
   "property": "C109",
   "status": "partial",
   "theorems": [
    "Scigo.Boost.importance_partial",
    "Scigo.Boost.importance_stale"
   ],
   "note": "False of the code after SetModel: the cache is not cleared."
  },
  {
   "property": "C110",
   "status": "partial",
   "theorems": [
    "Scigo.Boost.saved_trees_partial",
    "Scigo.Boost.loaded_reports_no_trees"
   ],
   "note": "False of the code for loaded boosters."
  },
  {
   "property": "C111",
   "status": "partial",
   "theorems": [
    "Scigo.Boost.poisson_init_optimal_partial",
    "Scigo.Boost.gamma_init_optimal_partial",
    "Scigo.Boost.binary_init_optimal_partial",
    "Scigo.Boost.tweedie_init_not_optimal",
    "Scigo.Boost.huber_init_not_optimal",
    "Scigo.Boost.no_positive_start",
    "Scigo.Boost.empty_labels_init"
   ],
   "note": "False of the code for Tweedie (zero targets skipped in the mean) and Huber (mean). Exact arithmetic: floating-point rounding is not modelled."
  },
  {
   "property": "C112",
   "status": "proved",
   "theorems": [
    "Scigo.Boost.softmax_pos",
    "Scigo.Boost.softmax_sum",
    "Scigo.Boost.multi_gradient_sum_zero",
    "Scigo.Boost.multi_hessian_pos",
    "Scigo.Boost.multiLoss_neg_log",
    "Scigo.Boost.multi_gradient",
    "Scigo.Boost.multi_schedule_independent",
    "Scigo.Boost.multi_no_deadlock",
    "Scigo.Boost.maxLogit_max",
    "Scigo.Boost.multiTotal_mean"
   ],
   "note": "Exact arithmetic: floating-point rounding is not modelled."
  },
  {
   "property": "C113",
   "status": "partial",
   "theorems": [
    "Scigo.Eval.f1_partial",
    "Scigo.Eval.macro_f1_wrong"
   ],
   "note": "False of the code: the multiclass F1 is the harmonic mean of averaged precision and recall, not the average of F1."
  },
  {
   "property": "C114",
   "status": "proved",
   "theorems": [
    "Scigo.Tensor.set_get",
    "Scigo.Tensor.slice_spec",
    "Scigo.Tensor.at_bounds"
   ],
   "note": "Element values are opaque."
  },
  {
   "property": "C115",
   "status": "partial",
   "theorems": [
    "Scigo.Tensor.shape_partial",
    "Scigo.Tensor.shape_aliased",
    "Scigo.Tensor.transpose_panics"
   ],
   "note": "False of the code: NewTensor keeps the slice passed as shape, and T panics for every tensor."
  },
  {
   "property": "C116",
   "status": "proved",
   "theorems": [
    "Scigo.ParamMap.clone_params",
    "Scigo.ParamMap.clone_stable",
    "Scigo.ParamMap.normObjective_idem"
   ],
   "note": "strings.ToLower is a parameter that fixes the (lower case) canonical objective names."
  },
  {
   "property": "C117",
   "status": "partial",
   "theorems": [
    "Scigo.ParamMap.classifier_set_get_partial",
    "Scigo.ParamMap.classifier_ignores"
   ],
   "note": "False of the code: LGBMClassifier.SetParams ignores objective, metric, verbosity and subsample_freq, which GetParams reports."
  },
  {
   "property": "C118",
   "status": "partial",
   "theorems": [
    "Scigo.Hist.categorical_optimal_partial",
    "Scigo.Hist.categorical_not_optimal"
   ],
   "note": "False of the code with L2 regularisation: categories are ordered by grad/(hess+lambda). Proved for reg_lambda = 0 and min_data_in_leaf <= 1. Exact arithmetic: floating-point rounding is not modelled."
  },
  {
   "property": "C119",
   "status": "partial",
   "theorems": [
    "Scigo.Hist.exact_threshold_partial",
    "Scigo.Hist.quantile_threshold_mismatch",
    "Scigo.Hist.gain_l1_not_decrease"
   ],
   "note": "False of the code when a feature has more distinct values than max_bin, and with reg_alpha > 0. Exact arithmetic: floating-point rounding is not modelled."
  },
  {
   "property": "C120",
   "status": "proved",
   "theorems": [
    "Scigo.QuickSort.quickSort_rearranged",
    "Scigo.QuickSort.quickSort_sorted",
    "Scigo.QuickSort.sortSlice_sorts"
   ],
   "note": "The slice is a function from index to value."
  },
  {
   "property": "C121",
   "status": "partial",
   "theorems": [
    "Scigo.Trainer.rows_reach_their_leaf_partial",
    "Scigo.Trainer.trained_tree_fits_rows_partial",
    "Scigo.Trainer.missing_category_misrouted"
   ],
   "note": "rows_reach_their_leaf_partial holds for every arithmetic in which a NaN category does not occur; with NaN in a categorical feature the property is false (missing_category_misrouted). Exact arithmetic: floating-point rounding is not modelled."
  },
  {
   "property": "C122",
   "status": "proved",
   "theorems": [
    "Scigo.Trainer.leaf_value_optimal",
    "Scigo.Trainer.leaf_step"
   ],
   "note": "Exact arithmetic: floating-point rounding is not modelled."
  },
  {
   "property": "C123",
   "status": "proved",
   "theorems": [
    "Scigo.Trainer.sampled_rows",
    "Scigo.Trainer.sampled_features",
    "Scigo.Trainer.sample_unbiased"
   ],
   "note": "The random generator is an arbitrary stream of draws. Bagging happens only in iterations divisible by the frequency."
  },
  {
   "property": "C124",
   "status": "partial",
   "theorems": [
    "Scigo.Trainer.goss_sample",
    "Scigo.Trainer.goss_restored",
    "Scigo.Trainer.goss_weight_partial",
    "Scigo.Trainer.goss_weight_wrong"
   ],
   "note": "False of the code: the small-gradient rows get total weight (1 - top_rate) * remaining instead of remaining. Exact arithmetic: floating-point rounding is not modelled."
  },
  {
   "property": "C125",
   "status": "partial",
   "theorems": [
    "Scigo.Trainer.dropped_trees_partial",
    "Scigo.Trainer.drop_too_many",
    "Scigo.Trainer.dart_normalised",
    "Scigo.Trainer.boosting_type_ignored"
   ],
   "note": "False of the code: Fit never calls the DART functions (boosting_type_ignored), and the selection panics for a drop rate above 1 without MaxDrop. Exact arithmetic: floating-point rounding is not modelled."
  },
  {
   "property": "C126",
   "status": "proved",
   "theorems": [
    "Scigo.Trainer.balanced_classes",
    "Scigo.Trainer.balanced_total",
    "Scigo.Trainer.class_weights_given",
    "Scigo.Trainer.class_weights_kinds"
   ],
   "note": "Exact arithmetic: floating-point rounding is not modelled."
  },
  {
   "property": "C127",
   "status": "partial",
   "theorems": [
    "Scigo.Trainer.mono_split_partial",
    "Scigo.Trainer.collect_best",
    "Scigo.Trainer.split_gain_is_decrease",
    "Scigo.Trainer.monotone_ignored",
    "Scigo.Trainer.boosting_type_ignored"
   ],
   "note": "False of the code: Fit never calls the search that checks the constraints. Proved of that search itself. Exact arithmetic: floating-point rounding is not modelled."
  },
  {
   "property": "C128",
   "status": "proved",
   "theorems": [
    "Scigo.Trainer.fit_boosts",
    "Scigo.Trainer.fit_succeeds",
    "Scigo.Trainer.squared_loss_decreases"
   ],
   "note": "fit_boosts holds for every arithmetic. The recursion of the tree builder is bounded by a fuel argument; build_stable shows it is irrelevant once sufficient. Objectives multiclass and multiclass_native: one score per row, as the code computes. Exact arithmetic: floating-point rounding is not modelled."
  },
  {
   "property": "C129",
   "status": "partial",
   "theorems": [
    "Scigo.Trainer.served_scores_partial",
    "Scigo.Trainer.served_scores_wrong"
   ],
   "note": "False of the code for a learning rate other than 1: the model ignores the rate. Exact arithmetic: floating-point rounding is not modelled."
  },
  {
   "property": "C130",
   "status": "partial",
   "theorems": [
    "Scigo.Trainer.refit_not_fresh",
    "Scigo.Trainer.refit_continues_partial",
    "Scigo.Trainer.refit_keeps_trees",
    "Scigo.Trainer.refit_more_rows_panics",
    "Scigo.Trainer.refit_stale_scores",
    "Scigo.Trainer.Callbacks.stopped_list_builds_nothing"
   ],
   "note": "False of the code: trees and cached scores of the first Fit are kept. For a new trainer the result is that of fit_boosts."
  },
  {
   "property": "C131",
   "status": "partial",
   "theorems": [
    "Scigo.EFB.optimizer_unchanged_partial",
    "Scigo.EFB.optimizer_not_reusable"
   ],
   "note": "False with the default MaxBundles = 0, which the first call overwrites (optimizer_not_reusable); proved when MaxBundles is set."
  },
  {
   "property": "C132",
   "status": "proved",
   "theorems": [
    "Scigo.EFB.bundles_sound",
    "Scigo.EFB.mapping_faithful"
   ],
   "note": "For every carrier; the sort is any function returning a permutation."
  },
  {
   "property": "C133",
   "status": "proved",
   "theorems": [
    "Scigo.Shap.interactions_symmetric"
   ],
   "note": "For every carrier and every model, whenever the computation ends without a panic."
  },
  {
   "property": "C134",
   "status": "proved",
   "theorems": [
    "Scigo.Shap.unused_feature_zero"
   ],
   "note": "Exact arithmetic: a NaN or infinite learning rate, for which 0*lr is NaN, is not modelled."
  },
  {
   "property": "C135",
   "status": "partial",
   "theorems": [
    "Scigo.Log.setLevel_partial",
    "Scigo.Log.setLevel_threshold_fails"
   ],
   "note": "False of the code: slog numbers are passed as zerolog levels. setLevel_partial gives the threshold that results."
  },
  {
   "property": "C136",
   "status": "proved",
   "theorems": [
    "Scigo.Log.not_enabled_silent",
    "Scigo.Log.enabled_agrees",
    "Scigo.Log.stale_logger_enabled",
    "Scigo.Log.toLogLevel_panics_iff"
   ],
   "note": "Loggers obtained before SetLevel keep the old level (stale_logger_enabled); ToLogLevel panics on unknown names."
  },
  {
   "property": "C137",
   "status": "partial",
   "theorems": [
    "Scigo.Log.named_logger_partial",
    "Scigo.Log.with_drops_fields",
    "Scigo.Log.with_field_missing"
   ],
   "note": "False of the code: With returns a logger without the fields. Proved for the field of GetLoggerWithName."
  },
  {
   "property": "C138",
   "status": "partial",
   "theorems": [
    "Scigo.Log.captured_partial",
    "Scigo.Log.entry_fields",
    "Scigo.Log.nan_entry_lost",
    "Scigo.Log.message_overwritten"
   ],
   "note": "False for NaN and infinite values, and for fields named level or message. JSON encoding is modelled on the level of objects."
  },
  {
   "property": "C139",
   "status": "proved",
   "theorems": [
    "Scigo.Log.with_then_log",
    "Scigo.Log.entry_fields"
   ],
   "note": ""
  },
  {
   "property": "C140",
   "status": "partial",
   "theorems": [
    "Scigo.Log.containsField_partial",
    "Scigo.Log.containsField_only",
    "Scigo.Log.contains_int_false"
   ],
   "note": "False for integers, which are read back as float64, and for errors."
  },
  {
   "property": "C141",
   "status": "proved",
   "theorems": [
    "Scigo.Log.one_logger_interleaves",
    "Scigo.Log.one_logger_progress",
    "Scigo.Log.log_terminates"
   ],
   "note": "The mutex is a lock bit; a write to the buffer is two steps."
  },
  {
   "property": "C142",
   "status": "partial",
   "theorems": [
    "Scigo.Log.derived_loggers_partial",
    "Scigo.Log.derived_loggers_lose",
    "Scigo.Log.one_logger_interleaves"
   ],
   "note": "False of the code: every derived logger has its own mutex. The lost entry is the model of a data race on the buffer; Go leaves the result open."
  },
  {
   "property": "C143",
   "status": "proved",
   "theorems": [
    "Scigo.Persist.save_then_load",
    "Scigo.Persist.writer_then_reader",
    "Scigo.Persist.crash_never_wrong",
    "Scigo.Persist.save_reachable",
    "Scigo.Persist.exCodec_lawful"
   ],
   "note": "gob: message framing is modelled byte by byte, the encoding of the payload is an arbitrary lawful codec. The file system applies writes in order (no fsync in the code: a power failure may do otherwise)."
  },
  {
   "property": "C144",
   "status": "partial",
   "theorems": [
    "Scigo.Persist.previous_model_partial",
    "Scigo.Persist.previous_model_lost"
   ],
   "note": "False of the code: os.Create truncates the file first. Proved for a failure of os.Create."
  },
  {
   "property": "C145",
   "status": "partial",
   "theorems": [
    "Scigo.Persist.load_into_partial",
    "Scigo.Persist.load_keeps_old"
   ],
   "note": "False of the code: gob omits zero fields, which keep their old content."
  },
  {
   "property": "C146",
   "status": "partial",
   "theorems": [
    "Scigo.Persist.truncated_file_partial",
    "Scigo.Persist.truncated_text_loads"
   ],
   "note": "Proved for SaveModel files; false for the text form, which loads with fewer trees."
  },
  {
   "property": "C147",
   "status": "partial",
   "theorems": [
    "Scigo.Dataset.binary_partial",
    "Scigo.Dataset.binary_iff",
    "Scigo.Dataset.binary_perm",
    "Scigo.Dataset.newDataset_binary",
    "Scigo.Dataset.small_binary_missed"
   ],
   "note": "False for fewer than eight rows. binary_iff holds for NaN labels too."
  },
  {
   "property": "C148",
   "status": "proved",
   "theorems": [
    "Scigo.Dataset.subset_rows",
    "Scigo.Dataset.subset_rejects",
    "Scigo.Dataset.newDataset_consistent",
    "Scigo.Dataset.subset_subset"
   ],
   "note": "A short weight vector, which NewDataset accepts, makes GetSubset panic; the theorem asks for one weight per row."
  },
  {
   "property": "C149",
   "status": "partial",
   "theorems": [
    "Scigo.Dataset.set_get_partial",
    "Scigo.Dataset.getField_reads",
    "Scigo.Dataset.set_get_other",
    "Scigo.Dataset.set_data_ignored",
    "Scigo.Dataset.rejected_label_kept",
    "Scigo.Dataset.rejected_label_inconsistent"
   ],
   "note": "False for data, n_samples and n_features, and for a rejected label, which stays."
  },
  {
   "property": "C150",
   "status": "proved",
   "theorems": [
    "Scigo.Dataset.valid_sets_listed",
    "Scigo.Dataset.invalid_set_rejected"
   ],
   "note": ""
  },
  {
   "property": "C151",
   "status": "proved",
   "theorems": [
    "Scigo.LGB.predictLeaf_leafNo",
    "Scigo.LGB.exTree_leaves"
   ],
   "note": ""
  },
  {
   "property": "C152",
   "status": "partial",
   "theorems": [
    "Scigo.LGB.leaf_index_partial",
    "Scigo.LGB.same_leaf_index",
    "Scigo.LGB.leaf_index_reference",
    "Scigo.LGB.leaf_index_text"
   ],
   "note": "False for trees loaded from text files, where every sample has index 0."
  },
  {
   "property": "C153",
   "status": "proved",
   "theorems": [
    "Scigo.Quick.task_iff",
    "Scigo.Quick.task_perm",
    "Scigo.Quick.non_integer_regression",
    "Scigo.Quick.small_task_missed"
   ],
   "note": "isInt stands for val == float64(int(val))."
  },
  {
   "property": "C154",
   "status": "partial",
   "theorems": [
    "Scigo.Quick.autofit_best_partial",
    "Scigo.Quick.autofit_no_model"
   ],
   "note": "False if no score is above 0: the result has a nil model and Predict panics. Training and scoring are parameters."
  },
  {
   "property": "C155",
   "status": "partial",
   "theorems": [
    "Scigo.Quick.quickcv_summary_partial",
    "Scigo.Quick.quickcv_training_score",
    "Scigo.Quick.quickcv_blind",
    "Scigo.Quick.quickcv_folds"
   ],
   "note": "False of the code: every fold trains and scores on all rows, and the second number lacks the square root. Exact arithmetic: floating-point rounding is not modelled."
  },
  {
   "property": "C156",
   "status": "proved",
   "theorems": [
    "Scigo.Quick.exchangeSort_spec",
    "Scigo.Quick.top_features"
   ],
   "note": "NaN importances are not modelled."
  },
  {
   "property": "C157",
   "status": "partial",
   "theorems": [
    "Scigo.Scores.tree_score_partial",
    "Scigo.Scores.nb_score_partial",
    "Scigo.Scores.sgd_score_partial",
    "Scigo.Scores.lgbm_score",
    "Scigo.Scores.tree_score_hides_error",
    "Scigo.Scores.tree_score_short_labels",
    "Scigo.Scores.sgd_score_truncates",
    "Scigo.Scores.sgd_score_prefix"
   ],
   "note": "False of the code: a failing Predict of the tree scores 0, labels are compared without fractional part by naive Bayes and SGDClassifier, and both accept fewer labels than rows; the tree panics then. Proved for one whole-number label per row. LogisticRegression: C46. Exact arithmetic: floating-point rounding is not modelled."
  },
  {
   "property": "C158",
   "status": "proved",
   "theorems": [
    "Scigo.Scores.sgd_regressor_score",
    "Scigo.Scores.linear_regression_score",
    "Scigo.Scores.lgbm_regressor_score"
   ],
   "note": "Fewer targets than rows: only the rows with targets are scored; more targets: panic. Exact arithmetic: floating-point rounding is not modelled."
  },
  {
   "property": "C159",
   "status": "proved",
   "theorems": [
    "Scigo.Scores.set_get_options",
    "Scigo.Scores.set_own_options",
    "Scigo.Scores.set_options_twice"
   ],
   "note": "For every carrier."
  },
  {
   "property": "C160",
   "status": "proved",
   "theorems": [
    "Scigo.Wrapper.trained_knows",
    "Scigo.Wrapper.predicts_known_classes",
    "Scigo.Wrapper.predicted_labels_were_seen"
   ],
   "note": "trained_knows is law-free; that probabilities are positive somewhere uses exact real arithmetic, so a model with NaN scores is outside (the code then returns 0, see predict_follows_proba). Exact arithmetic: floating-point rounding is not modelled."
  },
  {
   "property": "C161",
   "status": "partial",
   "theorems": [
    "Scigo.Wrapper.failed_fit_keeps_model_partial",
    "Scigo.Wrapper.one_class_refit_changes_predictions"
   ],
   "note": "False of the code: classes and width are overwritten before training can fail. Proved: model, fitted flag and options are kept, and nothing changes when a shape or weight check fails."
  },
  {
   "property": "C162",
   "status": "proved",
   "theorems": [
    "Scigo.Wrapper.predict_follows_proba",
    "Scigo.Wrapper.log_proba_of_proba"
   ],
   "note": "Law-free over a linear order; when no probability is positive the label is 0, stated in the theorem. NaN not modelled."
  },
  {
   "property": "C163",
   "status": "proved",
   "theorems": [
    "Scigo.Wrapper.trained_probabilities"
   ],
   "note": "Exact real arithmetic; the deviation of the row sum is at most the number of classes times 1e-15. Exact arithmetic: floating-point rounding is not modelled."
  },
  {
   "property": "C164",
   "status": "partial",
   "theorems": [
    "Scigo.Wrapper.decision_values_positive",
    "Scigo.Wrapper.decision_values_raw_partial"
   ],
   "note": "False of the code: for every trained binary classifier the values are probabilities. Proved for objectives without link in Model.Predict. Exact arithmetic: floating-point rounding is not modelled."
  },
  {
   "property": "C165",
   "status": "partial",
   "theorems": [
    "Scigo.Wrapper.labels_from_one_never_separate",
    "Scigo.Wrapper.zero_one_labels_partial"
   ],
   "note": "False of the code: the labels are passed to the logistic loss as they are; with labels of at least 1 every prediction is the larger class, whatever the data. Proved: labels 0 and 1 train the logistic loss of the class indicator. Exact arithmetic: floating-point rounding is not modelled."
  },
  {
   "property": "C166",
   "status": "partial",
   "theorems": [
    "Scigo.Wrapper.fitWeighted_trivial",
    "Scigo.Wrapper.fitWithInit_own",
    "Scigo.Wrapper.reg_fitWeighted_trivial_partial"
   ],
   "note": "Proved for the classifier, and for the regressor when the boosting type is not goss; with goss it is false, see C167. Exact arithmetic: floating-point rounding is not modelled."
  },
  {
   "property": "C167",
   "status": "partial",
   "theorems": [
    "Scigo.Wrapper.reg_fitWeighted_trivial_partial",
    "Scigo.Wrapper.fit_ignores_boosting_type"
   ],
   "note": "False of the code: Fit ignores the boosting type, FitWeighted honours it. Equal for every boosting type other than goss."
  },
  {
   "property": "C168",
   "status": "proved",
   "theorems": [
    "Scigo.Wrapper.classifier_fit_succeeds",
    "Scigo.Wrapper.trained_classifier_predicts",
    "Scigo.Wrapper.regressor_fit_succeeds",
    "Scigo.Wrapper.trained_regressor_predicts"
   ],
   "note": "For every ordered field and every sort of the categories by ratio that permutes them. Exact arithmetic: floating-point rounding is not modelled."
  },
  {
   "property": "C169",
   "status": "partial",
   "theorems": [
    "Scigo.Wrapper.reg_failed_fit_keeps_model_partial",
    "Scigo.Wrapper.failed_refit_disables_regressor"
   ],
   "note": "False of the code: the width is overwritten before an unknown objective is noticed."
  },
  {
   "property": "C170",
   "status": "partial",
   "theorems": [
    "Scigo.Wrapper.quantiles_ordered_partial",
    "Scigo.Wrapper.quantiles_cross"
   ],
   "note": "False of the code: the levels scale one prediction, so they cross where it is negative. Exact arithmetic: floating-point rounding is not modelled."
  },
  {
   "property": "C171",
   "status": "proved",
   "theorems": [
    "Scigo.Wrapper.residual_identities"
   ],
   "note": "Rows of X beyond those of y are not counted; stated in the theorem. Exact arithmetic: floating-point rounding is not modelled."
  },
  {
   "property": "C172",
   "status": "partial",
   "theorems": [
    "Scigo.Wrapper.failed_load_keeps_classifier",
    "Scigo.Wrapper.loaders_agree_partial",
    "Scigo.Wrapper.load_keeps_stale_classes",
    "Scigo.Wrapper.reloaded_labels_are_positions"
   ],
   "note": "False of the code: the file has no labels, so positions 0, 1, ... are predicted; LoadModel keeps stale classes for objectives other than binary and multiclass. Reading the file itself: C48, C49 and C146."
  },
  {
   "property": "C173",
   "status": "partial",
   "theorems": [
    "Scigo.Online.sgd_regressor_answers_partial",
    "Scigo.Online.pa_answers_partial",
    "Scigo.Online.paClf_answers_partial",
    "Scigo.Online.sgdClf_answers_partial",
    "Scigo.Online.warm_fit_wider_panics",
    "Scigo.Online.empty_classes_panic"
   ],
   "note": "Law-free. The histories exclude warm-started Fit on another width (which panics, or keeps leftover weights: warm_fit_wider_panics) and an empty list of classes given to the first PartialFit (Predict then panics: empty_classes_panic)."
  },
  {
   "property": "C174",
   "status": "partial",
   "theorems": [
    "Scigo.Online.sgd_regressor_trains_partial",
    "Scigo.Online.pa_trains_partial",
    "Scigo.Online.paClf_trains_partial",
    "Scigo.Online.sgdClf_trains_partial",
    "Scigo.Online.warm_fit_wider_panics"
   ],
   "note": "Law-free. False of the code for a warm-started Fit on a wider matrix, which panics."
  },
  {
   "property": "C175",
   "status": "proved",
   "theorems": [
    "Scigo.Online.sgdClf_fit_forgets",
    "Scigo.Online.pa_fit_forgets",
    "Scigo.Online.paClf_fit_forgets"
   ],
   "note": "Law-free. The base learning rate counts as an option (SGDClassifier never changes it). SGDRegressor: C85."
  },
  {
   "property": "C176",
   "status": "partial",
   "theorems": [
    "Scigo.Online.pa_partialFit_split",
    "Scigo.Online.paClf_partialFit_split_partial",
    "Scigo.Online.sgdClf_partialFit_split_partial",
    "Scigo.Online.paClf_split_false"
   ],
   "note": "Law-free. False of the classifiers if the first call is given no list of classes: the labels of the second batch are then unknown to the split model (paClf_split_false)."
  },
  {
   "property": "C177",
   "status": "proved",
   "theorems": [
    "Scigo.Online.paClf_classes",
    "Scigo.Online.sgdClf_classes",
    "Scigo.Online.paClf_classes_stay",
    "Scigo.Online.sgdClf_classes_stay",
    "Scigo.Online.paClf_unknown_batch",
    "Scigo.Online.sgdClf_unknown_batch"
   ],
   "note": "Law-free."
  },
  {
   "property": "C178",
   "status": "proved",
   "theorems": [
    "Scigo.Online.paClf_predict_greatest"
   ],
   "note": "For every linear order; NaN scores are not covered."
  },
  {
   "property": "C179",
   "status": "proved",
   "theorems": [
    "Scigo.Logistic.lr_fit_accepts",
    "Scigo.Logistic.lr_unknown_penalty_ignored"
   ],
   "note": "Law-free; gonum's optimiser enters as a parameter. lr_unknown_penalty_ignored: with other solver names penalty l1 trains the same model as none."
  },
  {
   "property": "C180",
   "status": "partial",
   "theorems": [
    "Scigo.Api.param_used_partial",
    "Scigo.Api.param_default_partial",
    "Scigo.Api.param_documented_partial",
    "Scigo.Api.param_only_partial",
    "Scigo.Api.param_dropped"
   ],
   "note": "Law-free. False of the code: a value of another Go type (the integer 1 as learning_rate) is dropped without an error (param_dropped)."
  },
  {
   "property": "C181",
   "status": "partial",
   "theorems": [
    "Scigo.Api.l2_score_partial",
    "Scigo.Api.l1_score_partial",
    "Scigo.Api.classification_score",
    "Scigo.Api.metric_mislabelled",
    "Scigo.Api.other_classes_never_right",
    "Scigo.Api.score_always_zero",
    "Scigo.Api.failed_metric_zero"
   ],
   "note": "False of the code: the score called binary_logloss or multi_logloss is an accuracy, labels other than 0 and 1 never count as right, and objectives without a metric score 0. Exact arithmetic: floating-point rounding is not modelled."
  },
  {
   "property": "C182",
   "status": "partial",
   "theorems": [
    "Scigo.Api.direction_partial",
    "Scigo.Api.direction_wrong"
   ],
   "note": "For every linear order. False of the code: for binary_logloss, softmax and multiclass_logloss the score is an accuracy but lower counts as better."
  },
  {
   "property": "C183",
   "status": "partial",
   "theorems": [
    "Scigo.Api.quick_keeps_partial",
    "Scigo.Api.quick_keeps_others_partial",
    "Scigo.Api.quick_overwrites"
   ],
   "note": "Law-free. False of the code: num_class may be replaced and the caller's own map is changed."
  },
  {
   "property": "C184",
   "status": "partial",
   "theorems": [
    "Scigo.Api.quick_binary_partial",
    "Scigo.Api.quick_columns_partial",
    "Scigo.Api.quick_classes_missed",
    "Scigo.Api.quick_rounds_panic"
   ],
   "note": "Law-free up to equality. False of the code: more than two classes in one column are fitted by a regression; num_iterations of another type panics."
  },
  {
   "property": "C185",
   "status": "proved",
   "theorems": [
    "Scigo.Api.callback_order",
    "Scigo.Api.callback_list"
   ],
   "note": "Law-free. For tasks whose training and evaluation succeed."
  },
  {
   "property": "C186",
   "status": "partial",
   "theorems": [
    "Scigo.Api.should_stop_partial",
    "Scigo.Api.early_stop_before_ignored",
    "Scigo.Api.early_stop_after_fails"
   ],
   "note": "Law-free. env.ShouldStop works; ErrEarlyStop returned from BeforeIteration stops nothing, from AfterIteration it makes Train fail."
  },
  {
   "property": "C187",
   "status": "proved",
   "theorems": [
    "Scigo.Api.record_complete",
    "Scigo.Api.record_nothing_else"
   ],
   "note": "Law-free. All scores of a set are equal because all trees are built in the first iteration (C106). Names that repeat share one history (example)."
  },
  {
   "property": "C188",
   "status": "partial",
   "theorems": [
    "Scigo.Api.print_lines_partial",
    "Scigo.Api.print_last_wrong"
   ],
   "note": "Law-free. False of the code: the last iteration is printed under the number before it, or not at all. The order of the entries within a line (Go map order) is not modelled."
  },
  {
   "property": "C189",
   "status": "partial",
   "theorems": [
    "Scigo.Api.reset_no_effect",
    "Scigo.Api.reset_map_partial"
   ],
   "note": "Law-free. False of the code: the trainer is built before the first callback, so only the caller's map changes."
  },
  {
   "property": "C190",
   "status": "partial",
   "theorems": [
    "Scigo.LGB.dump_shows_nodes",
    "Scigo.LGB.dump_predicts_partial",
    "Scigo.LGB.dump_loses_categories",
    "Scigo.LGB.dump_loses_leaf_values"
   ],
   "note": "Law-free. False of the code: categories of categorical splits are not dumped, nor the leaf values of trees read from text files (negative child numbers)."
  },
  {
   "property": "C191",
   "status": "partial",
   "theorems": [
    "Scigo.LGB.json_file_raw_partial",
    "Scigo.LGB.json_file_wrong_tree",
    "Scigo.LGB.json_file_init_score",
    "Scigo.LGB.json_file_constant_tree",
    "Scigo.LGB.json_file_missing_values",
    "Scigo.LGB.json_file_refused_iff"
   ],
   "note": "Law-free. False of the code: the loader misplaces a right subtree if both children are splits (C51), the initial score and the way of missing values are not written, a tree without nodes cannot be read back. The bytes of the file are not modelled."
  },
  {
   "property": "C192",
   "status": "partial",
   "theorems": [
    "Scigo.LGB.leaf_number_partial",
    "Scigo.LGB.json_leaf_number_partial",
    "Scigo.LGB.leaf_number_shared",
    "Scigo.LGB.leaf_number_missing"
   ],
   "note": "Law-free. False of the code: in trees with two splits below a split different leaves share a number; NaN and values near 0 are sent another way than in Predict."
  },
  {
   "property": "C193",
   "status": "partial",
   "theorems": [
    "Scigo.LGB.raw_score_eq_partial",
    "Scigo.LGB.raw_score_init_multiclass"
   ],
   "note": "Law-free. False of the code for three or more classes with an initial score: PredictRawScore leaves it out."
  },
  {
   "property": "C194",
   "status": "proved",
   "theorems": [
    "Scigo.Trainer.Callbacks.callbacks_trees",
    "Scigo.Trainer.Callbacks.callbacks_stop",
    "Scigo.Trainer.Callbacks.callbacks_see"
   ],
   "note": "Law-free. The trainer is any machine making one iteration at a time. Not modelled: callbacks that write into the nodes of the trees they are shown. The results shown before an iteration are those of the iteration before."
  },
  {
   "property": "C195",
   "status": "partial",
   "theorems": [
    "Scigo.Trainer.Callbacks.schedule_no_effect",
    "Scigo.Trainer.Callbacks.schedule_zero_steps",
    "Scigo.Trainer.Callbacks.schedule_seen_partial",
    "Scigo.Trainer.Callbacks.reset_parameter_partial",
    "Scigo.Trainer.Callbacks.reset_parameter_no_model"
   ],
   "note": "Law-free. False of the code: callbacks get a fresh copy of the model, so rate and leaves written into it are never read by the trainer; the decay is not even accumulated in what other callbacks see; 0 steps panic."
  },
  {
   "property": "C196",
   "status": "proved",
   "theorems": [
    "Scigo.Trainer.Callbacks.time_limit"
   ],
   "note": "Law-free. The clock is an arbitrary sequence of readings."
  },
  {
   "property": "C197",
   "status": "partial",
   "theorems": [
    "Scigo.Trainer.Callbacks.print_lines_partial",
    "Scigo.Trainer.Callbacks.print_twice",
    "Scigo.Trainer.Callbacks.print_zero_panics"
   ],
   "note": "Law-free. False of the code: every due iteration is printed twice, first with the results of the iteration before; period 0 panics."
  },
  {
   "property": "C198",
   "status": "partial",
   "theorems": [
    "Scigo.Trainer.Callbacks.checkpoint_files",
    "Scigo.Trainer.Callbacks.checkpoint_disk_error",
    "Scigo.Trainer.Callbacks.checkpoint_improved_partial",
    "Scigo.Trainer.Callbacks.checkpoint_wrong_model"
   ],
   "note": "Law-free; scores in a linear order. Holds without saveOnlyImproved, and with it for period 1. False of the code with saveOnlyImproved and longer periods: the file may hold the model before the iteration. A file is identified by its iteration number; its bytes are not modelled."
  },
  {
   "property": "C199",
   "status": "partial",
   "theorems": [
    "Scigo.BaseEst.estimators_apart_partial",
    "Scigo.BaseEst.clone_shows_same",
    "Scigo.BaseEst.clone_shares_references"
   ],
   "note": "Independence holds for every program as far as the parameter maps go (an operation that does not concern an estimator leaves all it shows unchanged). It fails when a parameter value is a pointer, slice or map: Clone, GetParams(true) and ExportWeights copy the map but share such values (clone_shares_references)."
  },
  {
   "property": "C200",
   "status": "proved",
   "theorems": [
    "Scigo.BaseEst.getParams_shows",
    "Scigo.BaseEst.shallow_params_live",
    "Scigo.BaseEst.detached_params"
   ],
   "note": ""
  },
  {
   "property": "C201",
   "status": "proved",
   "theorems": [
    "Scigo.BaseEst.setParams_merges"
   ],
   "note": ""
  },
  {
   "property": "C202",
   "status": "proved",
   "theorems": [
    "Scigo.BaseEst.export_spec",
    "Scigo.BaseEst.hash_of_view"
   ],
   "note": "JSON encoding, SHA-256 and hex are one function parameter that may fail; collisions are not excluded."
  },
  {
   "property": "C203",
   "status": "partial",
   "theorems": [
    "Scigo.BaseEst.import_accepts",
    "Scigo.BaseEst.import_effect",
    "Scigo.BaseEst.export_import_copies_partial",
    "Scigo.BaseEst.import_keeps_old_params",
    "Scigo.BaseEst.import_never_unfits"
   ],
   "note": "Proved when the importing estimator has no parameter the exporting one lacks. False in general: parameters of the importing estimator that the weights do not mention survive, so the hashes differ after a successful import; and weights with is_fitted=false leave a fitted estimator fitted."
  },
  {
   "property": "C204",
   "status": "proved",
   "theorems": [
    "Scigo.Eval.regression_report_ok_iff",
    "Scigo.Eval.regression_report_entries"
   ],
   "note": "Exact arithmetic: floating-point rounding is not modelled."
  },
  {
   "property": "C205",
   "status": "proved",
   "theorems": [
    "Scigo.Eval.classification_report",
    "Scigo.Eval.report_totals",
    "Scigo.Eval.classification_report_ok"
   ],
   "note": "The key of a class is the label itself, in the code class_%d. Exact arithmetic: floating-point rounding is not modelled."
  },
  {
   "property": "C206",
   "status": "proved",
   "theorems": [
    "Scigo.StreamPipe.pipeline_order",
    "Scigo.StreamPipe.pipeline_complete",
    "Scigo.StreamPipe.pipeline_run_ahead",
    "Scigo.StreamPipe.pipeline_finishes",
    "Scigo.StreamPipe.pipeline_step_lowers",
    "Scigo.StreamPipe.pipeline_nil_kills",
    "Scigo.StreamPipe.stages_in_order"
   ],
   "note": "The stages are arbitrary functions on channels; what the last one sends is arbitrary. Matrix contents are opaque."
  },
  {
   "property": "C207",
   "status": "partial",
   "theorems": [
    "Scigo.StreamPipe.pipeline_counters",
    "Scigo.StreamPipe.pipeline_counters_final",
    "Scigo.StreamPipe.bytes_exact_partial",
    "Scigo.StreamPipe.bytes_overflow_missed"
   ],
   "note": "No update is lost, for all executions. The counters are totals modulo 2^64 only, and the overflow test of the byte count can miss: a matrix of 2^31 x 2^31 counts for 0 bytes (bytes_overflow_missed); exact below 2^63 bytes (bytes_exact_partial)."
  },
  {
   "property": "C208",
   "status": "partial",
   "theorems": [
    "Scigo.Chunked.process_ignores_data",
    "Scigo.Chunked.process_negative_panics",
    "Scigo.Chunked.chunks_partial"
   ],
   "note": "False: the scanner never yields a row, so the callback is never called and nil is returned, whatever the data; a negative chunk size panics. chunks_partial: the chunking loop itself is right for any scanner that does yield rows."
  },
  {
   "property": "C209",
   "status": "partial",
   "theorems": [
    "Scigo.CV.cv_regression_scores_partial",
    "Scigo.CV.cv_logloss_score_partial",
    "Scigo.CV.cv_logloss_arguments",
    "Scigo.CV.cv_accuracy_score_partial",
    "Scigo.CV.cv_score_panics",
    "Scigo.CV.cv_metric_used",
    "Scigo.CV.cv_unknown_is_mse",
    "Scigo.CV.cv_r2_prefers_worst",
    "Scigo.CV.cv_accuracy_misses_classes"
   ],
   "note": "True for l2, mse, rmse, l1, mae, logloss and, with labels 0 and 1, accuracy. False otherwise: every other name, auc and r2 included, is scored with the mean squared error; for auc and r2 the fold with the largest error is reported as best; with accuracy labels other than 0 and 1 are never right."
  },
  {
   "property": "C210",
   "status": "proved",
   "theorems": [
    "Scigo.CV.cv_mean",
    "Scigo.CV.cv_std"
   ],
   "note": "Exact arithmetic: floating-point rounding is not modelled."
  },
  {
   "property": "C211",
   "status": "partial",
   "theorems": [
    "Scigo.CV.cv_regressor_fold_partial",
    "Scigo.CV.cv_classifier_fold_partial",
    "Scigo.CV.cv_regressor_drops_params",
    "Scigo.CV.cv_quantile_is_median",
    "Scigo.CV.cv_classifier_ignores_labels",
    "Scigo.CV.cv_multiclass_default"
   ],
   "note": "Folds are trained as by Fit up to the smallest split gain (0 instead of 1e-7) when the objective has no parameter. False in general: the parameters of quantile, huber, fair and tweedie are dropped, and the objective of a classifier is not derived from the labels. Early stopping on the test rows is C102."
  },
  {
   "property": "C212",
   "status": "partial",
   "theorems": [
    "Scigo.Warn.warnings_delivered",
    "Scigo.Warn.warn_step_lowers",
    "Scigo.Warn.warn_progress_partial",
    "Scigo.Warn.reentrant_handler_blocks",
    "Scigo.Warn.zerolog_takes_all"
   ],
   "note": "Delivery and order hold for all executions. That calls return holds only if handlers do not call the package: Warn holds the mutex while the handler runs, so a handler that warns or sets a handler blocks every goroutine for ever (reentrant_handler_blocks). A handler set while a zerolog function is set has no effect (zerolog_takes_all). Handlers that panic are not modelled."
  },
  {
   "property": "C213",
   "status": "partial",
   "theorems": [
    "Scigo.GC.gc_rate_limited",
    "Scigo.GC.gc_stopped",
    "Scigo.GC.gc_monitors_end_partial",
    "Scigo.GC.gc_stop_does_not_restore",
    "Scigo.GC.gc_avg_pause",
    "Scigo.GC.gc_collects_iff"
   ],
   "note": "Rate limit, count and termination of the monitors are proved for all histories. False: Stop leaves the percentage at 100 and the memory limit at 1 GiB whatever they were before Start, and a stopped optimizer cannot be started again. The heap size is an arbitrary choice at each check."
  },
  {
   "property": "C214",
   "status": "partial",
   "theorems": [
    "Scigo.GC.peak_at_most",
    "Scigo.GC.peak_exact_partial",
    "Scigo.GC.peak_missed",
    "Scigo.GC.reuse_rate_unbounded"
   ],
   "note": "The peak reported is never too high, and exact when calls do not overlap. With overlapping calls it can miss the peak (peak_missed). The reuse rate is not a share: it grows without bound."
  },
  {
   "property": "C215",
   "status": "proved",
   "theorems": [
    "Scigo.Api.callback_error_fails"
   ],
   "note": "Law-free. Training and evaluation themselves succeed and the other callbacks report no error and do not ask to stop; they may change everything else."
  },
  {
   "property": "C216",
   "status": "partial",
   "theorems": [
    "Scigo.LGB.text_model_loaded_partial",
    "Scigo.LGB.three_blank_lines_rejected",
    "Scigo.LGB.text_init_score"
   ],
   "note": "Proved for sections separated by one or two blank lines and numerical splits. A third blank line makes loading fail (three_blank_lines_rejected); categorical splits are C50 and C51. The number parsers and the set of white space characters are parameters."
  },
  {
   "property": "C217",
   "status": "partial",
   "theorems": [
    "Scigo.LGB.missing_trees_rejected_partial",
    "Scigo.LGB.cut_file_loads",
    "Scigo.LGB.cut_file_predict_panics",
    "Scigo.LGB.cut_file_panics"
   ],
   "note": "A file with fewer sections than tree_sizes announces is rejected. False otherwise: a file cut inside the last leaf values loads with another value or a missing leaf, and one with fewer thresholds than splits crashes the loader."
  },
  {
   "property": "C218",
   "status": "partial",
   "theorems": [
    "Scigo.LGB.saved_estimator_load_panics",
    "Scigo.LGB.saved_constant_partial"
   ],
   "note": "False for every tree with a split: SaveToFile writes no child arrays, and loading panics with an index out of range. What holds: models of constants are read back, without initial score. Numbers go through an arbitrary printer and reader that are inverse up to rounding."
  },
  {
   "property": "C219",
   "status": "partial",
   "theorems": [
    "Scigo.LGB.loader_file_partial",
    "Scigo.LGB.loader_constant_zero",
    "Scigo.LGB.unseparated_tree_dropped",
    "Scigo.LGB.importance_changes_header",
    "Scigo.LGB.long_line_rejected"
   ],
   "note": "What holds: files of trees with splits, blank lines between trees, no features named like header keys and no line of 64 KiB. Each of these restrictions has its own counter-theorem."
  },
  {
   "property": "C220",
   "status": "proved",
   "theorems": [
    "Scigo.LGB.split_importance",
    "Scigo.LGB.gain_importance",
    "Scigo.LGB.unknown_importance",
    "Scigo.LGB.bad_feature_importance_panics",
    "Scigo.LGB.importance_tree_order",
    "Scigo.Trainer.layout_splits",
    "Scigo.Trainer.trained_splits",
    "Scigo.Trainer.trained_importance"
   ],
   "note": "Exact arithmetic: floating-point rounding is not modelled."
  },
  {
   "property": "C221",
   "status": "partial",
   "theorems": [
    "Scigo.Boost.answers_from",
    "Scigo.Boost.model_given_last_partial",
    "Scigo.Boost.set_model_ignored"
   ],
   "note": "False: a trained model given to a booster that was loaded before never predicts, although NumTrees counts it (set_model_ignored). What answers is characterised for all histories (answers_from). Predictors are arbitrary functions of model and input."
  },
  {
   "property": "C222",
   "status": "partial",
   "theorems": [
    "Scigo.Boost.loaded_variants",
    "Scigo.Boost.trained_variants",
    "Scigo.Boost.loaded_raw_score_partial",
    "Scigo.Boost.loaded_raw_score_wrong"
   ],
   "note": "False for loaded models: raw scores and probabilities are the plain predictions, so the raw score of a binary model is a probability, and leaves are refused. Proved for trained models (the predictor of the model given last is asked), and for loaded regressions."
  },
  {
   "property": "C223",
   "status": "partial",
   "theorems": [
    "Scigo.Boost.current_iteration_partial",
    "Scigo.Boost.update_trains_nothing",
    "Scigo.Boost.set_model_keeps_counters",
    "Scigo.Boost.num_trees_of_last",
    "Scigo.Boost.counters_without_init"
   ],
   "note": "False: Update only counts, and SetModel keeps the counters of the model before."
  },
  {
   "property": "C224",
   "status": "partial",
   "theorems": [
    "Scigo.Boost.eval_results_partial",
    "Scigo.Boost.eval_results_mixed",
    "Scigo.Boost.evalKey_inj"
   ],
   "note": "Proved for dataset names without hyphen. The key joins the names with a hyphen, so pairs with hyphens in the dataset name can share a list."
  },
  {
   "property": "C225",
   "status": "partial",
   "theorems": [
    "Scigo.Trainer.validation_fit_partial",
    "Scigo.Trainer.validation_ignores",
    "Scigo.Trainer.validation_differs"
   ],
   "note": "False with bagging, GOSS or an initial score that was set: FitWithValidation uses all rows and the initial score of the objective. Proved for all other settings. A recursion deeper than the given bound counts as a panic."
  },
  {
   "property": "C226",
   "status": "partial",
   "theorems": [
    "Scigo.Trainer.validation_score",
    "Scigo.Trainer.validation_score_partial",
    "Scigo.Trainer.zero_weight_score",
    "Scigo.Trainer.validation_score_errors",
    "Scigo.Trainer.binary_validation_inverted"
   ],
   "note": "False: the loop multiplies the loss summed so far by every weight, so a last weight 0 makes every score 0; and for the binary objective the loss is taken at the probability, where it is lower for worse predictions. Proved without weights for objectives without link. Exact arithmetic: floating-point rounding is not modelled."
  },
  {
   "property": "C227",
   "status": "proved",
   "theorems": [
    "Scigo.Settings.tree_params_accepted",
    "Scigo.Settings.tree_params_round_trip"
   ],
   "note": "A map is the list of its entries in the order visited."
  },
  {
   "property": "C228",
   "status": "partial",
   "theorems": [
    "Scigo.Settings.tree_params_refused_partial",
    "Scigo.Settings.tree_params_refused_false"
   ],
   "note": "The claim is false of the code; the part that holds is proved beside a counterexample."
  },
  {
   "property": "C229",
   "status": "partial",
   "theorems": [
    "Scigo.Settings.max_leaf_nodes_partial",
    "Scigo.Settings.max_leaf_nodes_false"
   ],
   "note": "The claim is false of the code: max_leaf_nodes, max_features and random_state are stored and never read."
  },
  {
   "property": "C230",
   "status": "proved",
   "theorems": [
    "Scigo.Settings.pipe_own_params",
    "Scigo.Settings.pipe_step_params",
    "Scigo.Settings.pipe_unambiguous",
    "Scigo.Settings.pipe_params_collide"
   ],
   "note": "Steps whose GetParams takes an argument (the linear regression of sklearn/linear_model, BaseEstimator) are skipped by the code and count as steps without parameters."
  },
  {
   "property": "C231",
   "status": "partial",
   "theorems": [
    "Scigo.Settings.pipe_set_partial",
    "Scigo.Settings.pipe_set_false"
   ],
   "note": "The claim is false of the code (a TODO there): only verbose is set."
  },
  {
   "property": "C232",
   "status": "proved",
   "theorems": [
    "Scigo.Quick.quick_train_score",
    "Scigo.Quick.quick_train_failed",
    "Scigo.Quick.quick_train_fitted"
   ],
   "note": "The trainer is an arbitrary function here (it is modelled in Verif/Trainer). Times and printed text are not modelled."
  },
  {
   "property": "C233",
   "status": "partial",
   "theorems": [
    "Scigo.Quick.load_and_predict_partial",
    "Scigo.Quick.load_and_predict_wrong_kind"
   ],
   "note": "False for files with another objective read as a classifier: all labels are 0. The outcome of reading the file is arbitrary here (readers: C216-C219)."
  },
  {
   "property": "C234",
   "status": "partial",
   "theorems": [
    "Scigo.Quick.benchmark_calls_partial",
    "Scigo.Quick.benchmark_times_errors"
   ],
   "note": "False: all timed calls return a dimension error; only the number of calls is right."
  },
  {
   "property": "C235",
   "status": "proved",
   "theorems": [
    "Scigo.Own.attributes_safe",
    "Scigo.Own.results_are_snapshots",
    "Scigo.Own.accessor_reports"
   ],
   "note": "Law-free. Slices are whole buffers; training is any sequence of in-place writes, fresh slices, copies and resets of the fields, with arbitrary values. Single goroutine (the locks are not modelled here)."
  },
  {
   "property": "C236",
   "status": "partial",
   "theorems": [
    "Scigo.Own.handed_over_partial",
    "Scigo.Own.class_prior_is_live"
   ],
   "note": "False for WithClassPrior. (pipeline.New, NewTensor and Booster.SetFeatureNames keep the slices they are given as well; not modelled.)"
  },
  {
   "property": "C237",
   "status": "proved",
   "theorems": [
    "Scigo.Online.sgdReg_reproducible",
    "Scigo.Online.sgdClf_reproducible",
    "Scigo.Online.reg_fit_refines",
    "Scigo.KMeans.kmeans_reproducible",
    "Scigo.Online.clf_fit_refines",
    "Scigo.Online.reg_partialFit_draws",
    "Scigo.Online.clf_partialFit_draws"
   ],
   "note": "Law-free, for every generator: math/rand/v2 is a state machine whose functions are parameters (Verif/Base/Rand.lean)."
  },
  {
   "property": "C238",
   "status": "partial",
   "theorems": [
    "Scigo.Online.sgdReg_refit_partial",
    "Scigo.Online.sgdClf_refit_partial",
    "Scigo.Online.sgdReg_refit_differs",
    "Scigo.KMeans.kmeans_refit_partial",
    "Scigo.KMeans.kmeans_refit_differs"
   ],
   "note": "False of the code: Fit does not seed the generator again. Proved: nothing but the state of the generator (and options) carries over."
  },
  {
   "property": "C239",
   "status": "partial",
   "theorems": [
    "Scigo.CV.stratified_seed_partial",
    "Scigo.CV.stratified_seed_ignored",
    "Scigo.CV.kfold_seeded",
    "Scigo.CV.stratified_seeded_partition",
    "Scigo.CV.shuffled_classes"
   ],
   "note": "False for the shuffled StratifiedKFold: one generator serves the classes in the order of a map. True for KFold (a function of its arguments) and without shuffling (rows within a test fold up to order); the folds partition the rows in all cases."
  },
  {
   "property": "C240",
   "status": "partial",
   "theorems": [
    "Scigo.Logistic.logistic_seed_partial",
    "Scigo.Logistic.logistic_seed_ignored",
    "Scigo.Logistic.initial_weights_in_order"
   ],
   "note": "False of the code: the seed is stored and the first weights come from crypto/rand. Proved: with two classes, lbfgs and no warm start the first weights do not matter."
  },
  {
   "property": "C241",
   "status": "partial",
   "theorems": [
    "Scigo.Trainer.train_reproducible_partial",
    "Scigo.Trainer.train_clock",
    "Scigo.Trainer.bagging_mode",
    "Scigo.Trainer.draws_among_the_rest",
    "Scigo.Trainer.seed_decides"
   ],
   "note": "False for goss with seed 0 in the deterministic mode. Law-free; sorting functions of the library are functions of their input. The parallel histogram builder is treated in C63."
  },
  {
   "property": "C242",
   "status": "partial",
   "theorems": [
    "Scigo.Trainer.goss_fresh_partial",
    "Scigo.Trainer.goss_ranks_repeat"
   ],
   "note": "False of the code with a seed: the same ranks (in the order of the gradients) are drawn for every tree."
  },
  {
   "property": "C243",
   "status": "proved",
   "theorems": [
    "Scigo.Boost.objective_by_name",
    "Scigo.Boost.tweediePower_range"
   ],
   "note": "Exact arithmetic: floating-point rounding is not modelled."
  },
  {
   "property": "C244",
   "status": "proved",
   "theorems": [
    "Scigo.EFB.bundles_greedy"
   ],
   "note": "Law-free. sort.Slice is any function that sorts."
  },
  {
   "property": "C245",
   "status": "proved",
   "theorems": [
    "Scigo.Options.sgd_regressor_reports",
    "Scigo.Options.sgd_classifier_reports",
    "Scigo.Options.pa_regressor_reports",
    "Scigo.Options.pa_classifier_reports",
    "Scigo.Options.logistic_reports",
    "Scigo.Options.linear_reports",
    "Scigo.Options.tree_reports"
   ],
   "note": "Decimal literals are a parameter of the model."
  },
  {
   "property": "C246",
   "status": "proved",
   "theorems": [
    "Scigo.Options.kmeans_options",
    "Scigo.Options.drift_options",
    "Scigo.Options.nb_options",
    "Scigo.Options.nb_prior_dropped",
    "Scigo.Options.nb_prior_kept"
   ],
   "note": "Counts given to the clusterer are natural numbers."
  },
  {
   "property": "C247",
   "status": "partial",
   "theorems": [
    "Scigo.LGB.predict_leaf_entries",
    "Scigo.LGB.predict_leaf_index_entries",
    "Scigo.LGB.predict_leaf_no_trees",
    "Scigo.LGB.leaf_numbers_agree_partial",
    "Scigo.LGB.leaf_numbers_differ",
    "Scigo.LGB.leaf_numbers_tolerance",
    "Scigo.Trainer.trained_leaf_numbers_partial"
   ],
   "note": "False in general: PredictLeaf numbers leaves from left to right, PredictLeafIndex by position in the node array (loaded trees may differ), and only the latter compares with a tolerance. Proved for every trained tree and every sample without a value within the tolerance above a threshold. PredictLeaf of a model without trees panics."
  },
  {
   "property": "C248",
   "status": "partial",
   "theorems": [
    "Scigo.Online.reg_iterations_losses",
    "Scigo.Online.reg_fit_reports_partial",
    "Scigo.Online.reg_history_grows",
    "Scigo.Online.clf_iterations_partial",
    "Scigo.Online.clf_partialFit_not_counted",
    "Scigo.Online.converged_is_stale"
   ],
   "note": "False in two ways: after a warm-started Fit the flag of an earlier Fit remains, so a run that did not converge reports convergence and gives no warning; SGDClassifier.PartialFit adds a loss but no iteration. Proved: SGDRegressor in every history; the flag and warning for Fit from scratch. Law-free."
  },
  {
   "property": "C249",
   "status": "partial",
   "theorems": [
    "Scigo.State.Nested.callback_exclusive",
    "Scigo.State.Nested.withStateMut_never_returns",
    "Scigo.State.Nested.withState_setter_never_returns",
    "Scigo.State.Nested.withState_getter_may_deadlock",
    "Scigo.State.Nested.callbacks_progress_partial",
    "Scigo.State.Nested.nested_reads_progress_partial",
    "Scigo.State.Nested.callbacks_terminate"
   ],
   "note": "False as stated: a callback of WithStateMut that uses the state manager, or one of WithState that sets, never returns, and one of WithState that reads can deadlock with a concurrent setter. Proved: exclusion for all calls; progress and termination when callbacks do not use the manager, and when nobody writes. RWMutex with writer preference; fairness of the scheduler not needed."
  },
  {
   "property": "C250",
   "status": "proved",
   "theorems": [
    "Scigo.Trainer.binning_panics_iff",
    "Scigo.Trainer.findBin_upper",
    "Scigo.Trainer.node_histogram",
    "Scigo.Trainer.subtract_sibling"
   ],
   "note": "binning_panics_iff and findBin_upper law-free; the rest in exact arithmetic over any linearly ordered field, with any correct sort in place of sort.Float64s. Exact arithmetic: floating-point rounding is not modelled."
  },
  {
   "property": "C251",
   "status": "partial",
   "theorems": [
    "Scigo.LGB.Path.clean_same_place",
    "Scigo.LGB.Path.clean_idempotent",
    "Scigo.LGB.Path.checked_inside_partial",
    "Scigo.LGB.Path.opened_iff",
    "Scigo.LGB.Path.loadFromFile_escapes",
    "Scigo.LGB.Path.absolute_opened",
    "Scigo.LGB.Path.harmless_refused",
    "Scigo.LGB.Path.autoDetect_clean",
    "Scigo.LGB.Path.autoDetect_uneven",
    "Scigo.LGB.Path.json_model_iff"
   ],
   "note": "False as stated: LoadFromFile and LoadFromJSONFile (and the estimators' LoadModel) refuse nothing, so '../x' leaves the directory; every loader opens absolute paths; './m' and names with two dots are refused by LoadLeavesModelFromFile; LoadModelAutoDetect accepts './m' only if it holds JSON. Proved: cleaning never changes the place a path names; the two checking loaders open only files below the working directory for relative paths; exactly which paths each opens. Unix separators; symbolic links not modelled."
  },
  {
   "property": "C252",
   "status": "partial",
   "theorems": [
    "Scigo.Hist.Cache.cache_sound_partial",
    "Scigo.Hist.Cache.cache_exact_partial",
    "Scigo.Hist.Cache.cache_returns",
    "Scigo.Hist.Cache.cache_is_stale",
    "Scigo.Hist.Cache.clear_refreshes",
    "Scigo.Hist.Cache.clear_is_overtaken"
   ],
   "note": "False as stated: the cache is keyed by the feature alone, so other rows or another matrix get the first caller's values, and a call in flight during ClearCache refills the cache with old data. Proved for every schedule: a result is some caller's column, and everybody's own if the calls for a feature agree. Law-free."
  },
  {
   "property": "C253",
   "status": "partial",
   "theorems": [
    "Scigo.LGB.multiclass_probabilities",
    "Scigo.LGB.model_predict_multiclass",
    "Scigo.LGB.multiclass_order_partial",
    "Scigo.LGB.multiclass_wrong_for_large_gaps"
   ],
   "note": "exact real arithmetic; the order of the probabilities is proved for scores within 6 (winner: 8) of the largest and refuted beyond. Exact arithmetic: floating-point rounding is not modelled."
  },
  {
   "property": "C254",
   "status": "partial",
   "theorems": [
    "Scigo.Trainer.early_stopping_ignored_partial",
    "Scigo.Trainer.early_stopping_never_stops",
    "Scigo.Trainer.early_stopping_no_effect_witness"
   ],
   "note": "False of the code: proved that the setting has no effect at all. Law-free; logging not modelled."
  },
  {
   "property": "C255",
   "status": "proved",
   "theorems": [
    "Scigo.Hist.settings_positive",
    "Scigo.Hist.setters",
    "Scigo.Hist.parallel_is_sequential",
    "Scigo.Hist.parallel_returns",
    "Scigo.Hist.settings_irrelevant",
    "Scigo.Hist.no_worker_builds_nothing"
   ],
   "note": "Exact arithmetic: floating-point rounding is not modelled. In floats the order of the additions of the chunks may change the last bits. NaN sums, for which the merge may spin, are in C63."
  },
  {
   "property": "C256",
   "status": "partial",
   "theorems": [
    "Scigo.EFB.beneficial_iff",
    "Scigo.EFB.beneficial_sparse_column_partial",
    "Scigo.EFB.efb_setters",
    "Scigo.EFB.beneficial_without_bundles",
    "Scigo.EFB.bundles_without_benefit"
   ],
   "note": "The exact condition is proved; the equivalence with CreateBundles is refuted in both directions. Exact arithmetic: floating-point rounding is not modelled."
  },
  {
   "property": "C257",
   "status": "partial",
   "theorems": [
    "Scigo.Shap.shap_rows",
    "Scigo.Shap.shap_row_local",
    "Scigo.Shap.interactions_rows",
    "Scigo.Shap.predictSHAP_fitted",
    "Scigo.Shap.predictSHAP_returns_partial",
    "Scigo.Shap.narrow_matrix_explained"
   ],
   "note": "Rows, shapes, symmetry and the unfitted case are proved for every model. The width is not checked: a matrix with too few columns gets values that explain nothing, and its interactions panic (narrow_matrix_explained). The sum of the values is in exact arithmetic. Exact arithmetic: floating-point rounding is not modelled."
  },
  {
   "property": "C258",
   "status": "proved",
   "theorems": [
    "Scigo.LGB.simple_sigmoid_value",
    "Scigo.LGB.stable_sigmoid_value",
    "Scigo.LGB.simple_predict_link",
    "Scigo.Wrapper.logloss_proba"
   ],
   "note": "Exact arithmetic: floating-point rounding is not modelled."
  },
  {
   "property": "C259",
   "status": "partial",
   "theorems": [
    "Scigo.LGB.predictor_best_partial",
    "Scigo.LGB.best_iteration_cuts_classes"
   ],
   "note": "False of the code for several classes: the best iteration counts trees, not iterations. Proved: how many trees are used, for every model."
  },
  {
   "property": "C260",
   "status": "partial",
   "theorems": [
    "Scigo.ParamMap.objective_validated",
    "Scigo.ParamMap.validated_is_trained_partial",
    "Scigo.ParamMap.mape_not_trained",
    "Scigo.ParamMap.logistic_not_validated",
    "Scigo.ParamMap.json_objective",
    "Scigo.ParamMap.json_disagrees"
   ],
   "note": "False of the code: the tables disagree on mape, logistic and others. strings.ToLower is a parameter."
  },
  {
   "property": "C261",
   "status": "proved",
   "theorems": [
    "Scigo.ParamMap.snake_case_words",
    "Scigo.ParamMap.default_of_name",
    "Scigo.ParamMap.defaults_applied",
    "Scigo.ParamMap.boosting_names"
   ],
   "note": "Law-free; strings.ToLower is a parameter."
  },
  {
   "property": "C262",
   "status": "partial",
   "theorems": [
    "Scigo.Log.record_partial",
    "Scigo.Log.error_key_lost",
    "Scigo.Log.odd_argument_dropped"
   ],
   "note": "False of the code: the key of an error is replaced by \"error\", and the last argument of an odd number is dropped. The JSON encoding of zerolog is not modelled."
  },
  {
   "property": "C263",
   "status": "partial",
   "theorems": [
    "Scigo.Shap.interaction_value",
    "Scigo.Shap.interaction_nonneg",
    "Scigo.Shap.no_common_tree",
    "Scigo.Shap.interaction_rows_partial",
    "Scigo.Shap.interaction_rows_not_additive"
   ],
   "note": "The value, the sign and the zero case are proved for every model; that the rows sum up to the SHAP values is false of the code. Exact arithmetic: floating-point rounding is not modelled."
  },
  {
   "property": "C264",
   "status": "partial",
   "theorems": [
    "Scigo.Hist.categorical_split_optimal_partial",
    "Scigo.Hist.l2_order_not_optimal",
    "Scigo.Hist.min_data_not_optimal"
   ],
   "note": "Proved for every data set without L1 regularisation, minData at most 1, hessians above the smallest accepted, and either no L2 regularisation or equal hessians of the categories. False with L2 regularisation and with a larger minimum of rows: both witnesses are proved. Exact arithmetic: floating-point rounding is not modelled."
  },
  {
   "property": "C265",
   "status": "partial",
   "theorems": [
    "Scigo.Trainer.categorical_search_partial",
    "Scigo.Trainer.categories_of_split_differ"
   ],
   "note": "Proved of the split returned; false of the categories of the node built from it (witness proved). Fit does not call this search: only findBestSplitWithHistogram does. Exact arithmetic: floating-point rounding is not modelled."
  },
  {
   "property": "C266",
   "status": "partial",
   "theorems": [
    "Scigo.Linear.same_weights_same_hash",
    "Scigo.Linear.hash_tells_weights_apart_partial",
    "Scigo.Linear.nonfinite_hash"
   ],
   "note": "Proved for finite weights; false with NaN or infinite weights (proved: json.Marshal fails, its error is dropped, and the hash is that of no bytes). The JSON encoding and SHA-256 are parameters assumed free of collisions: SHA-256 is not modelled, and its collisions, which exist but are not known, are outside the claim."
  },
  {
   "property": "C267",
   "status": "partial",
   "theorems": [
    "Scigo.Linear.altered_coefficients_refused_partial",
    "Scigo.Linear.altered_intercept_accepted"
   ],
   "note": "Proved of changed coefficients; false of a changed intercept (proved for every model). The JSON encoding and SHA-256 are parameters assumed free of collisions."
  },
  {
   "property": "C268",
   "status": "partial",
   "theorems": [
    "Scigo.ParamMap.regressor_with_reports",
    "Scigo.ParamMap.classifier_with_reports",
    "Scigo.ParamMap.classifier_like_regressor",
    "Scigo.ParamMap.hidden_settings",
    "Scigo.ParamMap.with_like_set_partial",
    "Scigo.ParamMap.objective_not_normalised"
   ],
   "note": "Proved for every chain of calls; the agreement with SetParams is false of objectives (witness mse proved)."
  },
  {
   "property": "C269",
   "status": "partial",
   "theorems": [
    "Scigo.Round.rounded_errors_nonneg",
    "Scigo.Round.rounded_perfect",
    "Scigo.Round.rounded_scores_le_one",
    "Scigo.Round.rounded_accuracy_range",
    "Scigo.Round.mse_underflow",
    "Scigo.Round.mse_zero_partial",
    "Scigo.Round.accuracy_not_nearest"
   ],
   "note": "Ranges and perfect scores proved; \"MSE is 0 only for equal vectors\" is false with underflow (proved) and proved without. Rounded arithmetic (Verif/Base/Round.lean): every operation is followed by an arbitrary monotone rounding; binary64 without overflow is the instance in Verif/Base/Binary64.lean. Not modelled: overflow, NaN, the sign of zero, fused multiply-add."
  },
  {
   "property": "C270",
   "status": "partial",
   "theorems": [
    "Scigo.Round.rounded_minmax_partial",
    "Scigo.Round.minmax_exceeds"
   ],
   "note": "The upper limit is false for ranges whose width is not representable (proved for [-0.2, 0.4] in binary64); the rest is proved. Rounded arithmetic (Verif/Base/Round.lean): every operation is followed by an arbitrary monotone rounding; binary64 without overflow is the instance in Verif/Base/Binary64.lean. Not modelled: overflow, NaN, the sign of zero, fused multiply-add."
  },
  {
   "property": "C271",
   "status": "partial",
   "theorems": [
    "Scigo.Round.rounded_constant_column_partial",
    "Scigo.Round.constant_column_scaled"
   ],
   "note": "False (proved for three times 100000000.1 in binary64); proved for values whose multiples are representable. The square root is a parameter. Rounded arithmetic (Verif/Base/Round.lean): every operation is followed by an arbitrary monotone rounding; binary64 without overflow is the instance in Verif/Base/Binary64.lean. Not modelled: overflow, NaN, the sign of zero, fused multiply-add."
  },
  {
   "property": "C272",
   "status": "partial",
   "theorems": [
    "Scigo.Round.rounded_split_partial",
    "Scigo.Round.adjacent_values_not_separated",
    "Scigo.Round.binary64_doubleExact",
    "Scigo.Overflow.huge_values_not_separated"
   ],
   "note": "The threshold lies between the two values (proved); it does not always separate them (proved for two binary64 numbers). Rounded arithmetic (Verif/Base/Round.lean): every operation is followed by an arbitrary monotone rounding; binary64 without overflow is the instance in Verif/Base/Binary64.lean. Not modelled: overflow, NaN, the sign of zero, fused multiply-add."
  },
  {
   "property": "C273",
   "status": "proved",
   "theorems": [
    "Scigo.Round.rounded_logistic_proba",
    "Scigo.Round.rounded_bayes_proba",
    "Scigo.Round.rounded_sgd_proba",
    "Scigo.Round.rounded_sum_not_one"
   ],
   "note": "The exponential is a parameter with the stated properties. Rounded arithmetic (Verif/Base/Round.lean): every operation is followed by an arbitrary monotone rounding; binary64 without overflow is the instance in Verif/Base/Binary64.lean. Not modelled: overflow, NaN, the sign of zero, fused multiply-add."
  },
  {
   "property": "C274",
   "status": "proved",
   "theorems": [
    "Scigo.Round.rounded_linear_predict",
    "Scigo.Round.rounded_predRow"
   ],
   "note": "Rounded arithmetic (Verif/Base/Round.lean): every operation is followed by an arbitrary monotone rounding; binary64 without overflow is the instance in Verif/Base/Binary64.lean. Not modelled: overflow, NaN, the sign of zero, fused multiply-add."
  },
  {
   "property": "C275",
   "status": "proved",
   "theorems": [
    "Scigo.Online.pa_iterations",
    "Scigo.Online.paClf_iterations",
    "Scigo.Online.clf_iterations",
    "Scigo.Online.partial_fit_counts"
   ],
   "note": "Law-free for the PassiveAggressive estimators and PartialFit, exact reals for the convergence test of SGDClassifier. The estimators differ: PartialFit increments the count for SGDRegressor and leaves it for the other three (partial_fit_counts)."
  },
  {
   "property": "C276",
   "status": "partial",
   "theorems": [
    "Scigo.Overflow.finite_errors_partial",
    "Scigo.Overflow.finite_r2_partial",
    "Scigo.Overflow.finite_vectors_overflow"
   ],
   "note": "False in general: squares and differences of large finite numbers overflow (finite_vectors_overflow); proved for numbers of at most 2^484 in absolute value and fewer than 2^53 rows. Binary64 with overflow: operations as in IEEE 754 with two infinities, one NaN and one zero; the sign of zero and fused multiply-add are not modelled."
  },
  {
   "property": "C277",
   "status": "partial",
   "theorems": [
    "Scigo.Overflow.finite_minmax_partial",
    "Scigo.Overflow.minmax_not_a_number",
    "Scigo.Overflow.finite_standard_partial",
    "Scigo.Overflow.standard_all_zero"
   ],
   "note": "False in general (minmax_not_a_number, standard_all_zero); proved for data of at most 2^1022 (MinMaxScaler) and 2^484 (StandardScaler) in absolute value. The square root is a parameter. Binary64 with overflow: operations as in IEEE 754 with two infinities, one NaN and one zero; the sign of zero and fused multiply-add are not modelled."
  },
  {
   "property": "C278",
   "status": "partial",
   "theorems": [
    "Scigo.Overflow.finite_logistic_proba_partial",
    "Scigo.Overflow.small_logistic_proba_partial",
    "Scigo.Overflow.logistic_not_a_number",
    "Scigo.Overflow.logistic_proba_nan"
   ],
   "note": "False in general: a score that overflows makes all probabilities NaN (logistic_not_a_number, logistic_proba_nan); proved whenever the scores are finite, whether or not the exponential overflows. The exponential is a parameter with the stated properties. Binary64 with overflow: operations as in IEEE 754 with two infinities, one NaN and one zero; the sign of zero and fused multiply-add are not modelled."
  },
  {
   "property": "C279",
   "status": "partial",
   "theorems": [
    "Scigo.Overflow.finite_linear_partial",
    "Scigo.Overflow.linear_not_a_number"
   ],
   "note": "False in general (linear_not_a_number); proved for data and coefficients of at most 2^485 in absolute value. Binary64 with overflow: operations as in IEEE 754 with two infinities, one NaN and one zero; the sign of zero and fused multiply-add are not modelled."
  },
  {
   "property": "C280",
   "status": "partial",
   "theorems": [
    "Scigo.Logistic.warm_start_resumes_partial",
    "Scigo.Logistic.warm_start_of_class",
    "Scigo.Logistic.warm_more_features_panics",
    "Scigo.Logistic.warm_more_classes_panics"
   ],
   "note": "Law-free. False for data of another shape: with more columns Fit succeeds and Predict panics, with more classes Fit panics (both proved for every model). Proved for data of the shape of the last Fit and the default solver; the optimiser is a parameter."
  },
  {
   "property": "C281",
   "status": "partial",
   "theorems": [
    "Scigo.KMeans.distinct_start_partial",
    "Scigo.KMeans.plusplus_draw",
    "Scigo.KMeans.random_start_repeats",
    "Scigo.KMeans.plusplus_zero_draw_repeats"
   ],
   "note": "False for init=\"random\", which draws with replacement, and when a random number is exactly 0. Proved for k-means++ with positive random numbers; the generator is arbitrary, so \"with probability\" means: the row at which the running sum of squared distances reaches the random number times their total. Exact arithmetic: floating-point rounding is not modelled."
  },
  {
   "property": "C282",
   "status": "proved",
   "theorems": [
    "Scigo.Round.mse_error",
    "Scigo.Round.mae_error",
    "Scigo.Round.mape_error"
   ],
   "note": "Against the exact mean over the pairs. Rounded arithmetic (Verif/Base/Round.lean): every operation is followed by an arbitrary monotone rounding; binary64 without overflow is the instance in Verif/Base/Binary64.lean. Not modelled: overflow, NaN, the sign of zero, fused multiply-add."
  },
  {
   "property": "C283",
   "status": "partial",
   "theorems": [
    "Scigo.Round.std_round_trip_error",
    "Scigo.Round.minmax_round_trip_error_partial",
    "Scigo.Round.minmax_range_loses"
   ],
   "note": "Proved for StandardScaler and for MinMaxScaler with the default range [0, 1]; false for other ranges (proved: with range [2^53, 2^53 + 2] a value of 1/4 comes back as 0). Rounded arithmetic (Verif/Base/Round.lean): every operation is followed by an arbitrary monotone rounding; binary64 without overflow is the instance in Verif/Base/Binary64.lean. Not modelled: overflow, NaN, the sign of zero, fused multiply-add."
  },
  {
   "property": "C284",
   "status": "proved",
   "theorems": [
    "Scigo.Round.raw_score_error"
   ],
   "note": "The outputs of the trees are exact leaf values. Rounded arithmetic (Verif/Base/Round.lean): every operation is followed by an arbitrary monotone rounding; binary64 without overflow is the instance in Verif/Base/Binary64.lean. Not modelled: overflow, NaN, the sign of zero, fused multiply-add."
  },
  {
   "property": "C285",
   "status": "partial",
   "theorems": [
    "Scigo.Round.auc_error_partial",
    "Scigo.Round.auc_distinct_scores_partial",
    "Scigo.Round.perfect_ranking_below_one"
   ],
   "note": "False with tied scores: a perfect ranking of one positive and six negatives in groups of 2, 3 and 1 gives 0.9999999999999999 (proved in float64). Proved for distinct scores; the error bound is proved for all scores. Rounded arithmetic (Verif/Base/Round.lean): every operation is followed by an arbitrary monotone rounding; binary64 without overflow is the instance in Verif/Base/Binary64.lean. Not modelled: overflow, NaN, the sign of zero, fused multiply-add."
  },
  {
   "property": "C286",
   "status": "partial",
   "theorems": [
    "Scigo.Round.adwin_whole_numbers_partial",
    "Scigo.Round.adwin_mean_forgets"
   ],
   "note": "False in float64: with one bucket, after 2^53, 1, 1 the window holds 1 and the mean is 0 (proved). Proved for whole numbers of bounded total; the root and the logarithm of the drift test are arbitrary functions. Rounded arithmetic (Verif/Base/Round.lean): every operation is followed by an arbitrary monotone rounding; binary64 without overflow is the instance in Verif/Base/Binary64.lean. Not modelled: overflow, NaN, the sign of zero, fused multiply-add."
  },
  {
   "property": "C287",
   "status": "partial",
   "theorems": [
    "Scigo.Round.nb_row_order_partial",
    "Scigo.Round.fractional_counts_depend_on_order"
   ],
   "note": "False in float64 for fractional counts: the counts 0.1, 0.1, 0.6 in the opposite order give another probability (proved; for every logarithm that tells the two apart). Proved for whole numbers, for an arbitrary logarithm. Rounded arithmetic (Verif/Base/Round.lean): every operation is followed by an arbitrary monotone rounding; binary64 without overflow is the instance in Verif/Base/Binary64.lean. Not modelled: overflow, NaN, the sign of zero, fused multiply-add."
  },
  {
   "property": "C288",
   "status": "partial",
   "theorems": [
    "Scigo.Round.partialFit_near_range_partial",
    "Scigo.Round.identical_rows_drift"
   ],
   "note": "False in float64: five rows that are all 3 give the centre 3.0000000000000004 (proved, for every generator). Proved: every call succeeds and the distance from the range is at most about 3 n unit roundoffs of the largest value after n rows, for an arbitrary square root. Rounded arithmetic (Verif/Base/Round.lean): every operation is followed by an arbitrary monotone rounding; binary64 without overflow is the instance in Verif/Base/Binary64.lean. Not modelled: overflow, NaN, the sign of zero, fused multiply-add."
  },
  {
   "property": "C289",
   "status": "partial",
   "theorems": [
    "Scigo.Round.split_near_optimal_partial",
    "Scigo.Round.uninformative_split_made"
   ],
   "note": "False in float64: fifteen rows mixed 1:4 and 2:8 are split although the exact decrease is 0 (proved). Proved for Gini: reported decrease, optimality and stopping hold up to (10 classes + 17) unit roundoffs. Rounded arithmetic (Verif/Base/Round.lean): every operation is followed by an arbitrary monotone rounding; binary64 without overflow is the instance in Verif/Base/Binary64.lean. Not modelled: overflow, NaN, the sign of zero, fused multiply-add."
  },
  {
   "property": "C290",
   "status": "proved",
   "theorems": [
    "Scigo.Round.pure_iff",
    "Scigo.Round.pure_leaf"
   ],
   "note": "Equivalence for Gini and a number of rows times classes small against the precision; pure nodes are leaves for both criteria and any size (log2 1 = 0 assumed). Rounded arithmetic (Verif/Base/Round.lean): every operation is followed by an arbitrary monotone rounding; binary64 without overflow is the instance in Verif/Base/Binary64.lean. Not modelled: overflow, NaN, the sign of zero, fused multiply-add."
  },
  {
   "property": "C291",
   "status": "partial",
   "theorems": [
    "Scigo.Online.set_rate_partial",
    "Scigo.Online.step_uses_reported_rate",
    "Scigo.Online.optimal_ignores_rate",
    "Scigo.Online.clf_optimal_ignores_rate",
    "Scigo.Online.optimal_reports_other_rate"
   ],
   "note": "False for the schedule \"optimal\", the default of the classifier: the rate set changes no outcome, weight, loss or reported rate of any later history of training calls, and another rate is reported (proved). Proved for all other schedules. Law-free: holds for float64."
  },
  {
   "property": "C292",
   "status": "partial",
   "theorems": [
    "Scigo.Round.fitted_moments_partial",
    "Scigo.Round.mean_lost"
   ],
   "note": "False in float64: the mean of 2^53, 1, -2^53 is 1/3, the mean fitted is 0 (proved). Proved: the mean is exact up to n + 1 relative errors of the mean absolute value; the squared scale is the population variance plus the squared error of the mean up to n + 6 relative errors, or the scale is 1 and that variance is tiny. Rounded arithmetic (Verif/Base/Round.lean): every operation is followed by an arbitrary monotone rounding; binary64 without overflow is the instance in Verif/Base/Binary64.lean. Not modelled: overflow, NaN, the sign of zero, fused multiply-add."
  },
  {
   "property": "C293",
   "status": "proved",
   "theorems": [
    "Scigo.Round.standardised_moments"
   ],
   "note": "The square root is any function as accurate as a correctly rounded one; such a function exists (exists_sqrt). Rounded arithmetic (Verif/Base/Round.lean): every operation is followed by an arbitrary monotone rounding; binary64 without overflow is the instance in Verif/Base/Binary64.lean. Not modelled: overflow, NaN, the sign of zero, fused multiply-add."
  },
  {
   "property": "C294",
   "status": "partial",
   "theorems": [
    "Scigo.Round.large_values_shift_split",
    "Scigo.Round.large_two_values_no_split",
    "Scigo.Round.large_two_values_never_separated",
    "Scigo.Round.small_values_split_partial"
   ],
   "note": "False of the code from magnitude 2^21 on: two values are never separated, and every other split is shifted by one value. Holds up to magnitude 2^19 for values at least 2^-32 apart. Binary64 without overflow."
  },
  {
   "property": "C295",
   "status": "partial",
   "theorems": [
    "Scigo.Round.subtraction_partial",
    "Scigo.Round.subtraction_not_sibling"
   ],
   "note": "False in float64: with hessians 2^53, 1, 1 the difference is 2^53-2 instead of 2^53 (proved). Proved: counts are exact, hessian sums are not negative when the child lists its rows in the order of the parent, and sums are exact up to 7n roundings of the absolute sums. Rounded arithmetic (Verif/Base/Round.lean): every operation is followed by an arbitrary monotone rounding; binary64 without overflow is the instance in Verif/Base/Binary64.lean. Not modelled: overflow, NaN, the sign of zero, fused multiply-add."
  },
  {
   "property": "C296",
   "status": "partial",
   "theorems": [
    "Scigo.Round.bundle_round_trip_partial",
    "Scigo.Round.bundle_round_trip_lossy"
   ],
   "note": "False in float64: 0.1 comes back with other last digits and the number just below 1000 comes back as 0 (proved). Proved: whole numbers up to 999 and columns outside bundles are exact, other values up to 999 are within 2^-53*1000*(columns+1). Binary64 without overflow."
  },
  {
   "property": "C297",
   "status": "partial",
   "theorems": [
    "Scigo.NonFinite.missing_shows_partial",
    "Scigo.NonFinite.mape_hides_missing",
    "Scigo.NonFinite.accuracy_hides_missing",
    "Scigo.NonFinite.auc_hides_missing"
   ],
   "note": "False of the code for AUC, accuracy and MAPE: scores that are all NaN give 1 or 0 depending on the row order, a NaN label counts as wrong, a NaN predicted for a zero target is skipped. Proved: MSE, RMSE and MAE are NaN, R2 and explained variance NaN or an error. Over binary64 with overflow, infinities and NaN (signed zeros are not distinguished)."
  },
  {
   "property": "C298",
   "status": "partial",
   "theorems": [
    "Scigo.NonFinite.complete_data_partial",
    "Scigo.NonFinite.missing_value_spoils",
    "Scigo.NonFinite.missing_value_stays",
    "Scigo.NonFinite.missing_value_empties"
   ],
   "note": "False of the code: one row with NaN makes the first centre NaN for ever, after which no complete row is assigned to it. Proved: complete data of magnitude up to 2^1023 keep the centres finite and within the magnitude of the data. Over binary64 with overflow, infinities and NaN (signed zeros are not distinguished)."
  },
  {
   "property": "C299",
   "status": "partial",
   "theorems": [
    "Scigo.NonFinite.assigned_nearest_partial",
    "Scigo.NonFinite.far_sample_first",
    "Scigo.NonFinite.far_sample_not_nearest"
   ],
   "note": "False of the code beyond about 1e154, where the squared distance overflows and the sample gets label 0. Proved when some distance is finite, which holds for coordinates up to 2^484. Over binary64 with overflow, infinities and NaN (signed zeros are not distinguished)."
  },
  {
   "property": "C300",
   "status": "partial",
   "theorems": [
    "Scigo.NonFinite.missing_value_in_mean",
    "Scigo.NonFinite.missing_value_hides_drift",
    "Scigo.NonFinite.mean_of_number_not_a_number",
    "Scigo.NonFinite.drift_repairs_partial"
   ],
   "note": "False of the code: the running sum stays NaN through every further run of updates without drift, and no drift is found while NaN is in the window. Proved: a reported drift and Reset repair the sum. Over binary64 with overflow, infinities and NaN (signed zeros are not distinguished)."
  },
  {
   "property": "C301",
   "status": "partial",
   "theorems": [
    "Scigo.NonFinite.missing_later_row_partial",
    "Scigo.NonFinite.missing_first_row",
    "Scigo.NonFinite.order_of_rows"
   ],
   "note": "False of the code when the NaN is in the first row: the whole column becomes NaN in every later Transform. Proved: NaN in later rows is passed over. Over binary64 with overflow, infinities and NaN (signed zeros are not distinguished)."
  },
  {
   "property": "C302",
   "status": "partial",
   "theorems": [
    "Scigo.NonFinite.unseen_nan",
    "Scigo.NonFinite.unseen_never_predicted",
    "Scigo.NonFinite.training_sample_misplaced",
    "Scigo.NonFinite.predict_greatest_partial"
   ],
   "note": "False of the code: 0 * log 0 is NaN, so a class other than the first is never predicted for a sample that like the class does not use some feature; a sample of the training data is misplaced. Proved when no score is NaN. Over binary64 with overflow, infinities and NaN (signed zeros are not distinguished)."
  },
  {
   "property": "C303",
   "status": "partial",
   "theorems": [
    "Scigo.NonFinite.missing_target_spoils",
    "Scigo.NonFinite.missing_feature_partial"
   ],
   "note": "False of the code for the default loss: one NaN target makes every prediction after any later batches NaN. Proved: a NaN feature leaves weights and intercept, but divides the learning rate by ten for good. Over binary64 with overflow, infinities and NaN (signed zeros are not distinguished)."
  },
  {
   "property": "C304",
   "status": "proved",
   "theorems": [
    "Scigo.NonFinite.passive_ignores_missing",
    "Scigo.NonFinite.passive_classifier_ignores_missing"
   ],
   "note": "Over binary64 with overflow, infinities and NaN (signed zeros are not distinguished)."
  },
  {
   "property": "C305",
   "status": "partial",
   "theorems": [
    "Scigo.NonFinite.missing_feature_spoils_classifier",
    "Scigo.NonFinite.unknown_class_partial"
   ],
   "note": "False of the code for every loss and penalty: one NaN feature makes all decision values NaN for ever, and Predict returns the first class for every sample. Proved: samples of an unknown class are not used. Over binary64 with overflow, infinities and NaN (signed zeros are not distinguished)."
  },
  {
   "property": "C306",
   "status": "partial",
   "theorems": [
    "Scigo.NonFinite.huge_never_split",
    "Scigo.NonFinite.huge_single_class",
    "Scigo.NonFinite.threshold_between_partial"
   ],
   "note": "False of the code when the sum of two neighbouring values reaches 2^1024: the threshold is +Inf, no split is accepted and the tree is one leaf. Proved below: the threshold lies between the values. Over binary64 with overflow, infinities and NaN (signed zeros are not distinguished)."
  },
  {
   "property": "C307",
   "status": "partial",
   "theorems": [
    "Scigo.NonFinite.missing_spoils_column",
    "Scigo.NonFinite.other_columns_partial"
   ],
   "note": "False of the code: the whole column is NaN in every later Transform, for every row. Proved: the other columns do not change. Over binary64 with overflow, infinities and NaN (signed zeros are not distinguished)."
  },
  {
   "property": "C308",
   "status": "partial",
   "theorems": [
    "Scigo.NonFinite.missing_target_spoils_boosting",
    "Scigo.NonFinite.complete_targets_partial"
   ],
   "note": "False of the code for the objectives regression (the default), huber and poisson: Fit succeeds and every prediction is NaN whatever trees were grown. Proved for complete targets: training starts from a finite score no larger than the targets. Over binary64 with overflow, infinities and NaN (signed zeros are not distinguished)."
  },
  {
   "property": "C309",
   "status": "partial",
   "theorems": [
    "Scigo.Round.assigned_not_nearest",
    "Scigo.Round.assigned_nearly_nearest",
    "Scigo.Round.assigned_nearest_float_partial"
   ],
   "note": "False of the code: with the centres -1 and 0 the value 2^53 is given the centre -1. Proved: the exact squared distance to the chosen centre exceeds that to any other by at most 6(n+5) units of 2^-53, n the number of columns, as long as no distance overflows. Rounded arithmetic (Verif/Base/Round.lean): every operation is followed by an arbitrary monotone rounding; binary64 without overflow is the instance in Verif/Base/Binary64.lean. Not modelled: overflow, NaN, the sign of zero, fused multiply-add."
  },
  {
   "property": "C310",
   "status": "proved",
   "theorems": [
    "Scigo.Round.inertia_error",
    "Scigo.Round.transform_error"
   ],
   "note": "The square root is any function with the accuracy of a correctly rounded one. Rounded arithmetic (Verif/Base/Round.lean): every operation is followed by an arbitrary monotone rounding; binary64 without overflow is the instance in Verif/Base/Binary64.lean. Not modelled: overflow, NaN, the sign of zero, fused multiply-add."
  },
  {
   "property": "C311",
   "status": "partial",
   "theorems": [
    "Scigo.Round.leaf_value_lost",
    "Scigo.Round.leaf_value_error",
    "Scigo.Round.leaf_value_float_partial"
   ],
   "note": "False relative to the value itself: gradients 2^53, 1, -2^53 give the value 0, and another order of the rows a negative one. Proved: the distance from the minimum is at most 6(n+2) units of 2^-53 times the sum of the absolute gradients over the denominator, and the excess of the objective correspondingly. Rounded arithmetic (Verif/Base/Round.lean): every operation is followed by an arbitrary monotone rounding; binary64 without overflow is the instance in Verif/Base/Binary64.lean. Not modelled: overflow, NaN, the sign of zero, fused multiply-add."
  },
  {
   "property": "C312",
   "status": "partial",
   "theorems": [
    "Scigo.Round.split_not_best_float",
    "Scigo.Round.split_near_best",
    "Scigo.Round.split_near_best_float_partial"
   ],
   "note": "False of the code as exact optimality: for the gradients 2^53, 1, -2^53 (hessians 1, 0, 1) the first boundary is returned though the second has a gain larger by more than 2^52. Proved: the exact gain of the boundary returned is within 2E of that of every other admissible boundary, and the reported gain within E of it, E = 120 y S^2 (H + lambda) / m^2 plus underflow, y the relative error of the sums, S the sum of absolute gradients, m the least hessian of a side. Missing: L1 regularisation, overflow. Rounded arithmetic (Verif/Base/Round.lean): every operation is followed by an arbitrary monotone rounding; binary64 without overflow is the instance in Verif/Base/Binary64.lean. Not modelled: overflow, NaN, the sign of zero, fused multiply-add."
  },
  {
   "property": "C313",
   "status": "partial",
   "theorems": [
    "Scigo.Round.r2_constant_scored",
    "Scigo.Round.r2_error",
    "Scigo.Round.r2_float_partial",
    "Scigo.Round.score_is_r2",
    "Scigo.Round.regressor_score_float_partial"
   ],
   "note": "The second half is false of the code: for the constant target 0.1 and the prediction 0.2 the score is below -10^30 instead of an error, because the rounded mean of three times 0.1 is not 0.1; two different targets of size 2^-600 are refused. Proved: the error is at most 8(n+4) units of 2^-52 times 1 + RSS/TSS when the spread is above 2^-480 and above about 2^-25 sqrt(n+4) of the mean absolute value. Rounded arithmetic (Verif/Base/Round.lean): every operation is followed by an arbitrary monotone rounding; binary64 without overflow is the instance in Verif/Base/Binary64.lean. Not modelled: overflow, NaN, the sign of zero, fused multiply-add."
  },
  {
   "property": "C314",
   "status": "proved",
   "theorems": [
    "Scigo.Round.ddm_no_negative_root",
    "Scigo.Round.ddm_rounded",
    "Scigo.Round.ddm_first_error_float"
   ],
   "note": "The square root is any function that is non-negative on non-negative numbers and 0 at 0. Rounded arithmetic (Verif/Base/Round.lean): every operation is followed by an arbitrary monotone rounding; binary64 without overflow is the instance in Verif/Base/Binary64.lean. Not modelled: overflow, NaN, the sign of zero, fused multiply-add."
  },
  {
   "property": "C315",
   "status": "partial",
   "theorems": [
    "Scigo.Round.sampled_rows_not_share",
    "Scigo.Round.sampled_features_not_share",
    "Scigo.Round.goss_not_share",
    "Scigo.Round.dart_not_share",
    "Scigo.Round.sampled_rows_float_partial",
    "Scigo.Round.sampled_features_float_partial",
    "Scigo.Round.goss_top_float_partial",
    "Scigo.Round.dart_drop_float_partial"
   ],
   "note": "False of the code for whole shares: BaggingFraction 0.29 uses 28 of 100 rows, FeatureFraction 0.57 uses 56 of 100 features, a drop rate of 0.07 drops 8 of 100 trees. Proved: the number is at most one off, and right unless n*q is within n*q/2^51 of a whole number; DART never panics for rates in [0, 1]. Rounded arithmetic (Verif/Base/Round.lean): every operation is followed by an arbitrary monotone rounding; binary64 without overflow is the instance in Verif/Base/Binary64.lean. Not modelled: overflow, NaN, the sign of zero, fused multiply-add."
  },
  {
   "property": "C316",
   "status": "partial",
   "theorems": [
    "Scigo.Round.l1_start_between",
    "Scigo.Round.l1_start_in_range",
    "Scigo.Round.l2_start_outside",
    "Scigo.Round.quantile_start_outside",
    "Scigo.Round.l1_start_overflows",
    "Scigo.Round.l2_start_near_range_partial",
    "Scigo.Round.l2_start_float_partial",
    "Scigo.Round.quantile_start_near_partial"
   ],
   "note": "True for the median (regression_l1, fair) without overflow. False for the mean (0.1 three times) and for the quantile (0.3 twice, level 0.1), and for the median of two targets 2^1023, which is infinite. Proved: the mean is off by at most n+1 and the quantile by at most 3 roundings, and the quantile never reads outside of the slice. Rounded arithmetic (Verif/Base/Round.lean): every operation is followed by an arbitrary monotone rounding; binary64 without overflow is the instance in Verif/Base/Binary64.lean. Not modelled: overflow, NaN, the sign of zero, fused multiply-add.Binary64 with overflow: operations as in IEEE 754 with two infinities, one NaN and one zero; the sign of zero and fused multiply-add are not modelled."
  },
  {
   "property": "C317",
   "status": "partial",
   "theorems": [
    "Scigo.NonFinite.missing_hides_split",
    "Scigo.NonFinite.missing_last_partial",
    "Scigo.NonFinite.missing_never_threshold",
    "Scigo.NonFinite.missing_goes_right",
    "Scigo.NonFinite.goSort_sorts"
   ],
   "note": "False as stated: `missing_hides_split` trains on the values 3, NaN, 1 of the classes 0, 0, 1 and gets a single leaf, because NaN is not less than anything and nothing is less than NaN, so that the sort leaves 3, NaN, 1 in place and every candidate threshold is NaN. Proved in binary64: if the rows with a missing value come last, every threshold that would be tried without them is tried; a missing threshold is never accepted and a feature missing everywhere is never used, when a leaf needs at least one row; missing values go right. The sort is the insertion sort that sort.Slice uses up to twelve elements. Over binary64 with overflow, infinities and NaN (signed zeros are not distinguished)."
  },
  {
   "property": "C318",
   "status": "partial",
   "theorems": [
    "Scigo.NonFinite.missing_hides_boosted_split",
    "Scigo.NonFinite.missing_disables_feature",
    "Scigo.NonFinite.missing_moves_smallest",
    "Scigo.NonFinite.missing_in_last_bin",
    "Scigo.NonFinite.missing_elsewhere_partial",
    "Scigo.NonFinite.hist64_eq",
    "Scigo.NonFinite.sort64_sorts"
   ],
   "note": "False of the code, proved for every input: sort.Float64s puts NaN first, so the lowest bound is NaN. With more different values than bins all bounds above it are dropped and the feature has no bins; otherwise the binary search does not find the bin of the smallest value and its rows are counted in the last bin, with the largest. Proved: rows with a missing value are counted in the last bin, and other features find the same splits. Over binary64 with overflow, infinities and NaN (signed zeros are not distinguished)."
  },
  {
   "property": "C319",
   "status": "partial",
   "theorems": [
    "Scigo.Round.rounding_changes_class",
    "Scigo.Round.sgd_class_nearly_best",
    "Scigo.Round.pa_class_nearly_best",
    "Scigo.Round.nb_class_nearly_best",
    "Scigo.Round.NearlyBest.eq_clear"
   ],
   "note": "The exact claim is false in float64: `rounding_changes_class` gives weights for which the class with the smaller exact score is predicted. Proved for every input: the predicted class is behind the best by at most the rounding errors of the two scores, and a class ahead by more than that is predicted. The weights and log probabilities are those the model holds; scores are assumed above the start value of the scan, which is minus infinity in the code. Rounded arithmetic (Verif/Base/Round.lean): every operation is followed by an arbitrary monotone rounding; binary64 without overflow is the instance in Verif/Base/Binary64.lean. Not modelled: overflow, NaN, the sign of zero, fused multiply-add."
  },
  {
   "property": "C320",
   "status": "partial",
   "theorems": [
    "Scigo.Round.swap_classes_changes",
    "Scigo.Round.swap_classes_partial",
    "Scigo.Round.log_loss_error",
    "Scigo.Round.mean_cost_bound",
    "Scigo.Round.tiny_clip",
    "Scigo.NonFinite.log_loss_missing"
   ],
   "note": "The symmetry is false in float64: clipping to 1 - 1e-15 and subtracting from 1 gives 9/2^53, not 1e-15. Proved: accuracy, sign and bound of the loss, symmetry when the complements are exact and nothing is clipped, NaN for NaN. The cost of a row is minus the computed logarithm of the computed probability. Rounded arithmetic (Verif/Base/Round.lean): every operation is followed by an arbitrary monotone rounding; binary64 without overflow is the instance in Verif/Base/Binary64.lean. Not modelled: overflow, NaN, the sign of zero, fused multiply-add."
  },
  {
   "property": "C321",
   "status": "partial",
   "theorems": [
    "Scigo.ErrChain.as_survives",
    "Scigo.ErrChain.is_survives",
    "Scigo.ErrChain.is_sentinel_iff",
    "Scigo.ErrChain.nil_survives",
    "Scigo.ErrChain.text_survives",
    "Scigo.ErrChain.model_error_found",
    "Scigo.ErrChain.is_new_iff",
    "Scigo.ErrChain.panic_value_not_found",
    "Scigo.ErrChain.panic_hidden",
    "Scigo.ErrChain.values_text"
   ],
   "note": "Survival of type, fields, matches, nil and text is proved for every error and every list of layers. What does not hold: an error value the code panics with cannot be found with Is (panic_value_not_found), a panic after an error was set cannot be told by type (panic_hidden), and Is takes every error made by New with the same text for the same one (is_new_iff). Is and As of the cockroachdb library are modelled by their documented behaviour; foreign Is/As methods and errors with several causes are left out."
  },
  {
   "property": "C322",
   "status": "partial",
   "theorems": [
    "Scigo.ErrChain.drop_rate_partial",
    "Scigo.ErrChain.drop_rate_negative",
    "Scigo.ErrChain.drop_rate_zero"
   ],
   "note": "Holds for an old performance above zero, in exact arithmetic; below zero the sign is reversed, at zero the rate is infinite or NaN in float64."
  },
  {
   "property": "C323",
   "status": "proved",
   "theorems": [
    "Scigo.Round.tree_proba_float",
    "Scigo.Round.tree_importances_float",
    "Scigo.Round.tree_proba_sum_not_one"
   ],
   "note": "The sum is not exactly 1 (tree_proba_sum_not_one), so the error in the statement is needed. That a tested feature has a positive importance is proved in exact arithmetic (C35) only; in float64 its share may underflow. Rounded arithmetic (Verif/Base/Round.lean): every operation is followed by an arbitrary monotone rounding; binary64 without overflow is the instance in Verif/Base/Binary64.lean. Not modelled: overflow, NaN, the sign of zero, fused multiply-add."
  },
  {
   "property": "C324",
   "status": "partial",
   "theorems": [
    "Scigo.NonFinite.clip_value_partial",
    "Scigo.NonFinite.clip_value_nan",
    "Scigo.NonFinite.safe_divide_partial",
    "Scigo.NonFinite.safe_divide_overflow",
    "Scigo.NonFinite.clip_gradient_overflow",
    "Scigo.NonFinite.clip_gradient_nan",
    "Scigo.NonFinite.clip_gradient_shrinks_partial"
   ],
   "note": "What a user expects of the guards does not hold for a NaN (clip_value_nan, clip_gradient_nan) nor for a gradient whose sum of squares overflows (clip_gradient_overflow: all finite entries become 0). math.Sqrt enters with sqrt(Inf) = Inf and sqrt(NaN) = NaN. Rounded arithmetic (Verif/Base/Round.lean): every operation is followed by an arbitrary monotone rounding; binary64 without overflow is the instance in Verif/Base/Binary64.lean. Not modelled: overflow, NaN, the sign of zero, fused multiply-add."
  },
  {
   "property": "C325",
   "status": "partial",
   "theorems": [
    "Scigo.NonFinite.log_sum_exp_bounds",
    "Scigo.NonFinite.log_sum_exp_inf",
    "Scigo.NonFinite.log_sum_exp_nan_partial",
    "Scigo.NonFinite.log_sum_exp_hides"
   ],
   "note": "The bounds hold for all finite numbers; the expected results for +Inf (log_sum_exp_inf) and for a NaN after -Inf (log_sum_exp_hides) do not. math.Exp is assumed to be 1 at 0, at most 1 below and never negative, math.Log monotone with log 1 = 0. Rounded arithmetic (Verif/Base/Round.lean): every operation is followed by an arbitrary monotone rounding; binary64 without overflow is the instance in Verif/Base/Binary64.lean. Not modelled: overflow, NaN, the sign of zero, fused multiply-add."
  },
  {
   "property": "C326",
   "status": "proved",
   "theorems": [
    "Scigo.Round.clip_gradient_norm"
   ],
   "note": "Overflow and NaN: see C324. math.Sqrt is assumed correctly rounded (SqrtAccurate). Rounded arithmetic (Verif/Base/Round.lean): every operation is followed by an arbitrary monotone rounding; binary64 without overflow is the instance in Verif/Base/Binary64.lean. Not modelled: overflow, NaN, the sign of zero, fused multiply-add."
  },
  {
   "property": "C327",
   "status": "proved",
   "theorems": [
    "Scigo.Round.pa_step_float",
    "Scigo.Round.paClf_step_float",
    "Scigo.Round.paClf_right_stays"
   ],
   "note": "Whether a step can overshoot the target is not stated (with an intercept it can, see C45). Labels must be pairwise different for the last part. Rounded arithmetic (Verif/Base/Round.lean): every operation is followed by an arbitrary monotone rounding; binary64 without overflow is the instance in Verif/Base/Binary64.lean. Not modelled: overflow, NaN, the sign of zero, fused multiply-add."
  },
  {
   "property": "C328",
   "status": "partial",
   "theorems": [
    "Scigo.Round.lr_label_most_probable",
    "Scigo.Round.sgd_label_most_probable",
    "Scigo.Round.lr_proba_monotone",
    "Scigo.Round.lr_side_partial",
    "Scigo.Round.lr_negative_score_second_class"
   ],
   "note": "Agreement of Predict and PredictProba and monotony are proved; that a negative score gives the first class is false next to zero (lr_negative_score_second_class). math.Exp is assumed monotone. Scores that overflow: see C278 and C87. Rounded arithmetic (Verif/Base/Round.lean): every operation is followed by an arbitrary monotone rounding; binary64 without overflow is the instance in Verif/Base/Binary64.lean. Not modelled: overflow, NaN, the sign of zero, fused multiply-add."
  },
  {
   "property": "C329",
   "status": "partial",
   "theorems": [
    "Scigo.Round.adwin_constant_partial",
    "Scigo.Round.adwin_constant_alarm"
   ],
   "note": "Holds while the multiples of the value are exact; false for large values (adwin_constant_alarm). Exact arithmetic: C29. Rounded arithmetic (Verif/Base/Round.lean): every operation is followed by an arbitrary monotone rounding; binary64 without overflow is the instance in Verif/Base/Binary64.lean. Not modelled: overflow, NaN, the sign of zero, fused multiply-add."
  },
  {
   "property": "C330",
   "status": "partial",
   "theorems": [
    "Scigo.Round.cv_mean_error",
    "Scigo.Round.cv_std_error",
    "Scigo.Round.cv_equal_scores_partial",
    "Scigo.Round.cv_equal_scores_spread"
   ],
   "note": "The error bounds are proved; that equal scores give their own value and no spread is false (cv_equal_scores_spread) except when the multiples are exact (cv_equal_scores_partial). math.Sqrt is assumed correctly rounded. Exact arithmetic: C210. Rounded arithmetic (Verif/Base/Round.lean): every operation is followed by an arbitrary monotone rounding; binary64 without overflow is the instance in Verif/Base/Binary64.lean. Not modelled: overflow, NaN, the sign of zero, fused multiply-add."
  },
  {
   "property": "C331",
   "status": "proved",
   "theorems": [
    "Scigo.Round.nb_fitted_logs",
    "Scigo.Round.nb_log_proba",
    "Scigo.Round.nb_label_most_probable"
   ],
   "note": "The joint log probabilities are assumed finite (above the starting value of the scan); infinite ones are C302. A class prior given by the user may have entries above 1 and is left out of the first part. math.Log and math.Exp enter by LogLike, ExpLike and monotony. Rounded arithmetic (Verif/Base/Round.lean): every operation is followed by an arbitrary monotone rounding; binary64 without overflow is the instance in Verif/Base/Binary64.lean. Not modelled: overflow, NaN, the sign of zero, fused multiply-add."
  },
  {
   "property": "C332",
   "status": "partial",
   "theorems": [
    "Scigo.Round.report_range",
    "Scigo.Round.report_perfect",
    "Scigo.Round.accuracy_one",
    "Scigo.Round.f1_above_both"
   ],
   "note": "Ranges, perfect scores and the meaning of an accuracy of 1 are proved; that F1 is not above both precision and recall is false by a rounding error (f1_above_both). Exact arithmetic: C66, C113. Rounded arithmetic (Verif/Base/Round.lean): every operation is followed by an arbitrary monotone rounding; binary64 without overflow is the instance in Verif/Base/Binary64.lean. Not modelled: overflow, NaN, the sign of zero, fused multiply-add."
  },
  {
   "property": "C333",
   "status": "proved",
   "theorems": [
    "Scigo.Round.std_order",
    "Scigo.Round.minmax_order",
    "Scigo.Round.scaled_values_merge"
   ],
   "note": "scaled_values_merge shows that the order is kept only weakly. Rounded arithmetic (Verif/Base/Round.lean): every operation is followed by an arbitrary monotone rounding; binary64 without overflow is the instance in Verif/Base/Binary64.lean. Not modelled: overflow, NaN, the sign of zero, fused multiply-add."
  },
  {
   "property": "C334",
   "status": "partial",
   "theorems": [
    "Scigo.Round.objective_hessian_nonneg",
    "Scigo.Round.objective_hessian_pos_partial",
    "Scigo.Round.plain_gradient_sign",
    "Scigo.Round.objective_gradient_rising_partial",
    "Scigo.Round.log_loss_gradient",
    "Scigo.Round.huber_gradient_bound",
    "Scigo.Round.fair_hessian_zero",
    "Scigo.Round.fair_gradient_exceeds",
    "Scigo.Round.fair_gradient_falls"
   ],
   "note": "For any rounding that is monotone, odd and keeps 0 and 1: signs, order and bounds of the gradients and non-negative Hessians of every objective. Three parts fail for the fair objective, each with a binary64 witness: its Hessian is 0 for a difference of 2^540, its gradient exceeds the parameter 0.1 by one unit in the last place, and its gradient falls by a rounding error while the prediction grows. math.Exp is assumed non-negative and monotone. Overflow is not part of this model. Rounded arithmetic (Verif/Base/Round.lean): every operation is followed by an arbitrary monotone rounding; binary64 without overflow is the instance in Verif/Base/Binary64.lean. Not modelled: overflow, NaN, the sign of zero, fused multiply-add."
  },
  {
   "property": "C335",
   "status": "partial",
   "theorems": [
    "Scigo.NonFinite.missing_target_gradient_partial",
    "Scigo.NonFinite.missing_target_hidden",
    "Scigo.NonFinite.compared_gradient_finite",
    "Scigo.NonFinite.fair_overflows"
   ],
   "note": "A NaN target gives a NaN gradient for every objective except the absolute error, Huber and quantile; for these it has the gradient -1, minus the threshold and 0, with an ordinary Hessian, so that it acts as a target far above the prediction or as one already met. The gradients of the absolute error and of Huber are finite for all inputs. The fair objective overflows: with the parameter 2^600 its Hessian at 1 for the target 0 is NaN and its gradient at 2^600 is infinite. math.Max and math.Min of a NaN prediction are not modelled; the statements are about NaN targets. Over binary64 with overflow, infinities and NaN (signed zeros are not distinguished)."
  },
  {
   "property": "C336",
   "status": "partial",
   "theorems": [
    "Scigo.Trainer.leaf_exactly",
    "Scigo.Trainer.empty_node_leaf_goss",
    "Scigo.Trainer.goss_minimum_without_effect"
   ],
   "note": "The first part holds for all inputs (law-free), with the smaller minimum for GOSS. But that minimum has no effect: the split finder still asks for MinDataInLeaf rows on each side, so with a positive MinGainToSplit exactly the tree without the adjustment is grown (goss_minimum_without_effect, exact arithmetic). Exact arithmetic: floating-point rounding is not modelled."
  },
  {
   "property": "C337",
   "status": "proved",
   "theorems": [
    "Scigo.Tensor.filled_spec"
   ],
   "note": "Law-free; the memory is a heap of slices. Shapes of another length or with a dimension that is not positive are outside this statement."
  },
  {
   "property": "C338",
   "status": "proved",
   "theorems": [
    "Scigo.Online.adaptive_rate"
   ],
   "note": "Law-free over any linear order; the history is the sequence of recorded losses. Losses that are NaN are not part of this model."
  },
  {
   "property": "C339",
   "status": "proved",
   "theorems": [
    "Scigo.Drift.any_history_is_update_history",
    "Scigo.Drift.negative_error_counts_correct"
   ],
   "note": "Exact arithmetic for the distance of a prediction; the rest is law-free. The second theorem records that a negative error, however large, counts as a correct prediction. Exact arithmetic: floating-point rounding is not modelled."
  },
  {
   "property": "C340",
   "status": "proved",
   "theorems": [
    "Scigo.Boost.loaded_rows_in_order",
    "Scigo.Boost.no_model_no_answer"
   ],
   "note": "Law-free. Hypothesis of the first theorem: no trained model was given after a loaded one, since otherwise the booster keeps answering with the older loaded model (C221)."
  },
  {
   "property": "C341",
   "status": "partial",
   "theorems": [
    "Scigo.Wrapper.loaded_regressor_predicts",
    "Scigo.Wrapper.failed_load_keeps_regressor",
    "Scigo.Wrapper.loaded_objective_trained",
    "Scigo.Wrapper.string_load_keeps_old_objective"
   ],
   "note": "Law-free. The last part holds for LoadModel only: LoadModelFromString and LoadModelFromJSON keep the objective the regressor had before, so the next Fit trains another objective than after LoadModel (string_load_keeps_old_objective). An objective that is not one of regression becomes squared error."
  },
  {
   "property": "C342",
   "status": "proved",
   "theorems": [
    "Scigo.LGB.written_numbers_finite",
    "Scigo.LGB.refused_has_bad_number"
   ],
   "note": "Law-free; which numbers JSON can hold is a parameter, true for 0. A cyclic tree overflows the stack, which the model reports as a panic."
  },
  {
   "property": "C343",
   "status": "partial",
   "theorems": [
    "Scigo.Wrapper.options_reach_training",
    "Scigo.Wrapper.colsample_without_effect",
    "Scigo.Wrapper.regressor_colsample_without_effect"
   ],
   "note": "The first part holds, with 0 standing for the default. The last part is false: without bagging, colsample_bytree, the rounds of early stopping and the seed have no effect on Fit for any data, whatever random numbers are drawn for them; the sampled columns are read only by a function nothing calls. Law-free."
  },
  {
   "property": "C344",
   "status": "partial",
   "theorems": [
    "Scigo.Wrapper.ranking_trains_regression",
    "Scigo.Wrapper.single_document_gradient",
    "Scigo.Wrapper.relevant_pushed_up_partial"
   ],
   "note": "False of the code: both objectives train the squared error on the relevances, with the same trees and starting score for any data (ranking_trains_regression, law-free), and a query of one document has a gradient. What holds: of two documents with equal scores the more relevant one is pushed up more. Exact arithmetic: floating-point rounding is not modelled."
  },
  {
   "property": "C345",
   "status": "partial",
   "theorems": [
    "Scigo.NonFinite.exact_predictions_no_drift",
    "Scigo.NonFinite.missing_counts_mistake",
    "Scigo.NonFinite.exact_infinite_counts_mistake"
   ],
   "note": "Proved for finite predictions. An infinite prediction equal to its target counts as a mistake (exact_infinite_counts_mistake) and can signal drift. math.Sqrt enters with sqrt(0) = 0. Over binary64 with overflow, infinities and NaN (signed zeros are not distinguished)."
  },
  {
   "property": "C346",
   "status": "proved",
   "theorems": [
    "Scigo.NonFinite.missing_row_predicted_missing",
    "Scigo.NonFinite.other_rows_untouched",
    "Scigo.NonFinite.missing_score"
   ],
   "note": "linear.LinearRegression. Over binary64 with overflow, infinities and NaN (signed zeros are not distinguished)."
  },
  {
   "property": "C347",
   "status": "proved",
   "theorems": [
    "Scigo.NonFinite.missing_row_first_class",
    "Scigo.NonFinite.missing_row_proba_missing",
    "Scigo.NonFinite.extra_column_ignored",
    "Scigo.NonFinite.sgd_missing_row_first_class",
    "Scigo.NonFinite.sgd_missing_row_proba_missing",
    "Scigo.NonFinite.pa_missing_row_first_class"
   ],
   "note": "math.Exp enters with exp(NaN) = NaN. Over binary64 with overflow, infinities and NaN (signed zeros are not distinguished)."
  }
 ]
}