'Scigo.Parallel.parallelize_covers_exactly_once' depends on axioms: [propext, Classical.choice, Quot.sound]
'Scigo.Parallel.threshold_covers_exactly_once' depends on axioms: [propext, Quot.sound]
'Scigo.Parallel.parallelize_schedule_independent' depends on axioms: [propext, Classical.choice, Quot.sound]
'Scigo.Parallel.parallelize_no_deadlock' depends on axioms: [propext, Quot.sound]
'Scigo.Parallel.parallelize_terminates' depends on axioms: [propext, Classical.choice, Quot.sound]
'Scigo.State.state_linearizable' depends on axioms: [propext, Classical.choice, Quot.sound]
'Scigo.State.state_log_is_interleaving' depends on axioms: [propext, Quot.sound]
'Scigo.State.getDimensions_not_torn' depends on axioms: [propext, Classical.choice, Quot.sound]
'Scigo.State.state_no_deadlock' depends on axioms: [propext, Classical.choice, Quot.sound]
'Scigo.Errors.method_never_panics' does not depend on any axioms
'Scigo.Errors.method_return_unchanged' depends on axioms: [propext]
'Scigo.Errors.method_panic_becomes_error' depends on axioms: [propext]
'Scigo.Errors.method_nil_iff' depends on axioms: [propext]
'Scigo.Errors.deep_panic_is_caught' depends on axioms: [propext]
'Scigo.Errors.caller_continues' does not depend on any axioms
'Scigo.Errors.safeExecute_spec' depends on axioms: [propext]
'Scigo.Errors.clipValue_spec' depends on axioms: [propext]
'Scigo.Errors.clipValue_outside' depends on axioms: [propext]
'Scigo.Errors.safeDivide_spec' depends on axioms: [propext, Classical.choice, Quot.sound]
'Scigo.Errors.clipGradient_spec' depends on axioms: [propext, Classical.choice, Quot.sound]
'Scigo.Errors.clipGradient_negative_bound' depends on axioms: [propext, Classical.choice, Quot.sound]
'Scigo.Errors.stabilize_spec' depends on axioms: [propext, Classical.choice, Quot.sound]
'Scigo.Errors.logSumExp_eq' depends on axioms: [propext, Classical.choice, Quot.sound]
'Scigo.Errors.logSumExp_finite' depends on axioms: [propext, Classical.choice, Quot.sound]
'Scigo.Errors.logSumExp_shift' depends on axioms: [propext, Classical.choice, Quot.sound]
'Scigo.Errors.logSumExp_exponents_nonpos' depends on axioms: [propext, Quot.sound]
'Scigo.Errors.checkMatrix_iff' depends on axioms: [propext, Classical.choice, Quot.sound]
'Scigo.Errors.checkSlice_iff' depends on axioms: [propext, Quot.sound]
'Scigo.Metrics.mse_ok_iff' depends on axioms: [propext, Classical.choice, Quot.sound]
'Scigo.Metrics.mae_rmse_ok_iff' depends on axioms: [propext, Classical.choice, Quot.sound]
'Scigo.Metrics.mse_rejects' depends on axioms: [propext]
'Scigo.Metrics.mse_is_error' depends on axioms: [propext, Classical.choice, Quot.sound]
'Scigo.Metrics.mae_is_error' depends on axioms: [propext, Classical.choice, Quot.sound]
'Scigo.Metrics.mseMatrix_spec' depends on axioms: [propext, Classical.choice, Quot.sound]
'Scigo.Metrics.rmse_ge_mae' depends on axioms: [propext, Classical.choice, Quot.sound]
'Scigo.Metrics.mse_mae_value' depends on axioms: [propext, Quot.sound]
'Scigo.Metrics.r2_spec' depends on axioms: [propext, Classical.choice, Quot.sound]
'Scigo.Metrics.r2_le_one' depends on axioms: [propext, Classical.choice, Quot.sound]
'Scigo.Metrics.r2_mean_predictor' depends on axioms: [propext, Classical.choice, Quot.sound]
'Scigo.Metrics.r2_le_explained_variance' depends on axioms: [propext, Classical.choice, Quot.sound]
'Scigo.Metrics.explained_variance_shift' depends on axioms: [propext, Classical.choice, Quot.sound]
'Scigo.Metrics.r2_ok_iff' depends on axioms: [propext, Classical.choice, Quot.sound]
'Scigo.Metrics.regression_metrics_perm' depends on axioms: [propext, Quot.sound]
'Scigo.Metrics.error_rate_perm' depends on axioms: [propext, Quot.sound]
'Scigo.Metrics.logLoss_perm' depends on axioms: [propext, Classical.choice, Quot.sound]
'Scigo.Metrics.auc_order_independent' depends on axioms: [propext, Classical.choice, Quot.sound]
'Scigo.Metrics.auc_mann_whitney' depends on axioms: [propext, Classical.choice, Quot.sound]
'Scigo.Metrics.auc_range' depends on axioms: [propext, Classical.choice, Quot.sound]
'Scigo.Metrics.auc_one_class' depends on axioms: [propext, Classical.choice, Quot.sound]
'Scigo.Metrics.auc_errors' depends on axioms: [propext, Classical.choice, Quot.sound]
'Scigo.Metrics.auc_no_panic' depends on axioms: [propext]
'Scigo.Metrics.auc_order_independent' depends on axioms: [propext, Classical.choice, Quot.sound]
'Scigo.Metrics.aucMatrix_eq' depends on axioms: [propext, Quot.sound]
'Scigo.Metrics.aucMatrix_rejects' depends on axioms: [propext, Quot.sound]
'Scigo.Metrics.auc_monotone_invariant' depends on axioms: [propext, Classical.choice, Quot.sound]
'Scigo.Metrics.auc_negate_scores' depends on axioms: [propext, Classical.choice, Quot.sound]
'Scigo.Metrics.auc_flip_labels' depends on axioms: [propext, Classical.choice, Quot.sound]
'Scigo.Metrics.logLoss_spec' depends on axioms: [propext, Classical.choice, Quot.sound]
'Scigo.Metrics.logLoss_rejects' depends on axioms: [propext, Quot.sound]
'Scigo.Metrics.logLoss_mono' depends on axioms: [propext, Classical.choice, Quot.sound]
'Scigo.Metrics.classificationError_eq' depends on axioms: [propext, Quot.sound]
'Scigo.Metrics.classificationError_ok_iff' depends on axioms: [propext, Classical.choice, Quot.sound]
'Scigo.Metrics.accuracy_spec' depends on axioms: [propext, Classical.choice, Quot.sound]
'Scigo.Metrics.ndcg_ok_iff' depends on axioms: [propext, Classical.choice, Quot.sound]
'Scigo.Metrics.ndcg_formula' depends on axioms: [propext, Classical.choice, Quot.sound]
'Scigo.Metrics.ndcg_range' depends on axioms: [propext, Classical.choice, Quot.sound]
'Scigo.Metrics.ndcg_perfect' depends on axioms: [propext, Classical.choice, Quot.sound]
'Scigo.Metrics.ndcg_all_zero' depends on axioms: [propext, Classical.choice, Quot.sound]
'Scigo.Metrics.ndcgMatrix_eq' depends on axioms: [propext, Quot.sound]
'Scigo.Metrics.ap_ok_iff' depends on axioms: [propext, Classical.choice, Quot.sound]
'Scigo.Metrics.ap_range' depends on axioms: [propext, Classical.choice, Quot.sound]
'Scigo.Metrics.ap_one_by_scores' depends on axioms: [propext, Classical.choice, Quot.sound]
'Scigo.Metrics.ap_perm_no_ties' depends on axioms: [propext, Quot.sound]
'Scigo.Metrics.ap_ties_order_dependent' depends on axioms: [propext, Classical.choice, Quot.sound]
'Scigo.Metrics.map_is_mean' depends on axioms: [propext, Classical.choice, Quot.sound]
'Scigo.Metrics.map_first_error' depends on axioms: [propext, Classical.choice, Quot.sound]
'Scigo.Metrics.ap_formula' depends on axioms: [propext, Classical.choice, Quot.sound]
'Scigo.Metrics.mape_spec' depends on axioms: [propext, Classical.choice, Quot.sound]
'Scigo.Metrics.mape_nonneg_scale' depends on axioms: [propext, Classical.choice, Quot.sound]
'Scigo.Metrics.mape_ok_iff' depends on axioms: [propext, Classical.choice, Quot.sound]
'Scigo.Preprocessing.std_standardizes' depends on axioms: [propext, Classical.choice, Quot.sound]
'Scigo.Preprocessing.std_roundtrip' depends on axioms: [propext, Classical.choice, Quot.sound]
'Scigo.Preprocessing.minmax_roundtrip' depends on axioms: [propext, Classical.choice, Quot.sound]
'Scigo.Preprocessing.minmax_range' depends on axioms: [propext, Classical.choice, Quot.sound]
'Scigo.Preprocessing.minmax_monotone' depends on axioms: [propext, Classical.choice, Quot.sound]
'Scigo.Preprocessing.std_transform_protocol' depends on axioms: [propext, Classical.choice, Quot.sound]
'Scigo.Preprocessing.std_inverse_protocol' depends on axioms: [propext, Classical.choice, Quot.sound]
'Scigo.Preprocessing.minmax_transform_protocol' depends on axioms: [propext, Classical.choice, Quot.sound]
'Scigo.Preprocessing.minmax_inverse_protocol' depends on axioms: [propext, Classical.choice, Quot.sound]
'Scigo.Preprocessing.fitTransform_is_fit_then_transform' depends on axioms: [propext, Quot.sound]
'Scigo.Preprocessing.encoder_protocol' depends on axioms: [propext, Classical.choice, Quot.sound]
'Scigo.Preprocessing.encoder_protocol' depends on axioms: [propext, Classical.choice, Quot.sound]
'Scigo.Preprocessing.oneHot_block' depends on axioms: [propext, Classical.choice, Quot.sound]
'Scigo.Preprocessing.oneHot_injective' depends on axioms: [propext, Classical.choice, Quot.sound]
'Scigo.Preprocessing.transform_faithful' depends on axioms: [propext, Classical.choice, Quot.sound]
'Scigo.Preprocessing.featureNames_length' depends on axioms: [propext, Quot.sound]
'Scigo.Preprocessing.encoder_order_independent' depends on axioms: [propext, Classical.choice, Quot.sound]
'Scigo.Drift.ddm_silent_in_warmup' depends on axioms: [propext, Classical.choice, Quot.sound]
'Scigo.Drift.ddm_drift_restarts' depends on axioms: [propext, Classical.choice, Quot.sound]
'Scigo.Drift.ddm_update_result' depends on axioms: [propext, Classical.choice, Quot.sound]
'Scigo.Drift.ddm_drift_implies_warning' depends on axioms: [propext, Classical.choice, Quot.sound]
'Scigo.Drift.ddm_statistics' depends on axioms: [propext, Classical.choice, Quot.sound]
'Scigo.Drift.ddm_update_result' depends on axioms: [propext, Classical.choice, Quot.sound]
'Scigo.Drift.ddm_statistics_never_show_drift' depends on axioms: [propext, Classical.choice, Quot.sound]
'Scigo.Drift.ddm_drift_statistics_false' depends on axioms: [propext, Classical.choice, Quot.sound]
'Scigo.Drift.ddm_first_error_is_drift' depends on axioms: [propext, Classical.choice, Quot.sound]
'Scigo.Drift.ddm_statistics_partial' depends on axioms: [propext, Classical.choice, Quot.sound]
'Scigo.Drift.adwin_window' depends on axioms: [propext, Classical.choice, Quot.sound]
'Scigo.Drift.adwin_buckets_bounded_partial' depends on axioms: [propext, Classical.choice, Quot.sound]
'Scigo.Drift.adwin_window_linear' depends on axioms: [propext, Classical.choice, Quot.sound]
'Scigo.Drift.adwin_not_exponential' depends on axioms: [propext, Classical.choice, Quot.sound]
'Scigo.Drift.adwin_constant_no_drift' depends on axioms: [propext, Classical.choice, Quot.sound]
'Scigo.Drift.adwin_drift_sound' depends on axioms: [propext, Classical.choice, Quot.sound]
'Scigo.Drift.adwin_no_drift_complete' depends on axioms: [propext, Classical.choice, Quot.sound]
'Scigo.NaiveBayes.partialFit_batches' depends on axioms: [propext, Classical.choice, Quot.sound]
'Scigo.NaiveBayes.fit_is_reset_partialFit' depends on axioms: [propext]
'Scigo.NaiveBayes.fit_classes' depends on axioms: [propext, Classical.choice, Quot.sound]
'Scigo.NaiveBayes.nb_posterior' depends on axioms: [propext, Classical.choice, Quot.sound]
'Scigo.NaiveBayes.nb_proba_distribution' depends on axioms: [propext, Classical.choice, Quot.sound]
'Scigo.NaiveBayes.posterior_is_distribution' depends on axioms: [propext, Classical.choice, Quot.sound]
'Scigo.NaiveBayes.theta_sum_one' depends on axioms: [propext, Classical.choice, Quot.sound]
'Scigo.NaiveBayes.partialFit_validation_partial' depends on axioms: [propext, Classical.choice, Quot.sound]
'Scigo.NaiveBayes.fit_reject_forgets' depends on axioms: [propext, Quot.sound]
'Scigo.NaiveBayes.predict_validation' depends on axioms: [propext, Classical.choice, Quot.sound]
'Scigo.NaiveBayes.unknown_labels_ignored' depends on axioms: [propext, Quot.sound]
'Scigo.NaiveBayes.partialFit_counts' depends on axioms: [propext, Classical.choice, Quot.sound]
'Scigo.Tree.fit_terminates' depends on axioms: [propext, Classical.choice, Quot.sound]
'Scigo.Tree.fit_terminates_exact' depends on axioms: [propext, Classical.choice, Quot.sound]
'Scigo.Tree.fit_tree_limits' depends on axioms: [propext, Classical.choice, Quot.sound]
'Scigo.Tree.counts_unfitted' does not depend on any axioms
'Scigo.Tree.predict_from_leaf' depends on axioms: [propext, Classical.choice, Quot.sound]
'Scigo.Tree.probaRow_distribution' depends on axioms: [propext, Classical.choice, Quot.sound]
'Scigo.Tree.predict_unfitted' depends on axioms: [propext]
'Scigo.Tree.mem_classes' depends on axioms: [propext, Classical.choice, Quot.sound]
'Scigo.Tree.predict_no_rows' depends on axioms: [propext]
'Scigo.Tree.impurity_nonneg_and_pure' depends on axioms: [propext, Classical.choice, Quot.sound]
'Scigo.Tree.gain_nonneg' depends on axioms: [propext, Classical.choice, Quot.sound]
'Scigo.Tree.findBestSplit_optimal' depends on axioms: [propext, Classical.choice, Quot.sound]
'Scigo.Tree.importances_normalised' depends on axioms: [propext, Classical.choice, Quot.sound]
'Scigo.KMeans.predict_nearest' depends on axioms: [propext, Classical.choice, Quot.sound]
'Scigo.KMeans.predict_argmin_transform' depends on axioms: [propext, Classical.choice, Quot.sound]
'Scigo.KMeans.partialFit_running_mean' depends on axioms: [propext, Classical.choice, Quot.sound]
'Scigo.KMeans.partialFit_in_range' depends on axioms: [propext, Classical.choice, Quot.sound]
'Scigo.KMeans.fit_labels_inertia' depends on axioms: [propext, Classical.choice, Quot.sound]
'Scigo.KMeans.partialFit_after_fit_panics' depends on axioms: [propext, Quot.sound]
'Scigo.KMeans.partialFit_after_fit_partial' depends on axioms: [propext, Classical.choice, Quot.sound]
'Scigo.Pipeline.fit_ok_iff' depends on axioms: [propext, Quot.sound]
'Scigo.Pipeline.fit_first_failure' depends on axioms: [propext, Quot.sound]
'Scigo.Pipeline.unfitted_refused' depends on axioms: [propext]
'Scigo.Pipeline.predict_ok_iff' depends on axioms: [propext, Quot.sound]
'Scigo.Pipeline.predict_first_failure' depends on axioms: [propext, Quot.sound]
'Scigo.Pipeline.predictProba_score_ok_iff' depends on axioms: [propext, Quot.sound]
'Scigo.Pipeline.transform_ok_iff' depends on axioms: [propext]
'Scigo.Pipeline.transform_first_failure' depends on axioms: [propext]
'Scigo.Pipeline.inverse_undoes_transform' depends on axioms: [propext]
'Scigo.Linear.fit_normal_equations' depends on axioms: [propext, Classical.choice, Quot.sound]
'Scigo.Linear.fit_least_squares' depends on axioms: [propext, Classical.choice, Quot.sound]
'Scigo.Linear.fit_unique_minimiser' depends on axioms: [propext, Classical.choice, Quot.sound]
'Scigo.Linear.fit_ok_iff' depends on axioms: [propext, Classical.choice, Quot.sound]
'Scigo.Linear.predict_spec' depends on axioms: [propext, Classical.choice, Quot.sound]
'Scigo.Linear.predict_after_fit' depends on axioms: [propext, Classical.choice, Quot.sound]
'Scigo.Linear.score_spec' depends on axioms: [propext, Classical.choice, Quot.sound]
'Scigo.Linear.train_score_unit' depends on axioms: [propext, Classical.choice, Quot.sound]
'Scigo.Linear.getters_predict' depends on axioms: [propext, Classical.choice, Quot.sound]
'Scigo.Linear.failed_refit_keeps_model_partial' depends on axioms: [propext]
'Scigo.Linear.history_failed_calls_irrelevant_partial' depends on axioms: [propext]
'Scigo.Linear.failed_refit_breaks_predict' depends on axioms: [propext]
'Scigo.Linear.json_import_predictions_partial' depends on axioms: [propext, Classical.choice, Quot.sound]
'Scigo.Linear.import_same_width_partial' depends on axioms: [propext, Classical.choice, Quot.sound]
'Scigo.Linear.rejected_import_unchanged_partial' depends on axioms: [propext, Quot.sound]
'Scigo.Linear.import_ok_iff' depends on axioms: [propext, Quot.sound]
'Scigo.Linear.clone_forgets_width' depends on axioms: [propext, Classical.choice, Quot.sound]
'Scigo.Linear.clone_predicts_differently' depends on axioms: [propext, Classical.choice, Quot.sound]
'Scigo.Linear.json_import_loses_nJobs' depends on axioms: [propext, Classical.choice, Quot.sound]
'Scigo.Linear.rejected_import_overwrites' depends on axioms: [propext, Quot.sound]
'Scigo.Linear.json_trip_iff' depends on axioms: [propext, Quot.sound]
'Scigo.Linear.validate_iff' depends on axioms: [propext, Classical.choice, Quot.sound]
'Scigo.Linear.export_validates' depends on axioms: [propext, Classical.choice, Quot.sound]
'Scigo.Linear.clone_view_eq' depends on axioms: [propext, Classical.choice, Quot.sound]
'Scigo.Linear.clone_independent_partial' depends on axioms: [propext, Classical.choice, Quot.sound]
'Scigo.Linear.clone_shares_nested' depends on axioms: [propext, Classical.choice, Quot.sound]
'Scigo.Online.sgd_step' depends on axioms: [propext, Classical.choice, Quot.sound]
'Scigo.Online.partialFit_split' depends on axioms: [propext, Quot.sound]
'Scigo.Online.partialFit_wrong_width' depends on axioms: [propext]
'Scigo.Online.learningRate_spec' depends on axioms: [propext, Classical.choice, Quot.sound]
'Scigo.Online.pa_unchanged_iff' depends on axioms: [propext, Classical.choice, Quot.sound]
'Scigo.Online.pa_step_optimal_partial' depends on axioms: [propext, Classical.choice, Quot.sound]
'Scigo.Online.paClf_step_optimal_partial' depends on axioms: [propext, Classical.choice, Quot.sound]
'Scigo.Online.paClf_step_partial' depends on axioms: [propext, Classical.choice, Quot.sound]
'Scigo.Online.pa_with_intercept_false' depends on axioms: [propext, Classical.choice, Quot.sound]
'Scigo.Logistic.lr_fit_trained' depends on axioms: [propext, Classical.choice, Quot.sound]
'Scigo.Logistic.lr_predictions_consistent' depends on axioms: [propext, Classical.choice, Quot.sound]
'Scigo.Logistic.softmaxShift_eq' depends on axioms: [propext, Classical.choice, Quot.sound]
'Scigo.Logistic.softmaxShift_no_overflow' depends on axioms: [propext, Classical.choice, Quot.sound]
'Scigo.Logistic.lr_unfitted' depends on axioms: [propext, Quot.sound]
'Scigo.Logistic.lr_score' depends on axioms: [propext, Classical.choice, Quot.sound]
'Scigo.LGB.tree_predict_unique_leaf' depends on axioms: [propext, Classical.choice, Quot.sound]
'Scigo.LGB.paths_unique' depends on axioms: [propext, Quot.sound]
'Scigo.LGB.predict_diverges' depends on axioms: [propext, Classical.choice, Quot.sound]
'Scigo.LGB.stores_unique' depends on axioms: [propext]
'Scigo.LGB.json_roundtrip_partial' depends on axioms: [propext, Classical.choice, Quot.sound]
'Scigo.LGB.json_loses_init_score' depends on axioms: [propext, Classical.choice, Quot.sound]
'Scigo.LGB.json_loses_categories' depends on axioms: [propext, Classical.choice, Quot.sound]
'Scigo.LGB.json_renames_multiclassova' depends on axioms: [propext, Classical.choice, Quot.sound]
'Scigo.LGB.written_node' depends on axioms: [propext]
'Scigo.LGB.text_roundtrip_leaf_partial' depends on axioms: [propext, Classical.choice, Quot.sound]
'Scigo.LGB.text_roundtrip_constant' depends on axioms: [propext, Classical.choice, Quot.sound]
'Scigo.LGB.text_roundtrip_tree_zero' depends on axioms: [propext, Classical.choice, Quot.sound]
'Scigo.LGB.text_roundtrip_false' depends on axioms: [propext, Classical.choice, Quot.sound]
'Scigo.LGB.text_leaf_values' depends on axioms: [propext]
'Scigo.LGB.text_tree_compiled' depends on axioms: [propext, Classical.choice, Quot.sound]
'Scigo.LGB.compile' depends on axioms: [propext, Classical.choice, Quot.sound]
'Scigo.LGB.json_tree_compiled_partial' depends on axioms: [propext, Classical.choice, Quot.sound]
'Scigo.LGB.json_tree_wrong' depends on axioms: [propext, Classical.choice, Quot.sound]
'Scigo.LGB.batch_row_by_row' depends on axioms: [propext, Classical.choice, Quot.sound]
'Scigo.LGB.predictor_parallel_eq_sequential' depends on axioms: [propext, Classical.choice, Quot.sound]
'Scigo.LGB.parallel_predict_schedule_independent' depends on axioms: [propext, Classical.choice, Quot.sound]
'Scigo.LGB.parallel_predict_no_deadlock' depends on axioms: [propext, Classical.choice, Quot.sound]
'Scigo.LGB.parallel_predict_terminates' depends on axioms: [propext, Classical.choice, Quot.sound]
'Scigo.LGB.predictions_width' depends on axioms: [propext, Quot.sound]
'Scigo.LGB.simple_batch' depends on axioms: [propext, Classical.choice, Quot.sound]
'Scigo.LGB.predict_eq_link_rawScore' depends on axioms: [propext, Classical.choice, Quot.sound]
'Scigo.LGB.simple_raw_eq' depends on axioms: [propext, Classical.choice, Quot.sound]
'Scigo.LGB.traversals_agree' depends on axioms: [propext, Classical.choice, Quot.sound]
'Scigo.LGB.predictor_raw_near_partial' depends on axioms: [propext, Classical.choice, Quot.sound]
'Scigo.LGB.entry_points_disagree' depends on axioms: [propext, Classical.choice, Quot.sound]
'Scigo.Trainer.max_depth_partial' depends on axioms: [propext, Classical.choice, Quot.sound]
'Scigo.Trainer.num_leaves_partial' depends on axioms: [propext, Classical.choice, Quot.sound]
'Scigo.Trainer.terminates_partial' depends on axioms: [propext, Classical.choice, Quot.sound]
'Scigo.Trainer.min_data_partial' depends on axioms: [propext, Classical.choice, Quot.sound]
'Scigo.Trainer.never_ends_zero_gain' depends on axioms: [propext, Classical.choice, Quot.sound]
'Scigo.Trainer.never_ends_repeated_maximum' depends on axioms: [propext, Classical.choice, Quot.sound]
'Scigo.Trainer.num_leaves_exceeded' depends on axioms: [propext, Classical.choice, Quot.sound]
'Scigo.Trainer.min_data_violated' depends on axioms: [propext, Classical.choice, Quot.sound]
'Scigo.Boost.l2_derivative' depends on axioms: [propext, Classical.choice, Quot.sound]
'Scigo.Boost.l1_derivative' depends on axioms: [propext, Classical.choice, Quot.sound]
'Scigo.Boost.huber_derivative' depends on axioms: [propext, Classical.choice, Quot.sound]
'Scigo.Boost.quantile_derivative' depends on axioms: [propext, Classical.choice, Quot.sound]
'Scigo.Boost.fair_derivative' depends on axioms: [propext, Classical.choice, Quot.sound]
'Scigo.Boost.poisson_derivative' depends on axioms: [propext, Classical.choice, Quot.sound]
'Scigo.Boost.gamma_derivative' depends on axioms: [propext, Classical.choice, Quot.sound]
'Scigo.Boost.tweedie_derivative' depends on axioms: [propext, Classical.choice, Quot.sound]
'Scigo.Boost.tweedie_hessian' depends on axioms: [propext, Classical.choice, Quot.sound]
'Scigo.Boost.l2_init_optimal' depends on axioms: [propext, Classical.choice, Quot.sound]
'Scigo.Boost.l1_init_optimal' depends on axioms: [propext, Classical.choice, Quot.sound]
'Scigo.Boost.l1_init_median' depends on axioms: [propext, Classical.choice, Quot.sound]
'Scigo.Boost.quantile_init_partial' depends on axioms: [propext, Classical.choice, Quot.sound]
'Scigo.Boost.quantile_init_not_optimal' depends on axioms: [propext, Classical.choice, Quot.sound]
'Scigo.Boost.binary_loss_partial' depends on axioms: [propext, Classical.choice, Quot.sound]
'Scigo.Boost.binary_loss_error' depends on axioms: [propext, Classical.choice, Quot.sound]
'Scigo.Boost.binary_loss_wrong' depends on axioms: [propext, Classical.choice, Quot.sound]
'Scigo.Boost.binary_gradient' depends on axioms: [propext, Classical.choice, Quot.sound]
'Scigo.Boost.early_stopping_signal' depends on axioms: [propext, Quot.sound]
'Scigo.Boost.early_stopping_best' depends on axioms: [propext, Quot.sound]
'Scigo.Boost.early_stopping_disabled' depends on axioms: [propext, Quot.sound]
'Scigo.Boost.early_stopping_direction' depends on axioms: [propext, Classical.choice, Quot.sound]
'Scigo.Boost.train_early_stop_partial' depends on axioms: [propext, Classical.choice, Quot.sound]
'Scigo.Boost.train_early_stop_fails' depends on axioms: [propext, Classical.choice, Quot.sound]
'Scigo.CV.kfold_partition' depends on axioms: [propext, Classical.choice, Quot.sound]
'Scigo.CV.kfold_bad_count' depends on axioms: [propext, Quot.sound]
'Scigo.CV.stratified_partition' depends on axioms: [propext, Classical.choice, Quot.sound]
'Scigo.EFB.round_trip_partial' depends on axioms: [propext, Classical.choice, Quot.sound]
'Scigo.EFB.round_trip_fails' depends on axioms: [propext, Classical.choice, Quot.sound]
'Scigo.EFB.bundles_sound' depends on axioms: [propext, Classical.choice, Quot.sound]
'Scigo.Hist.continuous_histogram' depends on axioms: [propext, Classical.choice, Quot.sound]
'Scigo.Hist.continuous_histogram_opt' depends on axioms: [propext, Classical.choice, Quot.sound]
'Scigo.Hist.histogram_conserves' depends on axioms: [propext, Classical.choice, Quot.sound]
'Scigo.Hist.fill_count' depends on axioms: [propext, Classical.choice, Quot.sound]
'Scigo.Hist.subtraction_sibling' depends on axioms: [propext, Classical.choice, Quot.sound]
'Scigo.Hist.categorical_histogram' depends on axioms: [propext, Classical.choice, Quot.sound]
'Scigo.Hist.pool_histograms' depends on axioms: [propext, Quot.sound]
'Scigo.Hist.pool_progress' depends on axioms: [propext, Classical.choice, Quot.sound]
'Scigo.Hist.pool_terminates' depends on axioms: [propext, Classical.choice, Quot.sound]
'Scigo.Hist.merge_conserves' depends on axioms: [propext, Classical.choice, Quot.sound]
'Scigo.Hist.merge_progress' depends on axioms: [propext, Classical.choice, Quot.sound]
'Scigo.Hist.merge_terminates' depends on axioms: [propext, Classical.choice, Quot.sound]
'Scigo.Hist.merge_histogram' depends on axioms: [propext, Classical.choice, Quot.sound]
'Scigo.Hist.merge_nan_hangs' depends on axioms: [propext, Classical.choice, Quot.sound]
'Scigo.Hist.opt_bin_of_value' depends on axioms: [propext, Classical.choice, Quot.sound]
'Scigo.Hist.opt_counts_every_row' depends on axioms: [propext, Classical.choice, Quot.sound]
'Scigo.Hist.split_is_best' depends on axioms: [propext, Classical.choice, Quot.sound]
'Scigo.Hist.categorical_split_is_best' depends on axioms: [propext, Classical.choice, Quot.sound]
'Scigo.Hist.pick_is_best' depends on axioms: [propext, Quot.sound]
'Scigo.Hist.gain_is_decrease' depends on axioms: [propext, Classical.choice, Quot.sound]
'Scigo.Hist.split_maximal' depends on axioms: [propext, Classical.choice, Quot.sound]
'Scigo.Hist.split_divides_rows' depends on axioms: [propext, Classical.choice, Quot.sound]
'Scigo.Hist.exact_greedy' depends on axioms: [propext, Classical.choice, Quot.sound]
'Scigo.Hist.min_gain_is_inclusive' depends on axioms: [propext]
'Scigo.Shap.shap_additive_partial' depends on axioms: [propext, Classical.choice, Quot.sound]
'Scigo.Shap.shap_sum' depends on axioms: [propext, Classical.choice, Quot.sound]
'Scigo.Shap.shap_not_additive' depends on axioms: [propext, Classical.choice, Quot.sound]
'Scigo.Eval.confusion_entry' depends on axioms: [propext, Classical.choice, Quot.sound]
'Scigo.Eval.confusion_marginals' depends on axioms: [propext, Classical.choice, Quot.sound]
'Scigo.Eval.confusion_total' depends on axioms: [propext, Classical.choice, Quot.sound]
'Scigo.Eval.accuracy_trace' depends on axioms: [propext, Classical.choice, Quot.sound]
'Scigo.Eval.class_precision_recall' depends on axioms: [propext, Classical.choice, Quot.sound]
'Scigo.Eval.class_f1' depends on axioms: [propext, Classical.choice, Quot.sound]
'Scigo.Eval.scores_unit' depends on axioms: [propext, Classical.choice, Quot.sound]
'Scigo.Eval.auc_eq_metrics' depends on axioms: [propext, Classical.choice, Quot.sound]
'Scigo.Eval.logLoss_eq_metrics' depends on axioms: [propext, Classical.choice, Quot.sound]
'Scigo.Tensor.rawData_row_major' depends on axioms: [propext, Classical.choice, Quot.sound]
'Scigo.Tensor.newTensor_spec' depends on axioms: [propext, Classical.choice, Quot.sound]
'Scigo.Tensor.reshape_spec' depends on axioms: [propext, Classical.choice, Quot.sound]
'Scigo.Tensor.reshape_rejects' depends on axioms: [propext, Classical.choice, Quot.sound]
'Scigo.Tensor.copy_independent' depends on axioms: [propext, Classical.choice, Quot.sound]
'Scigo.Performance.setChunk_getChunk' depends on axioms: [propext, Classical.choice, Quot.sound]
'Scigo.Performance.stored_float64' depends on axioms: [propext]
'Scigo.Performance.stored_other' depends on axioms: [propext]
'Scigo.Performance.getChunk_ok_iff' depends on axioms: [propext, Classical.choice, Quot.sound]
'Scigo.Performance.new_full' depends on axioms: [propext, Classical.choice, Quot.sound]
'Scigo.Performance.iterate_all' depends on axioms: [propext, Classical.choice, Quot.sound]
'Scigo.Performance.iterate_bad_size' depends on axioms: [propext, Quot.sound]
'Scigo.Performance.access_inside' depends on axioms: [propext, Quot.sound]
'Scigo.Performance.pool_exclusive' depends on axioms: [propext, Classical.choice, Quot.sound]
'Scigo.Performance.pool_fresh' depends on axioms: [propext, Classical.choice, Quot.sound]
'Scigo.Performance.pool_count' depends on axioms: [propext, Classical.choice, Quot.sound]
'Scigo.Performance.pool_toMat_partial' depends on axioms: [propext, Quot.sound]
'Scigo.Performance.pool_toMat_panics' depends on axioms: [propext, Quot.sound]
'Scigo.Performance.budget_respected_partial' depends on axioms: [propext, Quot.sound]
'Scigo.Performance.budget_overflow' depends on axioms: [propext]
'Scigo.Performance.budget_megabytes' depends on axioms: [propext, Quot.sound]
'Scigo.Performance.relayout_transposes' depends on axioms: [propext, Classical.choice, Quot.sound]
'Scigo.Performance.relayout_perm' depends on axioms: [propext, Classical.choice, Quot.sound]
'Scigo.Performance.relayout_involutive' depends on axioms: [propext, Classical.choice, Quot.sound]
'Scigo.Performance.relayout_short_panics' depends on axioms: [propext, Classical.choice, Quot.sound]
'Scigo.ParamMap.setParams_getParams' depends on axioms: [propext, Classical.choice, Quot.sound]
'Scigo.ParamMap.setParams_exists' depends on axioms: [propext, Classical.choice, Quot.sound]
'Scigo.ParamMap.getParams_lookup' depends on axioms: [propext, Classical.choice, Quot.sound]
'Scigo.ParamMap.repeated_name_nondeterministic' depends on axioms: [propext, Quot.sound]
'Scigo.Tree.fit_order_independent' depends on axioms: [propext, Classical.choice, Quot.sound]
'Scigo.KMeans.fit_labels_inertia' depends on axioms: [propext, Classical.choice, Quot.sound]
'Scigo.KMeans.rejected_fit_breaks_predict' depends on axioms: [propext, Quot.sound]
'Scigo.KMeans.rejected_fit_keeps_model_partial' depends on axioms: [propext, Quot.sound]
'Scigo.KMeans.partialFit_batches' depends on axioms: [propext, Classical.choice, Quot.sound]
'Scigo.Pipeline.fitTransform_excludes_fit' depends on axioms: [propext]
'Scigo.Pipeline.fit_excludes_transform' depends on axioms: [propext, Quot.sound]
'Scigo.Pipeline.fitTransform_eq_transform_partial' depends on axioms: [propext]
'Scigo.Pipeline.failed_refit_changes_predictions' depends on axioms: [propext]
'Scigo.Pipeline.failed_refit_first_step_partial' depends on axioms: [propext]
'Scigo.Pipeline.namedStep_distinct' depends on axioms: [propext, Quot.sound]
'Scigo.Pipeline.namedStep_duplicate' depends on axioms: [propext, Quot.sound]
'Scigo.Pipeline.make_names_distinct' depends on axioms: [propext, Classical.choice, Quot.sound]
'Scigo.Linear.load_spec' depends on axioms: [propext, Classical.choice, Quot.sound]
'Scigo.Linear.export_load_predictions' depends on axioms: [propext, Classical.choice, Quot.sound]
'Scigo.Linear.export_after_failed_refit_rejected' depends on axioms: [propext, Classical.choice, Quot.sound]
'Scigo.Linear.lm_fit_least_squares' depends on axioms: [propext, Classical.choice, Quot.sound]
'Scigo.Linear.lm_predict_spec' depends on axioms: [propext, Classical.choice, Quot.sound]
'Scigo.Linear.lm_fit_underdetermined_panics' depends on axioms: [propext, Quot.sound]
'Scigo.Linear.lm_fit_shape_errors' depends on axioms: [propext, Classical.choice, Quot.sound]
'Scigo.Linear.positive_nonneg_partial' depends on axioms: [propext, Classical.choice, Quot.sound]
'Scigo.Linear.positive_inactive_partial' depends on axioms: [propext, Classical.choice, Quot.sound]
'Scigo.Linear.positive_not_optimal' depends on axioms: [propext, Classical.choice, Quot.sound]
'Scigo.Stream.fitStream_history' depends on axioms: [propext, Classical.choice, Quot.sound]
'Scigo.Stream.fitStream_progress' depends on axioms: [propext, Classical.choice, Quot.sound]
'Scigo.Stream.fitStream_returned' does not depend on any axioms
'Scigo.Stream.predictStream_history' depends on axioms: [propext]
'Scigo.Stream.fitPredictStream_history' depends on axioms: [propext, Quot.sound]
'Scigo.Stream.fitPredictStream_cancel' depends on axioms: [propext]
'Scigo.Stream.predictStream_cancel' depends on axioms: [propext]
'Scigo.Online.epoch_visits_each_row_once' depends on axioms: [propext, Classical.choice, Quot.sound]
'Scigo.Online.fit_epochs' depends on axioms: [propext, Classical.choice, Quot.sound]
'Scigo.Online.checkConvergence_iff' depends on axioms: [propext, Classical.choice, Quot.sound]
'Scigo.Online.fit_forgets_history_partial' depends on axioms: [propext]
'Scigo.Online.fit_forgets_history_false' depends on axioms: [propext, Classical.choice, Quot.sound]
'Scigo.Online.sgdClf_step_partial' depends on axioms: [propext, Classical.choice, Quot.sound]
'Scigo.Online.sgdClf_log_loss_gradient_false' depends on axioms: [propext, Classical.choice, Quot.sound]
'Scigo.Online.sgdClf_predictions_consistent_partial' depends on axioms: [propext, Classical.choice, Quot.sound]
'Scigo.Online.sgdClf_proba_overflow_false' depends on axioms: [propext, Classical.choice, Quot.sound]
'Scigo.Logistic.lr_failed_refit_false' depends on axioms: [propext, Classical.choice, Quot.sound]
'Scigo.Logistic.lr_failed_refit_partial' depends on axioms: [propext]
'Scigo.Logistic.lr_objective_and_gradient' depends on axioms: [propext, Classical.choice, Quot.sound]
'Scigo.Logistic.lr_gradient_descent' depends on axioms: [propext, Classical.choice, Quot.sound]
'Scigo.Logistic.lr_fit_trained' depends on axioms: [propext, Classical.choice, Quot.sound]
'Scigo.Logistic.lr_params_round_trip' depends on axioms: [propext, Classical.choice, Quot.sound]
'Scigo.Logistic.lr_params_order' depends on axioms: [propext, Classical.choice, Quot.sound]
'Scigo.Logistic.lr_params_refused_false' depends on axioms: [propext, Classical.choice, Quot.sound]
'Scigo.Logistic.lr_params_refused_partial' depends on axioms: [propext, Classical.choice, Quot.sound]
'Scigo.LGB.model_probability_range' depends on axioms: [propext, Classical.choice, Quot.sound]
'Scigo.LGB.model_predict_binary_range' depends on axioms: [propext, Classical.choice, Quot.sound]
'Scigo.LGB.model_probability_order_partial' depends on axioms: [propext, Classical.choice, Quot.sound]
'Scigo.LGB.model_probability_wrong_for_large_scores' depends on axioms: [propext, Classical.choice, Quot.sound]
'Scigo.LGB.categorical_right_partial' depends on axioms: [propext, Classical.choice, Quot.sound]
'Scigo.LGB.text_categorical_always_right' depends on axioms: [propext, Classical.choice, Quot.sound]
'Scigo.LGB.categorical_split_ignored' depends on axioms: [propext, Classical.choice, Quot.sound]
'Scigo.LGB.leaves_single_eq_batch_partial' depends on axioms: [propext, Classical.choice, Quot.sound]
'Scigo.LGB.leaves_batch_eq_link_raw' depends on axioms: [propext, Classical.choice, Quot.sound]
'Scigo.LGB.leaves_single_ignores_init_score' depends on axioms: [propext, Classical.choice, Quot.sound]
'Scigo.LGB.leaves_sigmoid_real' depends on axioms: [propext, Classical.choice, Quot.sound]
'Scigo.LGB.read_terminates' depends on axioms: [propext, Classical.choice, Quot.sound]
'Scigo.LGB.text_predictor_partial' depends on axioms: [propext, Classical.choice, Quot.sound]
'Scigo.LGB.text_model_predicts_zero' depends on axioms: [propext, Classical.choice, Quot.sound]
'Scigo.Performance.view_safe_partial' depends on axioms: [propext, Classical.choice, Quot.sound]
'Scigo.Performance.slice_aliases' depends on axioms: [propext, Classical.choice, Quot.sound]
'Scigo.Performance.view_read_write' depends on axioms: [propext, Classical.choice, Quot.sound]
'Scigo.Performance.view_overflow_wild' depends on axioms: [propext]
'Scigo.Performance.aligned_buffer' depends on axioms: [propext, Classical.choice, Quot.sound]
'Scigo.Performance.reopen_same' depends on axioms: [propext, Classical.choice, Quot.sound]
'Scigo.CV.stratified_balanced_partial' depends on axioms: [propext, Quot.sound]
'Scigo.CV.stratified_unbalanced' does not depend on any axioms
'Scigo.CV.cv_schedule_independent' depends on axioms: [propext, Classical.choice, Quot.sound]
'Scigo.CV.cv_train_rows' depends on axioms: [propext, Classical.choice, Quot.sound]
'Scigo.CV.cv_empty_fold_panics' depends on axioms: [propext, Classical.choice, Quot.sound]
'Scigo.CV.cv_no_leak_partial' depends on axioms: [propext, Classical.choice, Quot.sound]
'Scigo.CV.cv_early_stopping_uses_test_rows' depends on axioms: [propext]
'Scigo.CV.cv_best' depends on axioms: [propext, Quot.sound]
'Scigo.Boost.fit_truncates_partial' depends on axioms: [propext, Classical.choice, Quot.sound]
'Scigo.Boost.fit_keeps_worse_trees' depends on axioms: [propext, Classical.choice, Quot.sound]
'Scigo.Boost.fit_auc_keeps_worst' depends on axioms: [propext]
'Scigo.Boost.callback_improving_partial' depends on axioms: [propext, Quot.sound]
'Scigo.Boost.callback_patience_one' depends on axioms: [propext, Classical.choice, Quot.sound]
'Scigo.Boost.callback_halves_patience' depends on axioms: [propext, Classical.choice, Quot.sound]
'Scigo.Boost.record_doubles' depends on axioms: [propext, Classical.choice, Quot.sound]
'Scigo.Boost.train_rounds_partial' depends on axioms: [propext, Quot.sound]
'Scigo.Boost.train_ignores_rounds' depends on axioms: [propext, Quot.sound]
'Scigo.Boost.train_round_count_wrong' depends on axioms: [propext]
'Scigo.Boost.iteration_limit_partial' depends on axioms: [propext, Quot.sound]
'Scigo.Boost.iteration_limit_ignored' does not depend on any axioms
'Scigo.Boost.clone_same_partial' depends on axioms: [propext]
'Scigo.Boost.clone_of_loaded_fails' does not depend on any axioms
'Scigo.Boost.clone_shares_model' depends on axioms: [propext, Quot.sound]
'Scigo.Boost.importance_partial' depends on axioms: [propext, Quot.sound]
'Scigo.Boost.importance_stale' depends on axioms: [propext]
'Scigo.Boost.saved_trees_partial' does not depend on any axioms
'Scigo.Boost.loaded_reports_no_trees' depends on axioms: [propext]
'Scigo.Boost.poisson_init_optimal_partial' depends on axioms: [propext, Classical.choice, Quot.sound]
'Scigo.Boost.gamma_init_optimal_partial' depends on axioms: [propext, Classical.choice, Quot.sound]
'Scigo.Boost.binary_init_optimal_partial' depends on axioms: [propext, Classical.choice, Quot.sound]
'Scigo.Boost.tweedie_init_not_optimal' depends on axioms: [propext, Classical.choice, Quot.sound]
'Scigo.Boost.huber_init_not_optimal' depends on axioms: [propext, Classical.choice, Quot.sound]
'Scigo.Boost.no_positive_start' depends on axioms: [propext, Classical.choice, Quot.sound]
'Scigo.Boost.empty_labels_init' depends on axioms: [propext, Quot.sound]
'Scigo.Boost.softmax_pos' depends on axioms: [propext, Classical.choice, Quot.sound]
'Scigo.Boost.softmax_sum' depends on axioms: [propext, Classical.choice, Quot.sound]
'Scigo.Boost.multi_gradient_sum_zero' depends on axioms: [propext, Classical.choice, Quot.sound]
'Scigo.Boost.multi_hessian_pos' depends on axioms: [propext, Classical.choice, Quot.sound]
'Scigo.Boost.multiLoss_neg_log' depends on axioms: [propext, Classical.choice, Quot.sound]
'Scigo.Boost.multi_gradient' depends on axioms: [propext, Classical.choice, Quot.sound]
'Scigo.Boost.multi_schedule_independent' depends on axioms: [propext, Classical.choice, Quot.sound]
'Scigo.Boost.multi_no_deadlock' depends on axioms: [propext, Quot.sound]
'Scigo.Boost.maxLogit_max' depends on axioms: [propext, Quot.sound]
'Scigo.Boost.multiTotal_mean' depends on axioms: [propext, Classical.choice, Quot.sound]
'Scigo.Eval.f1_partial' depends on axioms: [propext, Classical.choice, Quot.sound]
'Scigo.Eval.macro_f1_wrong' depends on axioms: [propext, Classical.choice, Quot.sound]
'Scigo.Tensor.set_get' depends on axioms: [propext, Quot.sound]
'Scigo.Tensor.slice_spec' depends on axioms: [propext, Classical.choice, Quot.sound]
'Scigo.Tensor.at_bounds' depends on axioms: [propext, Classical.choice, Quot.sound]
'Scigo.Tensor.shape_partial' depends on axioms: [propext, Quot.sound]
'Scigo.Tensor.shape_aliased' depends on axioms: [propext]
'Scigo.Tensor.transpose_panics' depends on axioms: [propext]
'Scigo.ParamMap.clone_params' depends on axioms: [propext, Classical.choice, Quot.sound]
'Scigo.ParamMap.clone_stable' depends on axioms: [propext, Classical.choice, Quot.sound]
'Scigo.ParamMap.normObjective_idem' depends on axioms: [propext, Quot.sound]
'Scigo.ParamMap.classifier_set_get_partial' depends on axioms: [propext, Classical.choice, Quot.sound]
'Scigo.ParamMap.classifier_ignores' depends on axioms: [propext, Classical.choice, Quot.sound]
'Scigo.Hist.categorical_optimal_partial' depends on axioms: [propext, Classical.choice, Quot.sound]
'Scigo.Hist.categorical_not_optimal' depends on axioms: [propext, Classical.choice, Quot.sound]
'Scigo.Hist.exact_threshold_partial' depends on axioms: [propext, Classical.choice, Quot.sound]
'Scigo.Hist.quantile_threshold_mismatch' depends on axioms: [propext, Classical.choice, Quot.sound]
'Scigo.Hist.gain_l1_not_decrease' depends on axioms: [propext, Classical.choice, Quot.sound]
'Scigo.QuickSort.quickSort_rearranged' depends on axioms: [propext, Classical.choice, Quot.sound]
'Scigo.QuickSort.quickSort_sorted' depends on axioms: [propext, Classical.choice, Quot.sound]
'Scigo.QuickSort.sortSlice_sorts' depends on axioms: [propext, Classical.choice, Quot.sound]
'Scigo.Trainer.rows_reach_their_leaf_partial' depends on axioms: [propext, Classical.choice, Quot.sound]
'Scigo.Trainer.trained_tree_fits_rows_partial' depends on axioms: [propext, Classical.choice, Quot.sound]
'Scigo.Trainer.missing_category_misrouted' depends on axioms: [propext]
'Scigo.Trainer.leaf_value_optimal' depends on axioms: [propext, Classical.choice, Quot.sound]
'Scigo.Trainer.leaf_step' depends on axioms: [propext, Classical.choice, Quot.sound]
'Scigo.Trainer.sampled_rows' depends on axioms: [propext, Classical.choice, Quot.sound]
'Scigo.Trainer.sampled_features' depends on axioms: [propext, Classical.choice, Quot.sound]
'Scigo.Trainer.sample_unbiased' depends on axioms: [propext, Classical.choice, Quot.sound]
'Scigo.Trainer.goss_sample' depends on axioms: [propext, Classical.choice, Quot.sound]
'Scigo.Trainer.goss_restored' depends on axioms: [propext, Classical.choice, Quot.sound]
'Scigo.Trainer.goss_weight_partial' depends on axioms: [propext, Classical.choice, Quot.sound]
'Scigo.Trainer.goss_weight_wrong' depends on axioms: [propext, Classical.choice, Quot.sound]
'Scigo.Trainer.dropped_trees_partial' depends on axioms: [propext, Classical.choice, Quot.sound]
'Scigo.Trainer.drop_too_many' depends on axioms: [propext, Quot.sound]
'Scigo.Trainer.dart_normalised' depends on axioms: [propext, Classical.choice, Quot.sound]
'Scigo.Trainer.boosting_type_ignored' depends on axioms: [propext, Classical.choice, Quot.sound]
'Scigo.Trainer.balanced_classes' depends on axioms: [propext, Classical.choice, Quot.sound]
'Scigo.Trainer.balanced_total' depends on axioms: [propext, Classical.choice, Quot.sound]
'Scigo.Trainer.class_weights_given' depends on axioms: [propext, Quot.sound]
'Scigo.Trainer.class_weights_kinds' depends on axioms: [propext, Quot.sound]
'Scigo.Trainer.mono_split_partial' depends on axioms: [propext, Quot.sound]
'Scigo.Trainer.collect_best' depends on axioms: [propext, Quot.sound]
'Scigo.Trainer.split_gain_is_decrease' depends on axioms: [propext, Classical.choice, Quot.sound]
'Scigo.Trainer.monotone_ignored' depends on axioms: [propext, Classical.choice, Quot.sound]
'Scigo.Trainer.boosting_type_ignored' depends on axioms: [propext, Classical.choice, Quot.sound]
'Scigo.Trainer.fit_boosts' depends on axioms: [propext, Classical.choice, Quot.sound]
'Scigo.Trainer.fit_succeeds' depends on axioms: [propext, Classical.choice, Quot.sound]
'Scigo.Trainer.squared_loss_decreases' depends on axioms: [propext, Classical.choice, Quot.sound]
'Scigo.Trainer.served_scores_partial' depends on axioms: [propext, Classical.choice, Quot.sound]
'Scigo.Trainer.served_scores_wrong' depends on axioms: [propext, Classical.choice, Quot.sound]
'Scigo.Trainer.refit_not_fresh' depends on axioms: [propext, Classical.choice, Quot.sound]
'Scigo.Trainer.refit_continues_partial' depends on axioms: [propext, Classical.choice, Quot.sound]
'Scigo.Trainer.refit_keeps_trees' depends on axioms: [propext, Classical.choice, Quot.sound]
'Scigo.Trainer.refit_more_rows_panics' depends on axioms: [propext, Classical.choice, Quot.sound]
'Scigo.Trainer.refit_stale_scores' depends on axioms: [propext, Classical.choice, Quot.sound]
'Scigo.Trainer.Callbacks.stopped_list_builds_nothing' depends on axioms: [propext, Quot.sound]
'Scigo.EFB.optimizer_unchanged_partial' depends on axioms: [propext, Classical.choice, Quot.sound]
'Scigo.EFB.optimizer_not_reusable' depends on axioms: [propext, Classical.choice, Quot.sound]
'Scigo.EFB.bundles_sound' depends on axioms: [propext, Classical.choice, Quot.sound]
'Scigo.EFB.mapping_faithful' depends on axioms: [propext, Classical.choice, Quot.sound]
'Scigo.Shap.interactions_symmetric' depends on axioms: [propext, Classical.choice, Quot.sound]
'Scigo.Shap.unused_feature_zero' depends on axioms: [propext, Quot.sound]
'Scigo.Log.setLevel_partial' depends on axioms: [propext, Classical.choice, Quot.sound]
'Scigo.Log.setLevel_threshold_fails' depends on axioms: [propext, Quot.sound]
'Scigo.Log.not_enabled_silent' depends on axioms: [propext]
'Scigo.Log.enabled_agrees' depends on axioms: [propext]
'Scigo.Log.stale_logger_enabled' depends on axioms: [propext]
'Scigo.Log.toLogLevel_panics_iff' depends on axioms: [propext, Classical.choice, Quot.sound]
'Scigo.Log.named_logger_partial' depends on axioms: [propext]
'Scigo.Log.with_drops_fields' depends on axioms: [propext]
'Scigo.Log.with_field_missing' depends on axioms: [propext, Quot.sound]
'Scigo.Log.captured_partial' depends on axioms: [propext, Classical.choice, Quot.sound]
'Scigo.Log.entry_fields' depends on axioms: [propext, Quot.sound]
'Scigo.Log.nan_entry_lost' depends on axioms: [propext, Classical.choice, Quot.sound]
'Scigo.Log.message_overwritten' depends on axioms: [propext, Classical.choice, Quot.sound]
'Scigo.Log.with_then_log' depends on axioms: [propext, Classical.choice, Quot.sound]
'Scigo.Log.entry_fields' depends on axioms: [propext, Quot.sound]
'Scigo.Log.containsField_partial' depends on axioms: [propext, Classical.choice, Quot.sound]
'Scigo.Log.containsField_only' depends on axioms: [propext, Classical.choice, Quot.sound]
'Scigo.Log.contains_int_false' depends on axioms: [propext, Quot.sound]
'Scigo.Log.one_logger_interleaves' depends on axioms: [propext, Quot.sound]
'Scigo.Log.one_logger_progress' depends on axioms: [propext, Classical.choice, Quot.sound]
'Scigo.Log.log_terminates' depends on axioms: [propext, Quot.sound]
'Scigo.Log.derived_loggers_partial' depends on axioms: [propext, Quot.sound]
'Scigo.Log.derived_loggers_lose' depends on axioms: [propext, Classical.choice, Quot.sound]
'Scigo.Log.one_logger_interleaves' depends on axioms: [propext, Quot.sound]
'Scigo.Persist.save_then_load' depends on axioms: [propext, Classical.choice, Quot.sound]
'Scigo.Persist.writer_then_reader' depends on axioms: [propext, Classical.choice, Quot.sound]
'Scigo.Persist.crash_never_wrong' depends on axioms: [propext, Classical.choice, Quot.sound]
'Scigo.Persist.save_reachable' depends on axioms: [propext, Classical.choice, Quot.sound]
'Scigo.Persist.exCodec_lawful' depends on axioms: [propext, Classical.choice, Quot.sound]
'Scigo.Persist.previous_model_partial' depends on axioms: [propext, Classical.choice, Quot.sound]
'Scigo.Persist.previous_model_lost' depends on axioms: [propext, Classical.choice, Quot.sound]
'Scigo.Persist.load_into_partial' depends on axioms: [propext, Classical.choice, Quot.sound]
'Scigo.Persist.load_keeps_old' depends on axioms: [propext, Classical.choice, Quot.sound]
'Scigo.Persist.truncated_file_partial' depends on axioms: [propext, Classical.choice, Quot.sound]
'Scigo.Persist.truncated_text_loads' depends on axioms: [propext, Classical.choice, Quot.sound]
'Scigo.Dataset.binary_partial' depends on axioms: [propext, Classical.choice, Quot.sound]
'Scigo.Dataset.binary_iff' depends on axioms: [propext, Quot.sound]
'Scigo.Dataset.binary_perm' depends on axioms: [propext, Classical.choice, Quot.sound]
'Scigo.Dataset.newDataset_binary' depends on axioms: [propext, Quot.sound]
'Scigo.Dataset.small_binary_missed' depends on axioms: [propext, Classical.choice, Quot.sound]
'Scigo.Dataset.subset_rows' depends on axioms: [propext, Quot.sound]
'Scigo.Dataset.subset_rejects' depends on axioms: [propext, Quot.sound]
'Scigo.Dataset.newDataset_consistent' depends on axioms: [propext, Classical.choice, Quot.sound]
'Scigo.Dataset.subset_subset' depends on axioms: [propext, Quot.sound]
'Scigo.Dataset.set_get_partial' depends on axioms: [propext, Classical.choice, Quot.sound]
'Scigo.Dataset.getField_reads' depends on axioms: [propext, Quot.sound]
'Scigo.Dataset.set_get_other' depends on axioms: [propext]
'Scigo.Dataset.set_data_ignored' depends on axioms: [propext]
'Scigo.Dataset.rejected_label_kept' depends on axioms: [propext]
'Scigo.Dataset.rejected_label_inconsistent' depends on axioms: [propext]
'Scigo.Dataset.valid_sets_listed' depends on axioms: [propext, Quot.sound]
'Scigo.Dataset.invalid_set_rejected' depends on axioms: [propext]
'Scigo.LGB.predictLeaf_leafNo' depends on axioms: [propext, Classical.choice, Quot.sound]
'Scigo.LGB.exTree_leaves' depends on axioms: [propext, Classical.choice, Quot.sound]
'Scigo.LGB.leaf_index_partial' depends on axioms: [propext, Classical.choice, Quot.sound]
'Scigo.LGB.same_leaf_index' depends on axioms: [propext, Classical.choice, Quot.sound]
'Scigo.LGB.leaf_index_reference' depends on axioms: [propext, Quot.sound]
'Scigo.LGB.leaf_index_text' depends on axioms: [propext, Classical.choice, Quot.sound]
'Scigo.Quick.task_iff' depends on axioms: [propext, Classical.choice, Quot.sound]
'Scigo.Quick.task_perm' depends on axioms: [propext, Classical.choice, Quot.sound]
'Scigo.Quick.non_integer_regression' depends on axioms: [propext, Quot.sound]
'Scigo.Quick.small_task_missed' depends on axioms: [propext, Classical.choice, Quot.sound]
'Scigo.Quick.autofit_best_partial' depends on axioms: [propext, Quot.sound]
'Scigo.Quick.autofit_no_model' depends on axioms: [propext, Quot.sound]
'Scigo.Quick.quickcv_summary_partial' depends on axioms: [propext, Quot.sound]
'Scigo.Quick.quickcv_training_score' depends on axioms: [propext, Classical.choice, Quot.sound]
'Scigo.Quick.quickcv_blind' depends on axioms: [propext, Classical.choice, Quot.sound]
'Scigo.Quick.quickcv_folds' depends on axioms: [propext, Quot.sound]
'Scigo.Quick.exchangeSort_spec' depends on axioms: [propext, Quot.sound]
'Scigo.Quick.top_features' depends on axioms: [propext, Classical.choice, Quot.sound]
'Scigo.Scores.tree_score_partial' depends on axioms: [propext, Classical.choice, Quot.sound]
'Scigo.Scores.nb_score_partial' depends on axioms: [propext, Classical.choice, Quot.sound]
'Scigo.Scores.sgd_score_partial' depends on axioms: [propext, Classical.choice, Quot.sound]
'Scigo.Scores.lgbm_score' depends on axioms: [propext, Classical.choice, Quot.sound]
'Scigo.Scores.tree_score_hides_error' depends on axioms: [propext, Quot.sound]
'Scigo.Scores.tree_score_short_labels' depends on axioms: [propext, Quot.sound]
'Scigo.Scores.sgd_score_truncates' depends on axioms: [propext, Classical.choice, Quot.sound]
'Scigo.Scores.sgd_score_prefix' depends on axioms: [propext, Classical.choice, Quot.sound]
'Scigo.Scores.sgd_regressor_score' depends on axioms: [propext, Classical.choice, Quot.sound]
'Scigo.Scores.linear_regression_score' depends on axioms: [propext, Classical.choice, Quot.sound]
'Scigo.Scores.lgbm_regressor_score' depends on axioms: [propext, Classical.choice, Quot.sound]
'Scigo.Scores.set_get_options' depends on axioms: [propext, Classical.choice, Quot.sound]
'Scigo.Scores.set_own_options' depends on axioms: [propext, Classical.choice, Quot.sound]
'Scigo.Scores.set_options_twice' depends on axioms: [propext]
'Scigo.Wrapper.trained_knows' depends on axioms: [propext, Classical.choice, Quot.sound]
'Scigo.Wrapper.predicts_known_classes' depends on axioms: [propext, Classical.choice, Quot.sound]
'Scigo.Wrapper.predicted_labels_were_seen' depends on axioms: [propext, Classical.choice, Quot.sound]
'Scigo.Wrapper.failed_fit_keeps_model_partial' depends on axioms: [propext]
'Scigo.Wrapper.one_class_refit_changes_predictions' depends on axioms: [propext, Classical.choice, Quot.sound]
'Scigo.Wrapper.predict_follows_proba' depends on axioms: [propext, Classical.choice, Quot.sound]
'Scigo.Wrapper.log_proba_of_proba' depends on axioms: [propext]
'Scigo.Wrapper.trained_probabilities' depends on axioms: [propext, Classical.choice, Quot.sound]
'Scigo.Wrapper.decision_values_positive' depends on axioms: [propext, Classical.choice, Quot.sound]
'Scigo.Wrapper.decision_values_raw_partial' depends on axioms: [propext, Classical.choice, Quot.sound]
'Scigo.Wrapper.labels_from_one_never_separate' depends on axioms: [propext, Classical.choice, Quot.sound]
'Scigo.Wrapper.zero_one_labels_partial' depends on axioms: [propext, Classical.choice, Quot.sound]
'Scigo.Wrapper.fitWeighted_trivial' depends on axioms: [propext, Classical.choice, Quot.sound]
'Scigo.Wrapper.fitWithInit_own' depends on axioms: [propext, Classical.choice, Quot.sound]
'Scigo.Wrapper.reg_fitWeighted_trivial_partial' depends on axioms: [propext, Classical.choice, Quot.sound]
'Scigo.Wrapper.reg_fitWeighted_trivial_partial' depends on axioms: [propext, Classical.choice, Quot.sound]
'Scigo.Wrapper.fit_ignores_boosting_type' depends on axioms: [propext, Classical.choice, Quot.sound]
'Scigo.Wrapper.classifier_fit_succeeds' depends on axioms: [propext, Classical.choice, Quot.sound]
'Scigo.Wrapper.trained_classifier_predicts' depends on axioms: [propext, Classical.choice, Quot.sound]
'Scigo.Wrapper.regressor_fit_succeeds' depends on axioms: [propext, Classical.choice, Quot.sound]
'Scigo.Wrapper.trained_regressor_predicts' depends on axioms: [propext, Classical.choice, Quot.sound]
'Scigo.Wrapper.reg_failed_fit_keeps_model_partial' depends on axioms: [propext, Classical.choice, Quot.sound]
'Scigo.Wrapper.failed_refit_disables_regressor' depends on axioms: [propext, Classical.choice, Quot.sound]
'Scigo.Wrapper.quantiles_ordered_partial' depends on axioms: [propext, Classical.choice, Quot.sound]
'Scigo.Wrapper.quantiles_cross' depends on axioms: [propext, Classical.choice, Quot.sound]
'Scigo.Wrapper.residual_identities' depends on axioms: [propext, Quot.sound]
'Scigo.Wrapper.failed_load_keeps_classifier' does not depend on any axioms
'Scigo.Wrapper.loaders_agree_partial' depends on axioms: [propext, Quot.sound]
'Scigo.Wrapper.load_keeps_stale_classes' depends on axioms: [propext, Classical.choice, Quot.sound]
'Scigo.Wrapper.reloaded_labels_are_positions' depends on axioms: [propext, Classical.choice, Quot.sound]
'Scigo.Online.sgd_regressor_answers_partial' depends on axioms: [propext, Classical.choice, Quot.sound]
'Scigo.Online.pa_answers_partial' depends on axioms: [propext, Classical.choice, Quot.sound]
'Scigo.Online.paClf_answers_partial' depends on axioms: [propext, Classical.choice, Quot.sound]
'Scigo.Online.sgdClf_answers_partial' depends on axioms: [propext, Classical.choice, Quot.sound]
'Scigo.Online.warm_fit_wider_panics' depends on axioms: [propext, Classical.choice, Quot.sound]
'Scigo.Online.empty_classes_panic' depends on axioms: [propext, Classical.choice, Quot.sound]
'Scigo.Online.sgd_regressor_trains_partial' depends on axioms: [propext, Classical.choice, Quot.sound]
'Scigo.Online.pa_trains_partial' depends on axioms: [propext, Classical.choice, Quot.sound]
'Scigo.Online.paClf_trains_partial' depends on axioms: [propext, Classical.choice, Quot.sound]
'Scigo.Online.sgdClf_trains_partial' depends on axioms: [propext, Classical.choice, Quot.sound]
'Scigo.Online.warm_fit_wider_panics' depends on axioms: [propext, Classical.choice, Quot.sound]
'Scigo.Online.sgdClf_fit_forgets' depends on axioms: [propext]
'Scigo.Online.pa_fit_forgets' depends on axioms: [propext]
'Scigo.Online.paClf_fit_forgets' depends on axioms: [propext]
'Scigo.Online.pa_partialFit_split' depends on axioms: [propext, Quot.sound]
'Scigo.Online.paClf_partialFit_split_partial' depends on axioms: [propext, Quot.sound]
'Scigo.Online.sgdClf_partialFit_split_partial' depends on axioms: [propext, Quot.sound]
'Scigo.Online.paClf_split_false' depends on axioms: [propext, Classical.choice, Quot.sound]
'Scigo.Online.paClf_classes' depends on axioms: [propext, Quot.sound]
'Scigo.Online.sgdClf_classes' depends on axioms: [propext, Quot.sound]
'Scigo.Online.paClf_classes_stay' depends on axioms: [propext, Quot.sound]
'Scigo.Online.sgdClf_classes_stay' depends on axioms: [propext, Quot.sound]
'Scigo.Online.paClf_unknown_batch' depends on axioms: [propext, Quot.sound]
'Scigo.Online.sgdClf_unknown_batch' depends on axioms: [propext, Quot.sound]
'Scigo.Online.paClf_predict_greatest' depends on axioms: [propext, Quot.sound]
'Scigo.Logistic.lr_fit_accepts' depends on axioms: [propext, Classical.choice, Quot.sound]
'Scigo.Logistic.lr_unknown_penalty_ignored' depends on axioms: [propext, Quot.sound]
'Scigo.Api.param_used_partial' depends on axioms: [propext, Quot.sound]
'Scigo.Api.param_default_partial' depends on axioms: [propext]
'Scigo.Api.param_documented_partial' depends on axioms: [propext]
'Scigo.Api.param_only_partial' depends on axioms: [propext]
'Scigo.Api.param_dropped' depends on axioms: [propext, Classical.choice, Quot.sound]
'Scigo.Api.l2_score_partial' depends on axioms: [propext, Classical.choice, Quot.sound]
'Scigo.Api.l1_score_partial' depends on axioms: [propext, Classical.choice, Quot.sound]
'Scigo.Api.classification_score' depends on axioms: [propext, Classical.choice, Quot.sound]
'Scigo.Api.metric_mislabelled' depends on axioms: [propext, Classical.choice, Quot.sound]
'Scigo.Api.other_classes_never_right' depends on axioms: [propext, Classical.choice, Quot.sound]
'Scigo.Api.score_always_zero' depends on axioms: [propext, Classical.choice, Quot.sound]
'Scigo.Api.failed_metric_zero' depends on axioms: [propext, Classical.choice, Quot.sound]
'Scigo.Api.direction_partial' depends on axioms: [propext, Quot.sound]
'Scigo.Api.direction_wrong' depends on axioms: [propext, Classical.choice, Quot.sound]
'Scigo.Api.quick_keeps_partial' depends on axioms: [propext, Quot.sound]
'Scigo.Api.quick_keeps_others_partial' depends on axioms: [propext]
'Scigo.Api.quick_overwrites' depends on axioms: [propext, Classical.choice, Quot.sound]
'Scigo.Api.quick_binary_partial' depends on axioms: [propext, Classical.choice, Quot.sound]
'Scigo.Api.quick_columns_partial' depends on axioms: [propext, Classical.choice, Quot.sound]
'Scigo.Api.quick_classes_missed' depends on axioms: [propext, Classical.choice, Quot.sound]
'Scigo.Api.quick_rounds_panic' depends on axioms: [propext, Quot.sound]
'Scigo.Api.callback_order' depends on axioms: [propext, Classical.choice, Quot.sound]
'Scigo.Api.callback_list' depends on axioms: [propext, Quot.sound]
'Scigo.Api.should_stop_partial' depends on axioms: [propext, Classical.choice, Quot.sound]
'Scigo.Api.early_stop_before_ignored' depends on axioms: [propext, Quot.sound]
'Scigo.Api.early_stop_after_fails' depends on axioms: [propext, Classical.choice, Quot.sound]
'Scigo.Api.record_complete' depends on axioms: [propext, Classical.choice, Quot.sound]
'Scigo.Api.record_nothing_else' depends on axioms: [propext, Classical.choice, Quot.sound]
'Scigo.Api.print_lines_partial' depends on axioms: [propext, Classical.choice, Quot.sound]
'Scigo.Api.print_last_wrong' depends on axioms: [propext, Classical.choice, Quot.sound]
'Scigo.Api.reset_no_effect' depends on axioms: [propext]
'Scigo.Api.reset_map_partial' depends on axioms: [propext, Classical.choice, Quot.sound]
'Scigo.LGB.dump_shows_nodes' depends on axioms: [propext, Classical.choice, Quot.sound]
'Scigo.LGB.dump_predicts_partial' depends on axioms: [propext, Classical.choice, Quot.sound]
'Scigo.LGB.dump_loses_categories' depends on axioms: [propext, Classical.choice, Quot.sound]
'Scigo.LGB.dump_loses_leaf_values' depends on axioms: [propext, Classical.choice, Quot.sound]
'Scigo.LGB.json_file_raw_partial' depends on axioms: [propext, Classical.choice, Quot.sound]
'Scigo.LGB.json_file_wrong_tree' depends on axioms: [propext, Classical.choice, Quot.sound]
'Scigo.LGB.json_file_init_score' depends on axioms: [propext, Classical.choice, Quot.sound]
'Scigo.LGB.json_file_constant_tree' depends on axioms: [propext, Classical.choice, Quot.sound]
'Scigo.LGB.json_file_missing_values' depends on axioms: [propext]
'Scigo.LGB.json_file_refused_iff' depends on axioms: [propext, Classical.choice, Quot.sound]
'Scigo.LGB.leaf_number_partial' depends on axioms: [propext, Classical.choice, Quot.sound]
'Scigo.LGB.json_leaf_number_partial' depends on axioms: [propext, Classical.choice, Quot.sound]
'Scigo.LGB.leaf_number_shared' depends on axioms: [propext, Classical.choice, Quot.sound]
'Scigo.LGB.leaf_number_missing' depends on axioms: [propext]
'Scigo.LGB.raw_score_eq_partial' depends on axioms: [propext, Classical.choice, Quot.sound]
'Scigo.LGB.raw_score_init_multiclass' depends on axioms: [propext, Classical.choice, Quot.sound]
'Scigo.Trainer.Callbacks.callbacks_trees' depends on axioms: [propext, Quot.sound]
'Scigo.Trainer.Callbacks.callbacks_stop' depends on axioms: [propext, Quot.sound]
'Scigo.Trainer.Callbacks.callbacks_see' depends on axioms: [propext, Quot.sound]
'Scigo.Trainer.Callbacks.schedule_no_effect' depends on axioms: [propext, Quot.sound]
'Scigo.Trainer.Callbacks.schedule_zero_steps' depends on axioms: [propext, Quot.sound]
'Scigo.Trainer.Callbacks.schedule_seen_partial' depends on axioms: [propext, Classical.choice, Quot.sound]
'Scigo.Trainer.Callbacks.reset_parameter_partial' depends on axioms: [propext, Quot.sound]
'Scigo.Trainer.Callbacks.reset_parameter_no_model' depends on axioms: [propext]
'Scigo.Trainer.Callbacks.time_limit' depends on axioms: [propext, Quot.sound]
'Scigo.Trainer.Callbacks.print_lines_partial' depends on axioms: [propext, Classical.choice, Quot.sound]
'Scigo.Trainer.Callbacks.print_twice' depends on axioms: [propext]
'Scigo.Trainer.Callbacks.print_zero_panics' depends on axioms: [propext, Quot.sound]
'Scigo.Trainer.Callbacks.checkpoint_files' depends on axioms: [propext, Classical.choice, Quot.sound]
'Scigo.Trainer.Callbacks.checkpoint_disk_error' depends on axioms: [propext, Quot.sound]
'Scigo.Trainer.Callbacks.checkpoint_improved_partial' depends on axioms: [propext, Classical.choice, Quot.sound]
'Scigo.Trainer.Callbacks.checkpoint_wrong_model' depends on axioms: [propext, Quot.sound]
'Scigo.BaseEst.estimators_apart_partial' depends on axioms: [propext, Classical.choice, Quot.sound]
'Scigo.BaseEst.clone_shows_same' depends on axioms: [propext, Classical.choice, Quot.sound]
'Scigo.BaseEst.clone_shares_references' depends on axioms: [propext]
'Scigo.BaseEst.getParams_shows' depends on axioms: [propext, Quot.sound]
'Scigo.BaseEst.shallow_params_live' depends on axioms: [propext, Classical.choice, Quot.sound]
'Scigo.BaseEst.detached_params' depends on axioms: [propext, Classical.choice, Quot.sound]
'Scigo.BaseEst.setParams_merges' depends on axioms: [propext, Classical.choice, Quot.sound]
'Scigo.BaseEst.export_spec' depends on axioms: [propext, Classical.choice, Quot.sound]
'Scigo.BaseEst.hash_of_view' depends on axioms: [propext, Quot.sound]
'Scigo.BaseEst.import_accepts' depends on axioms: [propext, Quot.sound]
'Scigo.BaseEst.import_effect' depends on axioms: [propext, Classical.choice, Quot.sound]
'Scigo.BaseEst.export_import_copies_partial' depends on axioms: [propext, Classical.choice, Quot.sound]
'Scigo.BaseEst.import_keeps_old_params' depends on axioms: [propext]
'Scigo.BaseEst.import_never_unfits' depends on axioms: [propext, Quot.sound]
'Scigo.Eval.regression_report_ok_iff' depends on axioms: [propext, Classical.choice, Quot.sound]
'Scigo.Eval.regression_report_entries' depends on axioms: [propext, Classical.choice, Quot.sound]
'Scigo.Eval.classification_report' depends on axioms: [propext, Classical.choice, Quot.sound]
'Scigo.Eval.report_totals' depends on axioms: [propext, Classical.choice, Quot.sound]
'Scigo.Eval.classification_report_ok' depends on axioms: [propext, Classical.choice, Quot.sound]
'Scigo.StreamPipe.pipeline_order' depends on axioms: [propext, Classical.choice, Quot.sound]
'Scigo.StreamPipe.pipeline_complete' depends on axioms: [propext, Classical.choice, Quot.sound]
'Scigo.StreamPipe.pipeline_run_ahead' depends on axioms: [propext, Classical.choice, Quot.sound]
'Scigo.StreamPipe.pipeline_finishes' depends on axioms: [propext, Classical.choice, Quot.sound]
'Scigo.StreamPipe.pipeline_step_lowers' depends on axioms: [propext, Classical.choice, Quot.sound]
'Scigo.StreamPipe.pipeline_nil_kills' depends on axioms: [propext]
'Scigo.StreamPipe.stages_in_order' depends on axioms: [propext, Quot.sound]
'Scigo.StreamPipe.pipeline_counters' depends on axioms: [propext, Classical.choice, Quot.sound]
'Scigo.StreamPipe.pipeline_counters_final' depends on axioms: [propext, Classical.choice, Quot.sound]
'Scigo.StreamPipe.bytes_exact_partial' depends on axioms: [propext, Quot.sound]
'Scigo.StreamPipe.bytes_overflow_missed' depends on axioms: [propext]
'Scigo.Chunked.process_ignores_data' depends on axioms: [propext, Quot.sound]
'Scigo.Chunked.process_negative_panics' does not depend on any axioms
'Scigo.Chunked.chunks_partial' depends on axioms: [propext, Quot.sound]
'Scigo.CV.cv_regression_scores_partial' depends on axioms: [propext, Quot.sound]
'Scigo.CV.cv_logloss_score_partial' depends on axioms: [propext, Classical.choice, Quot.sound]
'Scigo.CV.cv_logloss_arguments' depends on axioms: [propext, Quot.sound]
'Scigo.CV.cv_accuracy_score_partial' depends on axioms: [propext, Classical.choice, Quot.sound]
'Scigo.CV.cv_score_panics' does not depend on any axioms
'Scigo.CV.cv_metric_used' depends on axioms: [propext, Classical.choice, Quot.sound]
'Scigo.CV.cv_unknown_is_mse' depends on axioms: [propext, Quot.sound]
'Scigo.CV.cv_r2_prefers_worst' depends on axioms: [propext, Quot.sound]
'Scigo.CV.cv_accuracy_misses_classes' depends on axioms: [propext, Classical.choice, Quot.sound]
'Scigo.CV.cv_mean' depends on axioms: [propext, Classical.choice, Quot.sound]
'Scigo.CV.cv_std' depends on axioms: [propext, Classical.choice, Quot.sound]
'Scigo.CV.cv_regressor_fold_partial' depends on axioms: [propext, Classical.choice, Quot.sound]
'Scigo.CV.cv_classifier_fold_partial' depends on axioms: [propext, Classical.choice, Quot.sound]
'Scigo.CV.cv_regressor_drops_params' does not depend on any axioms
'Scigo.CV.cv_quantile_is_median' depends on axioms: [propext, Classical.choice, Quot.sound]
'Scigo.CV.cv_classifier_ignores_labels' depends on axioms: [propext, Quot.sound]
'Scigo.CV.cv_multiclass_default' depends on axioms: [propext, Classical.choice, Quot.sound]
'Scigo.Warn.warnings_delivered' depends on axioms: [propext]
'Scigo.Warn.warn_step_lowers' depends on axioms: [propext, Quot.sound]
'Scigo.Warn.warn_progress_partial' depends on axioms: [propext]
'Scigo.Warn.reentrant_handler_blocks' depends on axioms: [propext]
'Scigo.Warn.zerolog_takes_all' depends on axioms: [propext]
'Scigo.GC.gc_rate_limited' depends on axioms: [propext, Classical.choice, Quot.sound]
'Scigo.GC.gc_stopped' depends on axioms: [propext, Quot.sound]
'Scigo.GC.gc_monitors_end_partial' depends on axioms: [propext, Quot.sound]
'Scigo.GC.gc_stop_does_not_restore' depends on axioms: [propext]
'Scigo.GC.gc_avg_pause' depends on axioms: [propext]
'Scigo.GC.gc_collects_iff' depends on axioms: [propext, Classical.choice, Quot.sound]
'Scigo.GC.peak_at_most' depends on axioms: [propext, Classical.choice, Quot.sound]
'Scigo.GC.peak_exact_partial' depends on axioms: [propext, Quot.sound]
'Scigo.GC.peak_missed' does not depend on any axioms
'Scigo.GC.reuse_rate_unbounded' depends on axioms: [propext, Quot.sound]
'Scigo.Api.callback_error_fails' depends on axioms: [propext, Quot.sound]
'Scigo.LGB.text_model_loaded_partial' depends on axioms: [propext, Classical.choice, Quot.sound]
'Scigo.LGB.three_blank_lines_rejected' depends on axioms: [propext, Classical.choice, Quot.sound]
'Scigo.LGB.text_init_score' depends on axioms: [propext, Classical.choice, Quot.sound]
'Scigo.LGB.missing_trees_rejected_partial' depends on axioms: [propext, Classical.choice, Quot.sound]
'Scigo.LGB.cut_file_loads' depends on axioms: [propext, Classical.choice, Quot.sound]
'Scigo.LGB.cut_file_predict_panics' depends on axioms: [propext, Classical.choice, Quot.sound]
'Scigo.LGB.cut_file_panics' depends on axioms: [propext, Classical.choice, Quot.sound]
'Scigo.LGB.saved_estimator_load_panics' depends on axioms: [propext, Classical.choice, Quot.sound]
'Scigo.LGB.saved_constant_partial' depends on axioms: [propext, Classical.choice, Quot.sound]
'Scigo.LGB.loader_file_partial' depends on axioms: [propext, Classical.choice, Quot.sound]
'Scigo.LGB.loader_constant_zero' depends on axioms: [propext]
'Scigo.LGB.unseparated_tree_dropped' depends on axioms: [propext, Classical.choice, Quot.sound]
'Scigo.LGB.importance_changes_header' depends on axioms: [propext, Classical.choice, Quot.sound]
'Scigo.LGB.long_line_rejected' depends on axioms: [propext, Classical.choice, Quot.sound]
'Scigo.LGB.split_importance' depends on axioms: [propext, Classical.choice, Quot.sound]
'Scigo.LGB.gain_importance' depends on axioms: [propext, Classical.choice, Quot.sound]
'Scigo.LGB.unknown_importance' depends on axioms: [propext, Quot.sound]
'Scigo.LGB.bad_feature_importance_panics' depends on axioms: [propext, Classical.choice, Quot.sound]
'Scigo.LGB.importance_tree_order' depends on axioms: [propext, Classical.choice, Quot.sound]
'Scigo.Trainer.layout_splits' depends on axioms: [propext, Quot.sound]
'Scigo.Trainer.trained_splits' depends on axioms: [propext, Classical.choice, Quot.sound]
'Scigo.Trainer.trained_importance' depends on axioms: [propext, Classical.choice, Quot.sound]
'Scigo.Boost.answers_from' depends on axioms: [propext, Quot.sound]
'Scigo.Boost.model_given_last_partial' depends on axioms: [propext, Quot.sound]
'Scigo.Boost.set_model_ignored' does not depend on any axioms
'Scigo.Boost.loaded_variants' depends on axioms: [propext, Quot.sound]
'Scigo.Boost.trained_variants' depends on axioms: [propext, Quot.sound]
'Scigo.Boost.loaded_raw_score_partial' depends on axioms: [propext, Quot.sound]
'Scigo.Boost.loaded_raw_score_wrong' depends on axioms: [propext, Classical.choice, Quot.sound]
'Scigo.Boost.current_iteration_partial' depends on axioms: [propext, Quot.sound]
'Scigo.Boost.update_trains_nothing' does not depend on any axioms
'Scigo.Boost.set_model_keeps_counters' does not depend on any axioms
'Scigo.Boost.num_trees_of_last' depends on axioms: [propext, Quot.sound]
'Scigo.Boost.counters_without_init' depends on axioms: [propext, Classical.choice, Quot.sound]
'Scigo.Boost.eval_results_partial' depends on axioms: [propext, Quot.sound]
'Scigo.Boost.eval_results_mixed' depends on axioms: [propext, Classical.choice, Quot.sound]
'Scigo.Boost.evalKey_inj' depends on axioms: [propext]
'Scigo.Trainer.validation_fit_partial' depends on axioms: [propext, Classical.choice, Quot.sound]
'Scigo.Trainer.validation_ignores' depends on axioms: [propext, Classical.choice, Quot.sound]
'Scigo.Trainer.validation_differs' depends on axioms: [propext, Classical.choice, Quot.sound]
'Scigo.Trainer.validation_score' depends on axioms: [propext, Classical.choice, Quot.sound]
'Scigo.Trainer.validation_score_partial' depends on axioms: [propext, Classical.choice, Quot.sound]
'Scigo.Trainer.zero_weight_score' depends on axioms: [propext, Classical.choice, Quot.sound]
'Scigo.Trainer.validation_score_errors' depends on axioms: [propext, Quot.sound]
'Scigo.Trainer.binary_validation_inverted' depends on axioms: [propext, Classical.choice, Quot.sound]
'Scigo.Settings.tree_params_accepted' depends on axioms: [propext, Classical.choice, Quot.sound]
'Scigo.Settings.tree_params_round_trip' depends on axioms: [propext, Classical.choice, Quot.sound]
'Scigo.Settings.tree_params_refused_partial' depends on axioms: [propext, Classical.choice, Quot.sound]
'Scigo.Settings.tree_params_refused_false' depends on axioms: [propext, Classical.choice, Quot.sound]
'Scigo.Settings.max_leaf_nodes_partial' depends on axioms: [propext, Classical.choice, Quot.sound]
'Scigo.Settings.max_leaf_nodes_false' depends on axioms: [propext, Classical.choice, Quot.sound]
'Scigo.Settings.pipe_own_params' depends on axioms: [propext, Classical.choice, Quot.sound]
'Scigo.Settings.pipe_step_params' depends on axioms: [propext, Classical.choice, Quot.sound]
'Scigo.Settings.pipe_unambiguous' depends on axioms: [propext, Quot.sound]
'Scigo.Settings.pipe_params_collide' depends on axioms: [propext, Classical.choice, Quot.sound]
'Scigo.Settings.pipe_set_partial' depends on axioms: [propext, Classical.choice, Quot.sound]
'Scigo.Settings.pipe_set_false' depends on axioms: [propext, Classical.choice, Quot.sound]
'Scigo.Quick.quick_train_score' depends on axioms: [propext]
'Scigo.Quick.quick_train_failed' depends on axioms: [propext]
'Scigo.Quick.quick_train_fitted' depends on axioms: [propext]
'Scigo.Quick.load_and_predict_partial' depends on axioms: [propext, Quot.sound]
'Scigo.Quick.load_and_predict_wrong_kind' depends on axioms: [propext, Quot.sound]
'Scigo.Quick.benchmark_calls_partial' depends on axioms: [propext, Quot.sound]
'Scigo.Quick.benchmark_times_errors' depends on axioms: [propext, Classical.choice, Quot.sound]
'Scigo.Own.attributes_safe' depends on axioms: [propext, Quot.sound]
'Scigo.Own.results_are_snapshots' depends on axioms: [propext, Quot.sound]
'Scigo.Own.accessor_reports' depends on axioms: [propext, Quot.sound]
'Scigo.Own.handed_over_partial' depends on axioms: [propext, Quot.sound]
'Scigo.Own.class_prior_is_live' depends on axioms: [propext, Quot.sound]
'Scigo.Online.sgdReg_reproducible' depends on axioms: [propext, Quot.sound]
'Scigo.Online.sgdClf_reproducible' depends on axioms: [propext, Classical.choice, Quot.sound]
'Scigo.Online.reg_fit_refines' depends on axioms: [propext, Quot.sound]
'Scigo.KMeans.kmeans_reproducible' depends on axioms: [propext, Quot.sound]
'Scigo.Online.clf_fit_refines' depends on axioms: [propext, Quot.sound]
'Scigo.Online.reg_partialFit_draws' depends on axioms: [propext, Classical.choice, Quot.sound]
'Scigo.Online.clf_partialFit_draws' depends on axioms: [propext, Quot.sound]
'Scigo.Online.sgdReg_refit_partial' depends on axioms: [propext, Quot.sound]
'Scigo.Online.sgdClf_refit_partial' depends on axioms: [propext, Quot.sound]
'Scigo.Online.sgdReg_refit_differs' depends on axioms: [propext]
'Scigo.KMeans.kmeans_refit_partial' depends on axioms: [propext]
'Scigo.KMeans.kmeans_refit_differs' depends on axioms: [propext, Classical.choice, Quot.sound]
'Scigo.CV.stratified_seed_partial' depends on axioms: [propext, Classical.choice, Quot.sound]
'Scigo.CV.stratified_seed_ignored' depends on axioms: [propext, Classical.choice, Quot.sound]
'Scigo.CV.kfold_seeded' depends on axioms: [propext, Classical.choice, Quot.sound]
'Scigo.CV.stratified_seeded_partition' depends on axioms: [propext, Classical.choice, Quot.sound]
'Scigo.CV.shuffled_classes' depends on axioms: [propext, Quot.sound]
'Scigo.Logistic.logistic_seed_partial' depends on axioms: [propext, Classical.choice, Quot.sound]
'Scigo.Logistic.logistic_seed_ignored' depends on axioms: [propext, Quot.sound]
'Scigo.Logistic.initial_weights_in_order' depends on axioms: [propext]
'Scigo.Trainer.train_reproducible_partial' depends on axioms: [propext, Classical.choice, Quot.sound]
'Scigo.Trainer.train_clock' depends on axioms: [propext, Classical.choice, Quot.sound]
'Scigo.Trainer.bagging_mode' depends on axioms: [propext]
'Scigo.Trainer.draws_among_the_rest' depends on axioms: [propext, Quot.sound]
'Scigo.Trainer.seed_decides' depends on axioms: [propext, Quot.sound]
'Scigo.Trainer.goss_fresh_partial' depends on axioms: [propext]
'Scigo.Trainer.goss_ranks_repeat' depends on axioms: [propext, Quot.sound]
'Scigo.Boost.objective_by_name' depends on axioms: [propext, Classical.choice, Quot.sound]
'Scigo.Boost.tweediePower_range' depends on axioms: [propext, Quot.sound]
'Scigo.EFB.bundles_greedy' depends on axioms: [propext, Classical.choice, Quot.sound]
'Scigo.Options.sgd_regressor_reports' depends on axioms: [propext, Classical.choice, Quot.sound]
'Scigo.Options.sgd_classifier_reports' depends on axioms: [propext, Classical.choice, Quot.sound]
'Scigo.Options.pa_regressor_reports' depends on axioms: [propext, Classical.choice, Quot.sound]
'Scigo.Options.pa_classifier_reports' depends on axioms: [propext, Classical.choice, Quot.sound]
'Scigo.Options.logistic_reports' depends on axioms: [propext, Classical.choice, Quot.sound]
'Scigo.Options.linear_reports' depends on axioms: [propext, Classical.choice, Quot.sound]
'Scigo.Options.tree_reports' depends on axioms: [propext, Classical.choice, Quot.sound]
'Scigo.Options.kmeans_options' depends on axioms: [propext, Quot.sound]
'Scigo.Options.drift_options' depends on axioms: [propext, Classical.choice, Quot.sound]
'Scigo.Options.nb_options' depends on axioms: [propext, Quot.sound]
'Scigo.Options.nb_prior_dropped' depends on axioms: [propext, Quot.sound]
'Scigo.Options.nb_prior_kept' depends on axioms: [propext, Quot.sound]
'Scigo.LGB.predict_leaf_entries' depends on axioms: [propext, Classical.choice, Quot.sound]
'Scigo.LGB.predict_leaf_index_entries' depends on axioms: [propext, Classical.choice, Quot.sound]
'Scigo.LGB.predict_leaf_no_trees' depends on axioms: [propext, Quot.sound]
'Scigo.LGB.leaf_numbers_agree_partial' depends on axioms: [propext, Classical.choice, Quot.sound]
'Scigo.LGB.leaf_numbers_differ' depends on axioms: [propext, Classical.choice, Quot.sound]
'Scigo.LGB.leaf_numbers_tolerance' depends on axioms: [propext, Classical.choice, Quot.sound]
'Scigo.Trainer.trained_leaf_numbers_partial' depends on axioms: [propext, Classical.choice, Quot.sound]
'Scigo.Online.reg_iterations_losses' depends on axioms: [propext, Classical.choice, Quot.sound]
'Scigo.Online.reg_fit_reports_partial' depends on axioms: [propext, Classical.choice, Quot.sound]
'Scigo.Online.reg_history_grows' depends on axioms: [propext, Classical.choice, Quot.sound]
'Scigo.Online.clf_iterations_partial' depends on axioms: [propext, Quot.sound]
'Scigo.Online.clf_partialFit_not_counted' depends on axioms: [propext]
'Scigo.Online.converged_is_stale' depends on axioms: [propext, Classical.choice, Quot.sound]
'Scigo.State.Nested.callback_exclusive' depends on axioms: [propext, Quot.sound]
'Scigo.State.Nested.withStateMut_never_returns' depends on axioms: [propext, Classical.choice, Quot.sound]
'Scigo.State.Nested.withState_setter_never_returns' depends on axioms: [propext, Quot.sound]
'Scigo.State.Nested.withState_getter_may_deadlock' depends on axioms: [propext]
'Scigo.State.Nested.callbacks_progress_partial' depends on axioms: [propext, Quot.sound]
'Scigo.State.Nested.nested_reads_progress_partial' depends on axioms: [propext, Quot.sound]
'Scigo.State.Nested.callbacks_terminate' depends on axioms: [propext, Quot.sound]
'Scigo.Trainer.binning_panics_iff' depends on axioms: [propext, Classical.choice, Quot.sound]
'Scigo.Trainer.findBin_upper' depends on axioms: [propext, Quot.sound]
'Scigo.Trainer.node_histogram' depends on axioms: [propext, Classical.choice, Quot.sound]
'Scigo.Trainer.subtract_sibling' depends on axioms: [propext, Classical.choice, Quot.sound]
'Scigo.LGB.Path.clean_same_place' depends on axioms: [propext, Quot.sound]
'Scigo.LGB.Path.clean_idempotent' depends on axioms: [propext, Quot.sound]
'Scigo.LGB.Path.checked_inside_partial' depends on axioms: [propext, Quot.sound]
'Scigo.LGB.Path.opened_iff' depends on axioms: [propext, Quot.sound]
'Scigo.LGB.Path.loadFromFile_escapes' depends on axioms: [propext]
'Scigo.LGB.Path.absolute_opened' depends on axioms: [propext, Quot.sound]
'Scigo.LGB.Path.harmless_refused' depends on axioms: [propext, Quot.sound]
'Scigo.LGB.Path.autoDetect_clean' depends on axioms: [propext, Quot.sound]
'Scigo.LGB.Path.autoDetect_uneven' depends on axioms: [propext, Quot.sound]
'Scigo.LGB.Path.json_model_iff' depends on axioms: [propext, Quot.sound]
'Scigo.Hist.Cache.cache_sound_partial' depends on axioms: [Quot.sound]
'Scigo.Hist.Cache.cache_exact_partial' depends on axioms: [Quot.sound]
'Scigo.Hist.Cache.cache_returns' does not depend on any axioms
'Scigo.Hist.Cache.cache_is_stale' does not depend on any axioms
'Scigo.Hist.Cache.clear_refreshes' does not depend on any axioms
'Scigo.Hist.Cache.clear_is_overtaken' does not depend on any axioms
'Scigo.LGB.multiclass_probabilities' depends on axioms: [propext, Classical.choice, Quot.sound]
'Scigo.LGB.model_predict_multiclass' depends on axioms: [propext, Classical.choice, Quot.sound]
'Scigo.LGB.multiclass_order_partial' depends on axioms: [propext, Classical.choice, Quot.sound]
'Scigo.LGB.multiclass_wrong_for_large_gaps' depends on axioms: [propext, Classical.choice, Quot.sound]
'Scigo.Trainer.early_stopping_ignored_partial' depends on axioms: [propext, Classical.choice, Quot.sound]
'Scigo.Trainer.early_stopping_never_stops' depends on axioms: [propext, Classical.choice, Quot.sound]
'Scigo.Trainer.early_stopping_no_effect_witness' depends on axioms: [propext, Classical.choice, Quot.sound]
'Scigo.Hist.settings_positive' depends on axioms: [propext, Quot.sound]
'Scigo.Hist.setters' depends on axioms: [propext, Quot.sound]
'Scigo.Hist.parallel_is_sequential' depends on axioms: [propext, Classical.choice, Quot.sound]
'Scigo.Hist.parallel_returns' depends on axioms: [propext, Classical.choice, Quot.sound]
'Scigo.Hist.settings_irrelevant' depends on axioms: [propext, Classical.choice, Quot.sound]
'Scigo.Hist.no_worker_builds_nothing' depends on axioms: [propext, Classical.choice, Quot.sound]
'Scigo.EFB.beneficial_iff' depends on axioms: [propext, Classical.choice, Quot.sound]
'Scigo.EFB.beneficial_sparse_column_partial' depends on axioms: [propext, Classical.choice, Quot.sound]
'Scigo.EFB.efb_setters' depends on axioms: [propext, Quot.sound]
'Scigo.EFB.beneficial_without_bundles' depends on axioms: [propext, Classical.choice, Quot.sound]
'Scigo.EFB.bundles_without_benefit' depends on axioms: [propext, Classical.choice, Quot.sound]
'Scigo.Shap.shap_rows' depends on axioms: [propext, Classical.choice, Quot.sound]
'Scigo.Shap.shap_row_local' depends on axioms: [propext, Classical.choice, Quot.sound]
'Scigo.Shap.interactions_rows' depends on axioms: [propext, Classical.choice, Quot.sound]
'Scigo.Shap.predictSHAP_fitted' depends on axioms: [propext, Quot.sound]
'Scigo.Shap.predictSHAP_returns_partial' depends on axioms: [propext, Classical.choice, Quot.sound]
'Scigo.Shap.narrow_matrix_explained' depends on axioms: [propext, Classical.choice, Quot.sound]
'Scigo.LGB.simple_sigmoid_value' depends on axioms: [propext, Classical.choice, Quot.sound]
'Scigo.LGB.stable_sigmoid_value' depends on axioms: [propext, Classical.choice, Quot.sound]
'Scigo.LGB.simple_predict_link' depends on axioms: [propext, Classical.choice, Quot.sound]
'Scigo.Wrapper.logloss_proba' depends on axioms: [propext, Classical.choice, Quot.sound]
'Scigo.LGB.predictor_best_partial' depends on axioms: [propext, Quot.sound]
'Scigo.LGB.best_iteration_cuts_classes' depends on axioms: [propext, Classical.choice, Quot.sound]
'Scigo.ParamMap.objective_validated' depends on axioms: [propext]
'Scigo.ParamMap.validated_is_trained_partial' depends on axioms: [propext, Classical.choice, Quot.sound]
'Scigo.ParamMap.mape_not_trained' depends on axioms: [propext, Classical.choice, Quot.sound]
'Scigo.ParamMap.logistic_not_validated' depends on axioms: [propext, Classical.choice, Quot.sound]
'Scigo.ParamMap.json_objective' depends on axioms: [propext]
'Scigo.ParamMap.json_disagrees' does not depend on any axioms
'Scigo.ParamMap.snake_case_words' depends on axioms: [propext, Classical.choice, Quot.sound]
'Scigo.ParamMap.default_of_name' depends on axioms: [propext]
'Scigo.ParamMap.defaults_applied' depends on axioms: [propext, Quot.sound]
'Scigo.ParamMap.boosting_names' depends on axioms: [propext]
'Scigo.Log.record_partial' depends on axioms: [propext]
'Scigo.Log.error_key_lost' depends on axioms: [propext]
'Scigo.Log.odd_argument_dropped' depends on axioms: [propext]
'Scigo.Shap.interaction_value' depends on axioms: [propext, Classical.choice, Quot.sound]
'Scigo.Shap.interaction_nonneg' depends on axioms: [propext, Classical.choice, Quot.sound]
'Scigo.Shap.no_common_tree' depends on axioms: [propext, Classical.choice, Quot.sound]
'Scigo.Shap.interaction_rows_partial' depends on axioms: [propext, Classical.choice, Quot.sound]
'Scigo.Shap.interaction_rows_not_additive' depends on axioms: [propext, Classical.choice, Quot.sound]
'Scigo.Hist.categorical_split_optimal_partial' depends on axioms: [propext, Classical.choice, Quot.sound]
'Scigo.Hist.l2_order_not_optimal' depends on axioms: [propext, Classical.choice, Quot.sound]
'Scigo.Hist.min_data_not_optimal' depends on axioms: [propext, Classical.choice, Quot.sound]
'Scigo.Trainer.categorical_search_partial' depends on axioms: [propext, Classical.choice, Quot.sound]
'Scigo.Trainer.categories_of_split_differ' depends on axioms: [propext, Classical.choice, Quot.sound]
'Scigo.Linear.same_weights_same_hash' depends on axioms: [propext, Classical.choice, Quot.sound]
'Scigo.Linear.hash_tells_weights_apart_partial' depends on axioms: [propext, Quot.sound]
'Scigo.Linear.nonfinite_hash' depends on axioms: [propext, Quot.sound]
'Scigo.Linear.altered_coefficients_refused_partial' depends on axioms: [propext, Classical.choice, Quot.sound]
'Scigo.Linear.altered_intercept_accepted' depends on axioms: [propext, Classical.choice, Quot.sound]
'Scigo.ParamMap.regressor_with_reports' depends on axioms: [propext, Classical.choice, Quot.sound]
'Scigo.ParamMap.classifier_with_reports' depends on axioms: [propext, Quot.sound]
'Scigo.ParamMap.classifier_like_regressor' depends on axioms: [propext, Quot.sound]
'Scigo.ParamMap.hidden_settings' depends on axioms: [propext]
'Scigo.ParamMap.with_like_set_partial' depends on axioms: [propext, Classical.choice, Quot.sound]
'Scigo.ParamMap.objective_not_normalised' depends on axioms: [propext, Classical.choice, Quot.sound]
'Scigo.Round.rounded_errors_nonneg' depends on axioms: [propext, Classical.choice, Quot.sound]
'Scigo.Round.rounded_perfect' depends on axioms: [propext, Classical.choice, Quot.sound]
'Scigo.Round.rounded_scores_le_one' depends on axioms: [propext, Classical.choice, Quot.sound]
'Scigo.Round.rounded_accuracy_range' depends on axioms: [propext, Classical.choice, Quot.sound]
'Scigo.Round.mse_underflow' depends on axioms: [propext, Classical.choice, Quot.sound]
'Scigo.Round.mse_zero_partial' depends on axioms: [propext, Classical.choice, Quot.sound]
'Scigo.Round.accuracy_not_nearest' depends on axioms: [propext, Classical.choice, Quot.sound]
'Scigo.Round.rounded_minmax_partial' depends on axioms: [propext, Classical.choice, Quot.sound]
'Scigo.Round.minmax_exceeds' depends on axioms: [propext, Classical.choice, Quot.sound]
'Scigo.Round.rounded_constant_column_partial' depends on axioms: [propext, Classical.choice, Quot.sound]
'Scigo.Round.constant_column_scaled' depends on axioms: [propext, Classical.choice, Quot.sound]
'Scigo.Round.rounded_split_partial' depends on axioms: [propext, Classical.choice, Quot.sound]
'Scigo.Round.adjacent_values_not_separated' depends on axioms: [propext, Classical.choice, Quot.sound]
'Scigo.Round.binary64_doubleExact' depends on axioms: [propext, Classical.choice, Quot.sound]
'Scigo.Overflow.huge_values_not_separated' depends on axioms: [propext, Classical.choice, Quot.sound]
'Scigo.Round.rounded_logistic_proba' depends on axioms: [propext, Classical.choice, Quot.sound]
'Scigo.Round.rounded_bayes_proba' depends on axioms: [propext, Classical.choice, Quot.sound]
'Scigo.Round.rounded_sgd_proba' depends on axioms: [propext, Classical.choice, Quot.sound]
'Scigo.Round.rounded_sum_not_one' depends on axioms: [propext, Classical.choice, Quot.sound]
'Scigo.Round.rounded_linear_predict' depends on axioms: [propext, Classical.choice, Quot.sound]
'Scigo.Round.rounded_predRow' depends on axioms: [propext, Classical.choice, Quot.sound]
'Scigo.Online.pa_iterations' depends on axioms: [propext, Quot.sound]
'Scigo.Online.paClf_iterations' depends on axioms: [propext, Quot.sound]
'Scigo.Online.clf_iterations' depends on axioms: [propext, Classical.choice, Quot.sound]
'Scigo.Online.partial_fit_counts' depends on axioms: [propext, Quot.sound]
'Scigo.Overflow.finite_errors_partial' depends on axioms: [propext, Classical.choice, Quot.sound]
'Scigo.Overflow.finite_r2_partial' depends on axioms: [propext, Classical.choice, Quot.sound]
'Scigo.Overflow.finite_vectors_overflow' depends on axioms: [propext, Classical.choice, Quot.sound]
'Scigo.Overflow.finite_minmax_partial' depends on axioms: [propext, Classical.choice, Quot.sound]
'Scigo.Overflow.minmax_not_a_number' depends on axioms: [propext, Classical.choice, Quot.sound]
'Scigo.Overflow.finite_standard_partial' depends on axioms: [propext, Classical.choice, Quot.sound]
'Scigo.Overflow.standard_all_zero' depends on axioms: [propext, Classical.choice, Quot.sound]
'Scigo.Overflow.finite_logistic_proba_partial' depends on axioms: [propext, Classical.choice, Quot.sound]
'Scigo.Overflow.small_logistic_proba_partial' depends on axioms: [propext, Classical.choice, Quot.sound]
'Scigo.Overflow.logistic_not_a_number' depends on axioms: [propext, Classical.choice, Quot.sound]
'Scigo.Overflow.logistic_proba_nan' depends on axioms: [propext, Classical.choice, Quot.sound]
'Scigo.Overflow.finite_linear_partial' depends on axioms: [propext, Classical.choice, Quot.sound]
'Scigo.Overflow.linear_not_a_number' depends on axioms: [propext, Classical.choice, Quot.sound]
'Scigo.Logistic.warm_start_resumes_partial' depends on axioms: [propext, Classical.choice, Quot.sound]
'Scigo.Logistic.warm_start_of_class' depends on axioms: [propext, Classical.choice, Quot.sound]
'Scigo.Logistic.warm_more_features_panics' depends on axioms: [propext, Classical.choice, Quot.sound]
'Scigo.Logistic.warm_more_classes_panics' depends on axioms: [propext, Classical.choice, Quot.sound]
'Scigo.KMeans.distinct_start_partial' depends on axioms: [propext, Classical.choice, Quot.sound]
'Scigo.KMeans.plusplus_draw' depends on axioms: [propext, Classical.choice, Quot.sound]
'Scigo.KMeans.random_start_repeats' depends on axioms: [propext, Classical.choice, Quot.sound]
'Scigo.KMeans.plusplus_zero_draw_repeats' depends on axioms: [propext, Classical.choice, Quot.sound]
'Scigo.Round.mse_error' depends on axioms: [propext, Classical.choice, Quot.sound]
'Scigo.Round.mae_error' depends on axioms: [propext, Classical.choice, Quot.sound]
'Scigo.Round.mape_error' depends on axioms: [propext, Classical.choice, Quot.sound]
'Scigo.Round.std_round_trip_error' depends on axioms: [propext, Classical.choice, Quot.sound]
'Scigo.Round.minmax_round_trip_error_partial' depends on axioms: [propext, Classical.choice, Quot.sound]
'Scigo.Round.minmax_range_loses' depends on axioms: [propext, Classical.choice, Quot.sound]
'Scigo.Round.raw_score_error' depends on axioms: [propext, Classical.choice, Quot.sound]
'Scigo.Round.auc_error_partial' depends on axioms: [propext, Classical.choice, Quot.sound]
'Scigo.Round.auc_distinct_scores_partial' depends on axioms: [propext, Classical.choice, Quot.sound]
'Scigo.Round.perfect_ranking_below_one' depends on axioms: [propext, Classical.choice, Quot.sound]
'Scigo.Round.adwin_whole_numbers_partial' depends on axioms: [propext, Classical.choice, Quot.sound]
'Scigo.Round.adwin_mean_forgets' depends on axioms: [propext, Classical.choice, Quot.sound]
'Scigo.Round.nb_row_order_partial' depends on axioms: [propext, Classical.choice, Quot.sound]
'Scigo.Round.fractional_counts_depend_on_order' depends on axioms: [propext, Classical.choice, Quot.sound]
'Scigo.Round.partialFit_near_range_partial' depends on axioms: [propext, Classical.choice, Quot.sound]
'Scigo.Round.identical_rows_drift' depends on axioms: [propext, Classical.choice, Quot.sound]
'Scigo.Round.split_near_optimal_partial' depends on axioms: [propext, Classical.choice, Quot.sound]
'Scigo.Round.uninformative_split_made' depends on axioms: [propext, Classical.choice, Quot.sound]
'Scigo.Round.pure_iff' depends on axioms: [propext, Classical.choice, Quot.sound]
'Scigo.Round.pure_leaf' depends on axioms: [propext, Classical.choice, Quot.sound]
'Scigo.Online.set_rate_partial' depends on axioms: [propext, Classical.choice, Quot.sound]
'Scigo.Online.step_uses_reported_rate' depends on axioms: [propext, Classical.choice, Quot.sound]
'Scigo.Online.optimal_ignores_rate' depends on axioms: [propext, Classical.choice, Quot.sound]
'Scigo.Online.clf_optimal_ignores_rate' depends on axioms: [propext, Classical.choice, Quot.sound]
'Scigo.Online.optimal_reports_other_rate' depends on axioms: [propext, Classical.choice, Quot.sound]
'Scigo.Round.fitted_moments_partial' depends on axioms: [propext, Classical.choice, Quot.sound]
'Scigo.Round.mean_lost' depends on axioms: [propext, Classical.choice, Quot.sound]
'Scigo.Round.standardised_moments' depends on axioms: [propext, Classical.choice, Quot.sound]
'Scigo.Round.large_values_shift_split' depends on axioms: [propext, Classical.choice, Quot.sound]
'Scigo.Round.large_two_values_no_split' depends on axioms: [propext, Classical.choice, Quot.sound]
'Scigo.Round.large_two_values_never_separated' depends on axioms: [propext, Classical.choice, Quot.sound]
'Scigo.Round.small_values_split_partial' depends on axioms: [propext, Classical.choice, Quot.sound]
'Scigo.Round.subtraction_partial' depends on axioms: [propext, Classical.choice, Quot.sound]
'Scigo.Round.subtraction_not_sibling' depends on axioms: [propext, Classical.choice, Quot.sound]
'Scigo.Round.bundle_round_trip_partial' depends on axioms: [propext, Classical.choice, Quot.sound]
'Scigo.Round.bundle_round_trip_lossy' depends on axioms: [propext, Classical.choice, Quot.sound]
'Scigo.NonFinite.missing_shows_partial' depends on axioms: [propext, Classical.choice, Quot.sound]
'Scigo.NonFinite.mape_hides_missing' depends on axioms: [propext, Classical.choice, Quot.sound]
'Scigo.NonFinite.accuracy_hides_missing' depends on axioms: [propext, Classical.choice, Quot.sound]
'Scigo.NonFinite.auc_hides_missing' depends on axioms: [propext, Classical.choice, Quot.sound]
'Scigo.NonFinite.complete_data_partial' depends on axioms: [propext, Classical.choice, Quot.sound]
'Scigo.NonFinite.missing_value_spoils' depends on axioms: [propext, Classical.choice, Quot.sound]
'Scigo.NonFinite.missing_value_stays' depends on axioms: [propext, Classical.choice, Quot.sound]
'Scigo.NonFinite.missing_value_empties' depends on axioms: [propext, Classical.choice, Quot.sound]
'Scigo.NonFinite.assigned_nearest_partial' depends on axioms: [propext, Classical.choice, Quot.sound]
'Scigo.NonFinite.far_sample_first' depends on axioms: [propext, Classical.choice, Quot.sound]
'Scigo.NonFinite.far_sample_not_nearest' depends on axioms: [propext, Classical.choice, Quot.sound]
'Scigo.NonFinite.missing_value_in_mean' depends on axioms: [propext, Classical.choice, Quot.sound]
'Scigo.NonFinite.missing_value_hides_drift' depends on axioms: [propext, Classical.choice, Quot.sound]
'Scigo.NonFinite.mean_of_number_not_a_number' depends on axioms: [propext, Classical.choice, Quot.sound]
'Scigo.NonFinite.drift_repairs_partial' depends on axioms: [propext, Classical.choice, Quot.sound]
'Scigo.NonFinite.missing_later_row_partial' depends on axioms: [propext, Classical.choice, Quot.sound]
'Scigo.NonFinite.missing_first_row' depends on axioms: [propext, Classical.choice, Quot.sound]
'Scigo.NonFinite.order_of_rows' depends on axioms: [propext, Classical.choice, Quot.sound]
'Scigo.NonFinite.unseen_nan' depends on axioms: [propext, Classical.choice, Quot.sound]
'Scigo.NonFinite.unseen_never_predicted' depends on axioms: [propext, Classical.choice, Quot.sound]
'Scigo.NonFinite.training_sample_misplaced' depends on axioms: [propext, Classical.choice, Quot.sound]
'Scigo.NonFinite.predict_greatest_partial' depends on axioms: [propext, Classical.choice, Quot.sound]
'Scigo.NonFinite.missing_target_spoils' depends on axioms: [propext, Classical.choice, Quot.sound]
'Scigo.NonFinite.missing_feature_partial' depends on axioms: [propext, Classical.choice, Quot.sound]
'Scigo.NonFinite.passive_ignores_missing' depends on axioms: [propext, Classical.choice, Quot.sound]
'Scigo.NonFinite.passive_classifier_ignores_missing' depends on axioms: [propext, Classical.choice, Quot.sound]
'Scigo.NonFinite.missing_feature_spoils_classifier' depends on axioms: [propext, Classical.choice, Quot.sound]
'Scigo.NonFinite.unknown_class_partial' depends on axioms: [propext, Classical.choice, Quot.sound]
'Scigo.NonFinite.huge_never_split' depends on axioms: [propext, Classical.choice, Quot.sound]
'Scigo.NonFinite.huge_single_class' depends on axioms: [propext, Classical.choice, Quot.sound]
'Scigo.NonFinite.threshold_between_partial' depends on axioms: [propext, Classical.choice, Quot.sound]
'Scigo.NonFinite.missing_spoils_column' depends on axioms: [propext, Classical.choice, Quot.sound]
'Scigo.NonFinite.other_columns_partial' depends on axioms: [propext, Classical.choice, Quot.sound]
'Scigo.NonFinite.missing_target_spoils_boosting' depends on axioms: [propext, Classical.choice, Quot.sound]
'Scigo.NonFinite.complete_targets_partial' depends on axioms: [propext, Classical.choice, Quot.sound]
'Scigo.Round.assigned_not_nearest' depends on axioms: [propext, Classical.choice, Quot.sound]
'Scigo.Round.assigned_nearly_nearest' depends on axioms: [propext, Classical.choice, Quot.sound]
'Scigo.Round.assigned_nearest_float_partial' depends on axioms: [propext, Classical.choice, Quot.sound]
'Scigo.Round.inertia_error' depends on axioms: [propext, Classical.choice, Quot.sound]
'Scigo.Round.transform_error' depends on axioms: [propext, Classical.choice, Quot.sound]
'Scigo.Round.leaf_value_lost' depends on axioms: [propext, Classical.choice, Quot.sound]
'Scigo.Round.leaf_value_error' depends on axioms: [propext, Classical.choice, Quot.sound]
'Scigo.Round.leaf_value_float_partial' depends on axioms: [propext, Classical.choice, Quot.sound]
'Scigo.Round.split_not_best_float' depends on axioms: [propext, Classical.choice, Quot.sound]
'Scigo.Round.split_near_best' depends on axioms: [propext, Classical.choice, Quot.sound]
'Scigo.Round.split_near_best_float_partial' depends on axioms: [propext, Classical.choice, Quot.sound]
'Scigo.Round.r2_constant_scored' depends on axioms: [propext, Classical.choice, Quot.sound]
'Scigo.Round.r2_error' depends on axioms: [propext, Classical.choice, Quot.sound]
'Scigo.Round.r2_float_partial' depends on axioms: [propext, Classical.choice, Quot.sound]
'Scigo.Round.score_is_r2' depends on axioms: [propext, Quot.sound]
'Scigo.Round.regressor_score_float_partial' depends on axioms: [propext, Classical.choice, Quot.sound]
'Scigo.Round.ddm_no_negative_root' depends on axioms: [propext, Classical.choice, Quot.sound]
'Scigo.Round.ddm_rounded' depends on axioms: [propext, Classical.choice, Quot.sound]
'Scigo.Round.ddm_first_error_float' depends on axioms: [propext, Classical.choice, Quot.sound]
'Scigo.Round.sampled_rows_not_share' depends on axioms: [propext, Classical.choice, Quot.sound]
'Scigo.Round.sampled_features_not_share' depends on axioms: [propext, Classical.choice, Quot.sound]
'Scigo.Round.goss_not_share' depends on axioms: [propext, Classical.choice, Quot.sound]
'Scigo.Round.dart_not_share' depends on axioms: [propext, Classical.choice, Quot.sound]
'Scigo.Round.sampled_rows_float_partial' depends on axioms: [propext, Classical.choice, Quot.sound]
'Scigo.Round.sampled_features_float_partial' depends on axioms: [propext, Classical.choice, Quot.sound]
'Scigo.Round.goss_top_float_partial' depends on axioms: [propext, Classical.choice, Quot.sound]
'Scigo.Round.dart_drop_float_partial' depends on axioms: [propext, Classical.choice, Quot.sound]
'Scigo.Round.l1_start_between' depends on axioms: [propext, Classical.choice, Quot.sound]
'Scigo.Round.l1_start_in_range' depends on axioms: [propext, Classical.choice, Quot.sound]
'Scigo.Round.l2_start_outside' depends on axioms: [propext, Classical.choice, Quot.sound]
'Scigo.Round.quantile_start_outside' depends on axioms: [propext, Classical.choice, Quot.sound]
'Scigo.Round.l1_start_overflows' depends on axioms: [propext, Classical.choice, Quot.sound]
'Scigo.Round.l2_start_near_range_partial' depends on axioms: [propext, Classical.choice, Quot.sound]
'Scigo.Round.l2_start_float_partial' depends on axioms: [propext, Classical.choice, Quot.sound]
'Scigo.Round.quantile_start_near_partial' depends on axioms: [propext, Classical.choice, Quot.sound]
'Scigo.NonFinite.missing_hides_split' depends on axioms: [propext, Classical.choice, Quot.sound]
'Scigo.NonFinite.missing_last_partial' depends on axioms: [propext, Classical.choice, Quot.sound]
'Scigo.NonFinite.missing_never_threshold' depends on axioms: [propext, Classical.choice, Quot.sound]
'Scigo.NonFinite.missing_goes_right' depends on axioms: [propext, Classical.choice, Quot.sound]
'Scigo.NonFinite.goSort_sorts' depends on axioms: [propext, Quot.sound]
'Scigo.NonFinite.missing_hides_boosted_split' depends on axioms: [propext, Classical.choice, Quot.sound]
'Scigo.NonFinite.missing_disables_feature' depends on axioms: [propext, Classical.choice, Quot.sound]
'Scigo.NonFinite.missing_moves_smallest' depends on axioms: [propext, Classical.choice, Quot.sound]
'Scigo.NonFinite.missing_in_last_bin' depends on axioms: [propext, Classical.choice, Quot.sound]
'Scigo.NonFinite.missing_elsewhere_partial' depends on axioms: [propext, Classical.choice, Quot.sound]
'Scigo.NonFinite.hist64_eq' depends on axioms: [propext, Classical.choice, Quot.sound]
'Scigo.NonFinite.sort64_sorts' depends on axioms: [propext, Classical.choice, Quot.sound]
'Scigo.Round.rounding_changes_class' depends on axioms: [propext, Classical.choice, Quot.sound]
'Scigo.Round.sgd_class_nearly_best' depends on axioms: [propext, Classical.choice, Quot.sound]
'Scigo.Round.pa_class_nearly_best' depends on axioms: [propext, Classical.choice, Quot.sound]
'Scigo.Round.nb_class_nearly_best' depends on axioms: [propext, Classical.choice, Quot.sound]
'Scigo.Round.NearlyBest.eq_clear' depends on axioms: [propext, Classical.choice, Quot.sound]
'Scigo.Round.swap_classes_changes' depends on axioms: [propext, Classical.choice, Quot.sound]
'Scigo.Round.swap_classes_partial' depends on axioms: [propext, Classical.choice, Quot.sound]
'Scigo.Round.log_loss_error' depends on axioms: [propext, Classical.choice, Quot.sound]
'Scigo.Round.mean_cost_bound' depends on axioms: [propext, Classical.choice, Quot.sound]
'Scigo.Round.tiny_clip' depends on axioms: [propext, Classical.choice, Quot.sound]
'Scigo.NonFinite.log_loss_missing' depends on axioms: [propext, Classical.choice, Quot.sound]
'Scigo.ErrChain.as_survives' depends on axioms: [propext, Quot.sound]
'Scigo.ErrChain.is_survives' depends on axioms: [propext, Classical.choice, Quot.sound]
'Scigo.ErrChain.is_sentinel_iff' depends on axioms: [propext, Quot.sound]
'Scigo.ErrChain.nil_survives' depends on axioms: [propext, Quot.sound]
'Scigo.ErrChain.text_survives' depends on axioms: [propext, Quot.sound]
'Scigo.ErrChain.model_error_found' depends on axioms: [propext, Classical.choice, Quot.sound]
'Scigo.ErrChain.is_new_iff' depends on axioms: [propext, Quot.sound]
'Scigo.ErrChain.panic_value_not_found' depends on axioms: [propext]
'Scigo.ErrChain.panic_hidden' depends on axioms: [propext, Quot.sound]
'Scigo.ErrChain.values_text' depends on axioms: [propext, Classical.choice, Quot.sound]
'Scigo.ErrChain.drop_rate_partial' depends on axioms: [propext, Classical.choice, Quot.sound]
'Scigo.ErrChain.drop_rate_negative' depends on axioms: [propext, Classical.choice, Quot.sound]
'Scigo.ErrChain.drop_rate_zero' depends on axioms: [propext, Classical.choice, Quot.sound]
'Scigo.Round.tree_proba_float' depends on axioms: [propext, Classical.choice, Quot.sound]
'Scigo.Round.tree_importances_float' depends on axioms: [propext, Classical.choice, Quot.sound]
'Scigo.Round.tree_proba_sum_not_one' depends on axioms: [propext, Classical.choice, Quot.sound]
'Scigo.NonFinite.clip_value_partial' depends on axioms: [propext, Classical.choice, Quot.sound]
'Scigo.NonFinite.clip_value_nan' depends on axioms: [propext, Classical.choice, Quot.sound]
'Scigo.NonFinite.safe_divide_partial' depends on axioms: [propext, Classical.choice, Quot.sound]
'Scigo.NonFinite.safe_divide_overflow' depends on axioms: [propext, Classical.choice, Quot.sound]
'Scigo.NonFinite.clip_gradient_overflow' depends on axioms: [propext, Classical.choice, Quot.sound]
'Scigo.NonFinite.clip_gradient_nan' depends on axioms: [propext, Classical.choice, Quot.sound]
'Scigo.NonFinite.clip_gradient_shrinks_partial' depends on axioms: [propext, Classical.choice, Quot.sound]
'Scigo.NonFinite.log_sum_exp_bounds' depends on axioms: [propext, Classical.choice, Quot.sound]
'Scigo.NonFinite.log_sum_exp_inf' depends on axioms: [propext, Classical.choice, Quot.sound]
'Scigo.NonFinite.log_sum_exp_nan_partial' depends on axioms: [propext, Classical.choice, Quot.sound]
'Scigo.NonFinite.log_sum_exp_hides' depends on axioms: [propext, Classical.choice, Quot.sound]
'Scigo.Round.clip_gradient_norm' depends on axioms: [propext, Classical.choice, Quot.sound]
'Scigo.Round.pa_step_float' depends on axioms: [propext, Classical.choice, Quot.sound]
'Scigo.Round.paClf_step_float' depends on axioms: [propext, Classical.choice, Quot.sound]
'Scigo.Round.paClf_right_stays' depends on axioms: [propext, Classical.choice, Quot.sound]
'Scigo.Round.lr_label_most_probable' depends on axioms: [propext, Classical.choice, Quot.sound]
'Scigo.Round.sgd_label_most_probable' depends on axioms: [propext, Classical.choice, Quot.sound]
'Scigo.Round.lr_proba_monotone' depends on axioms: [propext, Classical.choice, Quot.sound]
'Scigo.Round.lr_side_partial' depends on axioms: [propext, Classical.choice, Quot.sound]
'Scigo.Round.lr_negative_score_second_class' depends on axioms: [propext, Classical.choice, Quot.sound]
'Scigo.Round.adwin_constant_partial' depends on axioms: [propext, Classical.choice, Quot.sound]
'Scigo.Round.adwin_constant_alarm' depends on axioms: [propext, Classical.choice, Quot.sound]
'Scigo.Round.cv_mean_error' depends on axioms: [propext, Classical.choice, Quot.sound]
'Scigo.Round.cv_std_error' depends on axioms: [propext, Classical.choice, Quot.sound]
'Scigo.Round.cv_equal_scores_partial' depends on axioms: [propext, Classical.choice, Quot.sound]
'Scigo.Round.cv_equal_scores_spread' depends on axioms: [propext, Classical.choice, Quot.sound]
'Scigo.Round.nb_fitted_logs' depends on axioms: [propext, Classical.choice, Quot.sound]
'Scigo.Round.nb_log_proba' depends on axioms: [propext, Classical.choice, Quot.sound]
'Scigo.Round.nb_label_most_probable' depends on axioms: [propext, Classical.choice, Quot.sound]
'Scigo.Round.report_range' depends on axioms: [propext, Classical.choice, Quot.sound]
'Scigo.Round.report_perfect' depends on axioms: [propext, Classical.choice, Quot.sound]
'Scigo.Round.accuracy_one' depends on axioms: [propext, Classical.choice, Quot.sound]
'Scigo.Round.f1_above_both' depends on axioms: [propext, Classical.choice, Quot.sound]
'Scigo.Round.std_order' depends on axioms: [propext, Classical.choice, Quot.sound]
'Scigo.Round.minmax_order' depends on axioms: [propext, Classical.choice, Quot.sound]
'Scigo.Round.scaled_values_merge' depends on axioms: [propext, Classical.choice, Quot.sound]
'Scigo.Round.objective_hessian_nonneg' depends on axioms: [propext, Classical.choice, Quot.sound]
'Scigo.Round.objective_hessian_pos_partial' depends on axioms: [propext, Classical.choice, Quot.sound]
'Scigo.Round.plain_gradient_sign' depends on axioms: [propext, Classical.choice, Quot.sound]
'Scigo.Round.objective_gradient_rising_partial' depends on axioms: [propext, Classical.choice, Quot.sound]
'Scigo.Round.log_loss_gradient' depends on axioms: [propext, Classical.choice, Quot.sound]
'Scigo.Round.huber_gradient_bound' depends on axioms: [propext, Classical.choice, Quot.sound]
'Scigo.Round.fair_hessian_zero' depends on axioms: [propext, Classical.choice, Quot.sound]
'Scigo.Round.fair_gradient_exceeds' depends on axioms: [propext, Classical.choice, Quot.sound]
'Scigo.Round.fair_gradient_falls' depends on axioms: [propext, Classical.choice, Quot.sound]
'Scigo.NonFinite.missing_target_gradient_partial' depends on axioms: [propext, Classical.choice, Quot.sound]
'Scigo.NonFinite.missing_target_hidden' depends on axioms: [propext, Classical.choice, Quot.sound]
'Scigo.NonFinite.compared_gradient_finite' depends on axioms: [propext, Classical.choice, Quot.sound]
'Scigo.NonFinite.fair_overflows' depends on axioms: [propext, Classical.choice, Quot.sound]
'Scigo.Trainer.leaf_exactly' depends on axioms: [propext, Classical.choice, Quot.sound]
'Scigo.Trainer.empty_node_leaf_goss' depends on axioms: [propext, Classical.choice, Quot.sound]
'Scigo.Trainer.goss_minimum_without_effect' depends on axioms: [propext, Classical.choice, Quot.sound]
'Scigo.Tensor.filled_spec' depends on axioms: [propext, Classical.choice, Quot.sound]
'Scigo.Online.adaptive_rate' depends on axioms: [propext, Quot.sound]
'Scigo.Drift.any_history_is_update_history' depends on axioms: [propext, Quot.sound]
'Scigo.Drift.negative_error_counts_correct' depends on axioms: [propext, Quot.sound]
'Scigo.Boost.loaded_rows_in_order' depends on axioms: [propext, Quot.sound]
'Scigo.Boost.no_model_no_answer' depends on axioms: [propext, Quot.sound]
'Scigo.Wrapper.loaded_regressor_predicts' depends on axioms: [propext]
'Scigo.Wrapper.failed_load_keeps_regressor' depends on axioms: [propext]
'Scigo.Wrapper.loaded_objective_trained' depends on axioms: [propext]
'Scigo.Wrapper.string_load_keeps_old_objective' does not depend on any axioms
'Scigo.LGB.written_numbers_finite' depends on axioms: [propext, Quot.sound]
'Scigo.LGB.refused_has_bad_number' depends on axioms: [propext, Classical.choice, Quot.sound]
'Scigo.Wrapper.options_reach_training' depends on axioms: [propext, Classical.choice, Quot.sound]
'Scigo.Wrapper.colsample_without_effect' depends on axioms: [propext, Classical.choice, Quot.sound]
'Scigo.Wrapper.regressor_colsample_without_effect' depends on axioms: [propext, Classical.choice, Quot.sound]
'Scigo.Wrapper.ranking_trains_regression' depends on axioms: [propext, Classical.choice, Quot.sound]
'Scigo.Wrapper.single_document_gradient' depends on axioms: [propext, Quot.sound]
'Scigo.Wrapper.relevant_pushed_up_partial' depends on axioms: [propext, Classical.choice, Quot.sound]
'Scigo.NonFinite.exact_predictions_no_drift' depends on axioms: [propext, Classical.choice, Quot.sound]
'Scigo.NonFinite.missing_counts_mistake' depends on axioms: [propext, Classical.choice, Quot.sound]
'Scigo.NonFinite.exact_infinite_counts_mistake' depends on axioms: [propext, Classical.choice, Quot.sound]
'Scigo.NonFinite.missing_row_predicted_missing' depends on axioms: [propext, Classical.choice, Quot.sound]
'Scigo.NonFinite.other_rows_untouched' depends on axioms: [propext, Classical.choice, Quot.sound]
'Scigo.NonFinite.missing_score' depends on axioms: [propext, Classical.choice, Quot.sound]
'Scigo.NonFinite.missing_row_first_class' depends on axioms: [propext, Classical.choice, Quot.sound]
'Scigo.NonFinite.missing_row_proba_missing' depends on axioms: [propext, Classical.choice, Quot.sound]
'Scigo.NonFinite.extra_column_ignored' depends on axioms: [propext, Classical.choice, Quot.sound]
'Scigo.NonFinite.sgd_missing_row_first_class' depends on axioms: [propext, Classical.choice, Quot.sound]
'Scigo.NonFinite.sgd_missing_row_proba_missing' depends on axioms: [propext, Classical.choice, Quot.sound]
'Scigo.NonFinite.pa_missing_row_first_class' depends on axioms: [propext, Classical.choice, Quot.sound]
