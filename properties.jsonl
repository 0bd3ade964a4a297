{"id": "C01", "title": "Parallelize hands out every index exactly once", "statement": "parallel.Parallelize(n, fn) calls fn on half-open ranges that are non-empty, pairwise disjoint and whose union is exactly [0,n); it starts at most NumCPU ranges, and ParallelizeWithThreshold covers [0,n) in both branches.", "quantifier": "every item count n, every number of CPUs >= 1, every threshold", "why_tests_cant": "the split depends on the machine's CPU count and on n; a test sees one CPU count and a few n, an off-by-one at one (n, CPUs) pair silently drops or double-processes a row", "anchors": ["core/parallel/parallel.go:Parallelize", "core/parallel/parallel.go:ParallelizeWithThreshold"]}
{"id": "C02", "title": "Parallel row processing gives the sequential result under every schedule", "statement": "If the callback passed to Parallelize writes only the cells of the indices it is given, then whatever the interleaving of the workers' individual writes, the memory after Parallelize returns equals the memory after the plain sequential loop over [0,n).", "quantifier": "every n, CPU count, callback with index-local writes, and every interleaving of the workers' atomic write steps", "why_tests_cant": "the set of interleavings is astronomically large and not controlled by a test", "anchors": ["core/parallel/parallel.go:Parallelize"]}
{"id": "C03", "title": "State manager observers never see a torn state", "statement": "With any number of goroutines calling SetFitted/Reset/SetDimensions/SetState/GetDimensions/GetState/IsFitted on one StateManager, every completed GetDimensions or GetState returns a (features, samples) pair that was the complete value at a single point between two complete operations, never half of one SetDimensions and half of another; the final state is that of some sequential order of the completed operations.", "quantifier": "every number of goroutines, every program of calls, every schedule of the individual field accesses and lock operations", "why_tests_cant": "torn reads need a specific preemption between two field writes; a test practically never hits it", "anchors": ["core/model/state_manager.go:StateManager"]}
{"id": "C04", "title": "No panic crosses a method that defers Recover", "statement": "A method that defers errors.Recover (and SafeExecute) never lets a panic escape: it returns the body's own error when the body returns, a PanicError carrying the panic value when the body panics, and never turns a panic into a nil error; a normal return is left unchanged.", "quantifier": "every body behaviour: every returned error, every panic value, and every error already stored in the named result before the panic", "why_tests_cant": "it must hold for every panic site in every estimator, including ones no test triggers", "anchors": ["pkg/errors/recovery.go:Recover", "pkg/errors/recovery.go:SafeExecute"]}
{"id": "C05", "title": "Numerical guard rails: clipping, safe division and gradient clipping", "statement": "For min <= max, ClipValue returns a value in [min,max], is the identity inside the range, monotone and idempotent. SafeDivide equals the quotient unless |den| < 1e-10 and is 0 then. ClipGradient returns a vector of norm <= maxNorm pointing in the same direction, and is the identity when the norm is already <= maxNorm.", "quantifier": "every real value, every bound pair, every gradient vector of any length", "why_tests_cant": "infinitely many inputs; the boundary comparisons are exactly what examples miss", "anchors": ["pkg/errors/numerical.go:ClipValue", "pkg/errors/numerical.go:SafeDivide", "pkg/errors/numerical.go:ClipGradient"]}
{"id": "C06", "title": "LogSumExp computes log of the sum of exponentials", "statement": "LogSumExp(values) equals log(sum exp(v)) in exact arithmetic, is at least the maximum, at most the maximum plus log(n), shifts by c when every value is shifted by c, and never exponentiates a positive number.", "quantifier": "every non-empty vector of reals of any length", "why_tests_cant": "an identity over all real vectors; the overflow-safety clause is a statement about every intermediate argument", "anchors": ["pkg/errors/numerical.go:LogSumExp"]}
{"id": "C07", "title": "CheckMatrix and CheckNumericalStability report exactly the unstable inputs", "statement": "CheckMatrix returns an error if and only if some entry in the scanned rows x cols block is NaN or infinite; CheckNumericalStability the same for slices; the values listed in the error are all unstable entries and number at most 10.", "quantifier": "every matrix size and every placement of NaN/Inf entries", "why_tests_cant": "a scan with early breaks must be right for each position of the first bad entry", "anchors": ["pkg/errors/numerical.go:CheckMatrix", "pkg/errors/numerical.go:CheckNumericalStability", "pkg/errors/numerical.go:CheckScalar"]}
{"id": "C08", "title": "MSE, RMSE, MAE are errors: non-negative, symmetric, zero exactly on equality", "statement": "MSE/RMSE/MAE succeed exactly when both vectors are non-empty and of equal length; then MSE is the mean squared residual, MAE the mean absolute residual, RMSE the root of MSE, and they are >= 0, symmetric in their arguments, and 0 if and only if prediction equals truth entrywise; RMSE >= MAE; MSEMatrix on n x 1 matrices agrees with MSE.", "quantifier": "every pair of vectors of any length over the reals", "why_tests_cant": "an identity/inequality over all vectors of all lengths", "anchors": ["metrics/regression.go:MSE", "metrics/regression.go:RMSE", "metrics/regression.go:MAE", "metrics/regression.go:MSEMatrix"]}
{"id": "C09", "title": "R2 is at most 1, equals 1 exactly for perfect prediction, and is 0 for the mean predictor", "statement": "R2Score succeeds exactly when lengths agree, n > 0 and the true values are not all identical; the result is <= 1, equals 1 iff prediction equals truth, equals 0 for the constant mean predictor, and is <= ExplainedVarianceScore with equality iff the residuals have mean zero. ExplainedVarianceScore is unchanged when a constant is added to all predictions.", "quantifier": "every pair of real vectors of any length", "why_tests_cant": "universally quantified algebraic law", "anchors": ["metrics/regression.go:R2Score", "metrics/regression.go:ExplainedVarianceScore"]}
{"id": "C10", "title": "Metrics do not depend on sample order", "statement": "Applying the same permutation to yTrue and yPred leaves MSE, MAE, R2Score, MAPE, ExplainedVarianceScore, ClassificationError, Accuracy, BinaryLogLoss and AUC unchanged (value and error).", "quantifier": "every permutation of every pair of vectors", "why_tests_cant": "n! permutations for each input", "anchors": ["metrics/regression.go", "metrics/classification.go"]}
{"id": "C11", "title": "AUC is the Mann-Whitney statistic", "statement": "On valid binary labels with both classes present AUC returns (#{(pos,neg): s_pos > s_neg} + 1/2 #{ties}) / (P*N), whichever order the unstable sort leaves tied scores in; hence it lies in [0,1], is 1 iff every positive outscores every negative; with one class it returns 0.5; non-binary labels, empty or mismatched input are errors.", "quantifier": "every label/score vectors of every length and every permutation a sort may produce among ties", "why_tests_cant": "the equivalence of the trapezoid sweep and the pair count is a theorem about all inputs and all tie orders", "anchors": ["metrics/classification.go:AUC", "metrics/classification.go:AUCMatrix"]}
{"id": "C12", "title": "AUC depends only on the ranking", "statement": "AUC is unchanged when every score is mapped through any strictly increasing function, and becomes 1 - AUC when scores are negated or labels are flipped.", "quantifier": "every strictly increasing map and every input", "why_tests_cant": "quantifies over functions", "anchors": ["metrics/classification.go:AUC"]}
{"id": "C13", "title": "Log loss is finite, non-negative and minimised by the truth", "statement": "BinaryLogLoss on valid input is >= 0, at most -log(1e-15), monotone (moving a prediction towards its label never increases it), and it errors exactly on empty/mismatched input or a non-binary label.", "quantifier": "every vector pair of any length over the reals, including predictions outside [0,1]", "why_tests_cant": "must hold for all real predictions, in particular outside [0,1]", "anchors": ["metrics/classification.go:BinaryLogLoss", "metrics/classification.go:logSafe"]}
{"id": "C14", "title": "Accuracy and error rate are complementary fractions", "statement": "Accuracy + ClassificationError = 1, both lie in [0,1], accuracy is 1 iff the vectors are equal, and accuracy is (number of equal positions)/n.", "quantifier": "every pair of vectors of equal positive length", "why_tests_cant": "all lengths and values", "anchors": ["metrics/classification.go:Accuracy", "metrics/classification.go:ClassificationError"]}
{"id": "C15", "title": "NDCG is a normalised score", "statement": "On non-negative relevances NDCG lies in [0,1] for every cutoff k (k=-1 and k>n mean n), is 1 when the predicted order sorts the relevances decreasingly and some relevance is positive, is 0 when all are zero; k<=0 other than -1, negative relevance, empty or mismatched input give an error.", "quantifier": "every relevance/score vectors, cutoff, and tie-breaking order of the sort", "why_tests_cant": "bounding DCG by IDCG is a rearrangement inequality over all permutations", "anchors": ["metrics/ranking.go:NDCG", "metrics/ranking.go:dcg"]}
{"id": "C16", "title": "Average precision is a fraction, and is order-independent without ties", "statement": "AveragePrecision is the mean, over the relevant positions of the ranking, of the precision at that position; it lies in [0,1], is 1 iff (with at least one relevant item) every relevant item is ranked above every irrelevant one, does not depend on the order of the input samples when no two scores are tied, and MeanAveragePrecision is the mean of the per-query values (the first failing query's error otherwise).", "quantifier": "every binary relevance and score vector, every query list, every order the sort may give to ties", "why_tests_cant": "all inputs; tie orders are chosen by the sort, not by the test", "anchors": ["metrics/ranking.go:AveragePrecision", "metrics/ranking.go:MeanAveragePrecision"]}
{"id": "C17", "title": "MAPE ignores zero targets and scales out", "statement": "MAPE is the mean over the non-zero targets of |t-p|/|t| times 100, is >= 0, unchanged when truth and prediction are multiplied by the same non-zero factor, and errors exactly on empty/mismatched input or all-zero truth.", "quantifier": "every pair of real vectors and every non-zero factor", "why_tests_cant": "all inputs", "anchors": ["metrics/regression.go:MAPE"]}
{"id": "C18", "title": "StandardScaler produces mean 0 and variance 1 columns", "statement": "After FitTransform with centring and scaling on, every output column has mean 0, and variance 1 if the input column's standard deviation is at least 1e-8 (columns below that are only centred).", "quantifier": "every non-empty real matrix of every shape", "why_tests_cant": "statistical identity over all matrices", "anchors": ["preprocessing/scaler.go:StandardScaler"]}
{"id": "C19", "title": "Scalers are invertible", "statement": "For any fitted StandardScaler or MinMaxScaler (any option combination, any training data) InverseTransform(Transform(X)) = X for every X with the right number of columns, and Transform(InverseTransform(X)) = X, also for constant training columns (MinMaxScaler: range ends lo != hi).", "quantifier": "every training matrix, every option combination, every data matrix", "why_tests_cant": "must hold for every training set, including degenerate columns", "anchors": ["preprocessing/scaler.go:StandardScaler.InverseTransform", "preprocessing/scaler.go:MinMaxScaler.InverseTransform"]}
{"id": "C20", "title": "MinMaxScaler maps the training data onto the requested range", "statement": "After fitting with range [lo,hi], lo < hi, every transformed training value lies in [lo,hi], each column attains lo and each column whose range is at least 1e-8 attains hi, and the transform is strictly monotone in each column.", "quantifier": "every non-empty real matrix and every range", "why_tests_cant": "all matrices; boundary attainment is an extremal statement", "anchors": ["preprocessing/scaler.go:MinMaxScaler"]}
{"id": "C21", "title": "Fit/Transform protocol of the scalers and encoder", "statement": "Transform/InverseTransform return a not-fitted error until the first successful Fit, a dimension error exactly when the column count differs from the last fitted data, FitTransform(X) is Fit(X) then Transform(X), an unsuccessful Fit leaves the fitted transformation unchanged, and output shape equals (rows, fitted columns).", "quantifier": "every finite history of Fit/Transform/FitTransform/InverseTransform calls with arbitrary matrices", "why_tests_cant": "quantifies over call histories", "anchors": ["preprocessing/scaler.go", "preprocessing/encoder.go", "core/model/base.go"]}
{"id": "C22", "title": "One-hot encoding is exact", "statement": "After Fit, each row of Transform has, in the block of feature j, a single 1 at the position of its category in the sorted category list if the category was seen and all zeros otherwise; blocks are laid out consecutively and their sizes sum to the number of output columns, which equals the number of output feature names; two rows with seen categories have equal encodings iff they are equal.", "quantifier": "every rectangular training table of strings and every rectangular table to transform", "why_tests_cant": "all tables and all category sets", "anchors": ["preprocessing/encoder.go:OneHotEncoder.Fit", "preprocessing/encoder.go:OneHotEncoder.Transform", "preprocessing/encoder.go:GetFeatureNamesOut"]}
{"id": "C23", "title": "One-hot category layout is independent of row order and map iteration order", "statement": "The categories learned by Fit are the sorted distinct values of each column: the same for every permutation or duplication of the rows and for every iteration order of Go's maps.", "quantifier": "every table, every row permutation, every map iteration order", "why_tests_cant": "map iteration order is randomised by the runtime; tests see a few orders", "anchors": ["preprocessing/encoder.go:OneHotEncoder.Fit"]}
{"id": "C24", "title": "DDM drift protocol", "statement": "For every stream, DDM.Update reports no warning or drift before minNumInstances samples since the last reset, with outControlLevel >= warningLevel every drift report is also a warning report, and after a drift report the detector is in the freshly constructed state (same future behaviour as a new detector).", "quantifier": "every stream of outcomes, every parameter setting", "why_tests_cant": "quantifies over unbounded streams", "anchors": ["sklearn/drift/ddm.go:DDM.Update", "sklearn/drift/ddm.go:DDM.resetAfterDrift"]}
{"id": "C25", "title": "DDM tracks the minimum of the error level", "statement": "After each update past the warm-up, GetStatistics reports the exact error count and rate since the last reset, and the stored (minErrorRate, minStdDev) pair is one attained by some earlier sample of the segment and minimises errorRate+stdDev over the segment.", "quantifier": "every stream", "why_tests_cant": "history-dependent invariant", "anchors": ["sklearn/drift/ddm.go:DDM.Update", "sklearn/drift/ddm.go:DDM.GetStatistics"]}
{"id": "C26", "title": "DDM can report drift in its statistics", "statement": "When an update reports drift, GetStatistics called before the next update shows DriftDetected = true; and no drift is ever reported while the stream contains no error.", "quantifier": "every stream", "why_tests_cant": "history-dependent", "anchors": ["sklearn/drift/ddm.go:DDM.GetStatistics"]}
{"id": "C27", "title": "ADWIN's statistics describe a window of the most recent values", "statement": "At every moment GetWidth is the number of elements in the retained buckets and GetMean is the mean of exactly the last GetWidth values passed to Update since the last Reset.", "quantifier": "every stream of values and every interleaving of resets", "why_tests_cant": "history-dependent invariant over unbounded streams", "anchors": ["sklearn/drift/ddm.go:ADWIN.Update", "sklearn/drift/ddm.go:ADWIN.GetMean", "sklearn/drift/ddm.go:ADWIN.GetWidth"]}
{"id": "C28", "title": "ADWIN memory is bounded and compresses exponentially", "statement": "The number of buckets never exceeds maxBuckets (>= 1), and merging equal-size buckets lets the window hold exponentially many samples in the bucket budget.", "quantifier": "every stream", "why_tests_cant": "invariant over unbounded streams", "anchors": ["sklearn/drift/ddm.go:ADWIN.addElement", "sklearn/drift/ddm.go:ADWIN.removeOldestBucket"]}
{"id": "C29", "title": "ADWIN never signals drift on a constant stream", "statement": "If every value in the stream is the same, Update never returns true (0 < delta <= 2), and when it returns true the two sub-window means differ by more than the Hoeffding bound and exactly the older sub-window is dropped.", "quantifier": "every constant, every length; every stream for the second part", "why_tests_cant": "unbounded streams", "anchors": ["sklearn/drift/ddm.go:ADWIN.detectDrift"]}
{"id": "C30", "title": "MultinomialNB incremental learning equals batch learning", "statement": "Feeding the same rows to PartialFit in any split into consecutive batches (classes given up front) yields identical counts, and hence identical predictions, as a single PartialFit on the concatenation; Fit equals Reset followed by one PartialFit.", "quantifier": "every data set, every split into batches", "why_tests_cant": "all splits of all data sets", "anchors": ["sklearn/naive_bayes/multinomial_nb.go:PartialFit", "sklearn/naive_bayes/multinomial_nb.go:Fit"]}
{"id": "C31", "title": "MultinomialNB probabilities are a distribution and Predict is their argmax", "statement": "PredictProba rows are non-negative and sum to 1, PredictLogProba is their logarithm, Predict returns a class of maximal probability (the first one in class order on ties), and class conditional feature probabilities exp(featureLogProb) sum to 1 with alpha > 0.", "quantifier": "every fitted model and every sample", "why_tests_cant": "all inputs", "anchors": ["sklearn/naive_bayes/multinomial_nb.go:PredictProba", "sklearn/naive_bayes/multinomial_nb.go:Predict"]}
{"id": "C32", "title": "MultinomialNB input validation", "statement": "Negative features, mismatched row counts or column counts different from the fitted ones are rejected with an error and leave the learned counts unchanged; rows whose label is not a known class are ignored.", "quantifier": "every model state and input", "why_tests_cant": "all states", "anchors": ["sklearn/naive_bayes/multinomial_nb.go"]}
{"id": "C33", "title": "Decision tree growth terminates within its limits", "statement": "DecisionTreeClassifier.Fit builds a tree whose depth is at most maxDepth (when set), every leaf of a tree with at least one split holds at least minSamplesLeaf training samples, every split node at least minSamplesSplit, and the leaf sample counts add up to the number of training rows.", "quantifier": "every training set and every admissible hyper-parameter setting", "why_tests_cant": "structural invariant of an unbounded recursion", "anchors": ["sklearn/tree/tree.go:buildTree"]}
{"id": "C34", "title": "Decision tree predictions are training labels with a proper distribution", "statement": "Predict returns one of the training classes, PredictProba rows are non-negative and sum to 1, Predict is the class of maximal probability, and every training row lands in a leaf whose distribution counts it.", "quantifier": "every training set and every query row", "why_tests_cant": "all inputs", "anchors": ["sklearn/tree/tree.go:Predict", "sklearn/tree/tree.go:PredictProba"]}
{"id": "C35", "title": "Decision tree splits strictly decrease impurity and importances are normalised", "statement": "Gini/entropy impurity of a node is >= 0 and 0 iff the node is pure, every accepted split has non-negative gain, feature importances are non-negative and sum to 1 (or are all 0 for a stump).", "quantifier": "every training set", "why_tests_cant": "convexity inequality over all label distributions", "anchors": ["sklearn/tree/tree.go:calculateImpurity", "sklearn/tree/tree.go:findBestSplit"]}
{"id": "C36", "title": "MiniBatchKMeans assigns to a nearest centre and keeps centres in the data hull", "statement": "Predict returns the smallest index of a centre at minimal squared distance; each centre after PartialFit is the running mean of the points assigned to it since initialisation, hence stays in the coordinatewise range of the data seen.", "quantifier": "every stream of batches, every data", "why_tests_cant": "history invariant", "anchors": ["sklearn/cluster/minibatch_kmeans.go:Predict", "sklearn/cluster/minibatch_kmeans.go:PartialFit"]}
{"id": "C37", "title": "MiniBatchKMeans can be updated after Fit", "statement": "PartialFit after a successful Fit on data with the same number of columns succeeds.", "quantifier": "every data set and configuration", "why_tests_cant": "protocol property over call histories", "anchors": ["sklearn/cluster/minibatch_kmeans.go:Fit", "sklearn/cluster/minibatch_kmeans.go:PartialFit"]}
{"id": "C38", "title": "Pipeline is the composition of its steps", "statement": "Fit fits every transformer on the output of the previous ones and the final step on the fully transformed data; Predict/Transform apply the transformers in order and then the final step; they error before Fit; the first failing step's error is returned and later steps are not run.", "quantifier": "every list of steps with arbitrary transformer behaviour, every input", "why_tests_cant": "quantifies over step lists and behaviours", "anchors": ["sklearn/pipeline/pipeline.go:Fit", "sklearn/pipeline/pipeline.go:Predict", "sklearn/pipeline/pipeline.go:Transform"]}
{"id": "C39", "title": "Pipeline inverse undoes its transform", "statement": "If every step's InverseTransform undoes its Transform then the pipeline's InverseTransform undoes the pipeline's Transform.", "quantifier": "every list of steps", "why_tests_cant": "induction over step lists", "anchors": ["sklearn/pipeline/pipeline.go:InverseTransform"]}
{"id": "C40", "title": "Linear regression solves the least-squares problem", "statement": "When Fit succeeds, weights and intercept satisfy the normal equations, and therefore minimise the residual sum of squares over all weight vectors; predictions are X.w + b; Score is the R2 of predictions.", "quantifier": "every design matrix of full column rank and every target", "why_tests_cant": "optimality over all alternative weights", "anchors": ["linear/regression.go:Fit", "linear/regression.go:Predict"]}
{"id": "C41", "title": "A failed refit leaves a fitted linear regression usable", "statement": "If Fit returns an error on a previously fitted linear.LinearRegression, Predict keeps giving the answers of the last successful fit.", "quantifier": "every history of Fit/Predict calls", "why_tests_cant": "history property, the failing branch after a state write is rarely tested", "anchors": ["linear/regression.go:Fit"]}
{"id": "C42", "title": "Cloning or exporting a fitted LinearRegression preserves predictions", "statement": "For linear_model.LinearRegression, Clone of a fitted model, ImportWeights(ExportWeights(m)) and the JSON round trip give a fitted model with the same Predict results; a rejected import leaves the model unchanged.", "quantifier": "every fitted model", "why_tests_cant": "all models; depends on dynamic types inside metadata", "anchors": ["sklearn/linear_model/linear_regression.go:ExportWeights", "sklearn/linear_model/linear_regression.go:ImportWeights", "sklearn/linear_model/linear_regression.go:Clone"]}
{"id": "C43", "title": "ModelWeights validation and deep copy", "statement": "Validate accepts exactly the weights with non-empty type and version whose fitted flag agrees with having coefficients; Clone shares no mutable state with the original.", "quantifier": "every weights value and every later mutation", "why_tests_cant": "aliasing statement over all later mutations", "anchors": ["core/model/weights.go:Validate", "core/model/weights.go:Clone"]}
{"id": "C44", "title": "SGD updates follow the gradient of the configured loss", "statement": "Each per-sample SGDRegressor step changes the weights by minus the learning rate times the (sub)gradient of the configured loss plus penalty, rescaled to norm at most 10, and the intercept by minus the learning rate times its derivative; PartialFit on a concatenation equals PartialFit on the pieces in order for the non-adaptive schedules; a batch of the wrong width is refused without changing the model.", "quantifier": "every weight vector, sample, loss, penalty and batch split", "why_tests_cant": "all inputs and splits", "anchors": ["sklearn/linear_model/sgd_regressor.go"]}
{"id": "C45", "title": "Passive-aggressive updates are minimal corrections", "statement": "A passive-aggressive step leaves the model unchanged iff the loss on the sample is zero, and otherwise moves to the model minimising half the squared distance to the old one plus C times the squared loss on that sample (intercept included when one is fitted).", "quantifier": "every weight vector and sample", "why_tests_cant": "projection optimality over all alternatives", "anchors": ["sklearn/linear_model/passive_aggressive.go"]}
{"id": "C46", "title": "Logistic regression probabilities and labels are consistent", "statement": "PredictProba rows are in [0,1] and sum to 1; Predict returns the positive class iff its probability is at least one half (binary) or a class of maximal probability (multiclass); labels returned are training classes.", "quantifier": "every fitted model and sample", "why_tests_cant": "all inputs", "anchors": ["sklearn/linear_model/logistic.go:PredictProba", "sklearn/linear_model/logistic.go:Predict"]}
{"id": "C47", "title": "Tree traversal returns exactly one leaf and never loops", "statement": "For a tree whose child indices point forward, Tree.Predict terminates and returns the value of the unique leaf whose path conditions (x <= threshold left, otherwise right; missing value by the default direction) hold.", "quantifier": "every well-formed tree of any size and every feature vector including NaN", "why_tests_cant": "structural induction over all trees", "anchors": ["sklearn/lightgbm/model.go:Tree.Predict"]}
{"id": "C48", "title": "Model JSON round trip preserves predictions", "statement": "LoadFromJSON(ToJSON(model)) predicts the same as model on every input.", "quantifier": "every trained (numeric) model and every input", "why_tests_cant": "all tree shapes", "anchors": ["sklearn/lightgbm/loader.go:ToJSON", "sklearn/lightgbm/loader.go:LoadFromJSON"]}
{"id": "C49", "title": "Text model round trip preserves predictions", "statement": "A model saved with SaveToText and loaded again predicts the same as the original.", "quantifier": "every model and input", "why_tests_cant": "all tree shapes", "anchors": ["sklearn/lightgbm/model.go:SaveToText", "sklearn/lightgbm/loader.go:LoadFromReader"]}
{"id": "C50", "title": "The leaves loader compiles LightGBM trees correctly", "statement": "For every well-formed LightGBM text tree with numerical splits the leaves loader succeeds and the compiled LeavesTree predicts the value of the leaf reached by walking the original child arrays.", "quantifier": "every tree-shaped child array of any size and every feature vector", "why_tests_cant": "compiler-correctness statement over all trees", "anchors": ["sklearn/lightgbm/leaves_loader.go:readLeavesTree", "sklearn/lightgbm/leaves_tree.go:Predict"]}
{"id": "C51", "title": "The JSON loader compiles LightGBM trees correctly", "statement": "For every JSON tree the LeavesTree produced by the JSON loader predicts the value of the leaf reached by walking the JSON tree.", "quantifier": "every tree and feature vector", "why_tests_cant": "all tree shapes", "anchors": ["sklearn/lightgbm/json_loader.go:convertJSONTree", "sklearn/lightgbm/leaves_tree.go:Predict"]}
{"id": "C52", "title": "Parallel prediction equals sequential prediction", "statement": "Predictor.Predict gives the same matrix whatever the number of threads and the deterministic flag, and prediction of a batch equals prediction row by row.", "quantifier": "every model, matrix, and thread count", "why_tests_cant": "all thread counts, all row counts", "anchors": ["sklearn/lightgbm/predictor.go:Predict"]}
{"id": "C53", "title": "Every prediction entry point agrees", "statement": "For a trained model, Model.Predict, Predictor.Predict, Predictor.PredictRawScore followed by the link function and the predictions used during training agree.", "quantifier": "every trained model and input", "why_tests_cant": "all models", "anchors": ["sklearn/lightgbm/model.go:Predict", "sklearn/lightgbm/predictor.go", "sklearn/lightgbm/trainer.go:updatePredictions"]}
{"id": "C54", "title": "Boosting training terminates and respects its limits", "statement": "Trainer.Fit terminates for every finite data set and parameter setting, and the trees respect MaxDepth, NumLeaves and MinDataInLeaf.", "quantifier": "every data set and parameter setting", "why_tests_cant": "termination is not testable", "anchors": ["sklearn/lightgbm/trainer.go:buildNode"]}
{"id": "C55", "title": "Objective gradients are derivatives of the reported loss", "statement": "For each built-in regression objective CalculateGradient is the derivative of CalculateLoss with respect to the prediction (wherever the loss has one: away from the kink of the absolute and quantile losses, at least 1e-7 from it for the absolute loss, and inside the documented clamp of raw scores to +-700) and CalculateHessian is positive.", "quantifier": "every target and prediction", "why_tests_cant": "derivative statement over the reals", "anchors": ["sklearn/lightgbm/objectives.go"]}
{"id": "C56", "title": "Objective initial scores minimise the loss over constants", "statement": "GetInitScore of L2 (mean), L1 (median) and quantile objectives minimises the total loss over all constant predictions.", "quantifier": "every target vector and every constant", "why_tests_cant": "optimality over all constants", "anchors": ["sklearn/lightgbm/objectives.go:GetInitScore"]}
{"id": "C57", "title": "Binary log loss objective reports the cross entropy", "statement": "BinaryLogLossObjective.CalculateLoss(p,t) equals -t log s(p) - (1-t) log(1-s(p)) for the sigmoid s.", "quantifier": "every raw score within the clamp range and target in [0,1]", "why_tests_cant": "all reals", "anchors": ["sklearn/lightgbm/objectives.go:BinaryLogLossObjective.CalculateLoss"]}
{"id": "C58", "title": "Early stopping stops exactly after the configured number of rounds without improvement", "statement": "Over any score sequence the best score/iteration is the first strict optimum so far, stopping is signalled at the first iteration that makes `rounds` consecutive non-improving updates, and never otherwise.", "quantifier": "every score sequence, direction and patience", "why_tests_cant": "history property", "anchors": ["sklearn/lightgbm/early_stopping.go:EarlyStopping"]}
{"id": "C59", "title": "Training with early stopping returns a model", "statement": "api.Train with WithEarlyStopping returns a booster truncated at the best iteration when the metric stops improving.", "quantifier": "every score sequence", "why_tests_cant": "control-flow property of an error path", "anchors": ["sklearn/lightgbm/api/train.go:Train", "sklearn/lightgbm/api/callbacks.go:EarlyStoppingCallback"]}
{"id": "C60", "title": "KFold partitions the samples", "statement": "KFold.Split yields k folds whose test sets partition the sample indices, sizes differ by at most one, each train set is the complement of its test set; for every shuffle.", "quantifier": "every n, k >= 1 and every shuffle permutation", "why_tests_cant": "all sizes and permutations", "anchors": ["sklearn/lightgbm/cross_validation.go:KFold.Split"]}
{"id": "C61", "title": "StratifiedKFold preserves class proportions", "statement": "StratifiedKFold.Split test sets partition the samples and for every class the number of its samples in two folds differs by at most one, whatever the map iteration order and shuffle.", "quantifier": "every label vector, k, shuffle and map order", "why_tests_cant": "map order and shuffles", "anchors": ["sklearn/lightgbm/cross_validation.go:StratifiedKFold.Split"]}
{"id": "C62", "title": "Exclusive feature bundling is lossless", "statement": "UnbundleFeatures(BundleFeatures(X)) = X for mutually exclusive features, and CreateBundles groups only features whose conflict rate is within the limit, each feature in at most one bundle.", "quantifier": "every matrix with exclusive features and every bundling the greedy algorithm outputs", "why_tests_cant": "all matrices", "anchors": ["sklearn/lightgbm/efb.go"]}
{"id": "C63", "title": "Histogram construction conserves gradients and counts", "statement": "Each feature histogram's bin counts and gradient/hessian sums add up to the totals over the node's rows, bin lookup returns the bin containing the value, and histogram subtraction gives the sibling's histogram, independent of how parallel workers interleave their merges.", "quantifier": "every data set, bin layout and schedule", "why_tests_cant": "all inputs and schedules", "anchors": ["sklearn/lightgbm/histogram_optimization.go", "sklearn/lightgbm/parallel_histogram.go"]}
{"id": "C64", "title": "Best split really is best", "statement": "The split found by scanning a histogram has maximal gain among all bin boundaries respecting the minimum leaf size, its counts and sums are those of the rows on the two sides of its threshold, across features the split of largest gain is taken, and without L1 regularisation the gain is the decrease of the regularised objective. For a feature with at most max_bin distinct values the gain is maximal among all thresholds.", "quantifier": "every histogram", "why_tests_cant": "maximality over all boundaries", "anchors": ["sklearn/lightgbm/histogram_optimization.go:FindBestSplit"]}
{"id": "C65", "title": "SHAP values explain the prediction", "statement": "Base value plus the sum of a sample's SHAP values equals the raw prediction.", "quantifier": "every model and sample", "why_tests_cant": "all trees", "anchors": ["sklearn/lightgbm/shap.go"]}
{"id": "C66", "title": "Confusion-matrix identities", "statement": "The confusion matrix entries sum to n, row sums are class supports, column sums are numbers of predictions, accuracy is trace/n, class precision and recall are the diagonal over the column and row sum, F1 twice the diagonal over both (zero if that is zero); accuracy, precision, recall and F1 are in [0,1]; AUC and LogLoss equal metrics.AUC and metrics.BinaryLogLoss on binary labels.", "quantifier": "every label/prediction vectors", "why_tests_cant": "all inputs", "anchors": ["sklearn/lightgbm/evaluation_metrics.go"]}
{"id": "C67", "title": "Tensor reshape and copy semantics", "statement": "RawData is row-major. NewTensor accepts exactly two positive dimensions whose product is the number of elements. Reshape to two positive dimensions with the same product keeps the row-major order, returns a tensor of the new dimensions and touches no existing tensor; any other shape is an error, or a panic for two negative dimensions with the right product. Copy has the same shape and elements and no sequence of writes through one is seen through the other.", "quantifier": "every tensor and target shape", "why_tests_cant": "all shapes", "anchors": ["core/tensor/tensor.go"]}
{"id": "C68", "title": "Memory-mapped dataset chunks round trip", "statement": "After SetChunk(start, M), GetChunk over the same rows returns M (Float64) and all other rows are unchanged; IterateChunks visits every row exactly once in order.", "quantifier": "every shape, chunk position and chunk size", "why_tests_cant": "index arithmetic over all shapes", "anchors": ["performance/large_scale.go:SetChunk", "performance/large_scale.go:GetChunk", "performance/large_scale.go:IterateChunks"]}
{"id": "C69", "title": "Matrix pool never shares a live buffer", "statement": "Over any sequence of Get/Put by clients that stop using a matrix after releasing it, no two live matrices share a buffer, a fresh matrix is all zeros, CurrentInUse equals the number of live matrices, and ToMat works for every live matrix.", "quantifier": "every call history and every choice sync.Pool makes", "why_tests_cant": "history property; sync.Pool may drop or return any pooled item", "anchors": ["performance/memory_optimizer.go:MatrixPool"]}
{"id": "C70", "title": "Memory budget is never exceeded", "statement": "MemoryEfficientBatch keeps 0 <= used <= max over every history of Allocate/Free with non-negative sizes, and Allocate fails exactly when the request would exceed the limit.", "quantifier": "every history of calls", "why_tests_cant": "history property", "anchors": ["performance/memory_optimizer.go:MemoryEfficientBatch"]}
{"id": "C71", "title": "Column-major relayout is a transposition", "statement": "OptimizeDataLayout maps element (i,j) of the row-major array to position (i,j) of the column-major array, is a permutation of the data, and applying it again with swapped dimensions restores the input.", "quantifier": "every shape and data", "why_tests_cant": "index arithmetic over all shapes", "anchors": ["performance/memory_optimizer.go:OptimizeDataLayout"]}
{"id": "C72", "title": "Parameter names round trip", "statement": "After LGBMRegressor.SetParams with a map that does not name a hyperparameter twice, GetParams reports under each canonical name the value given under any of its names when it has the right type (objective names normalised), the old value otherwise, and unknown names change nothing, whatever order Go visits the maps in. With two names of one hyperparameter in the map the result depends on that order.", "quantifier": "every parameter name and value", "why_tests_cant": "all names and aliases, map iteration order", "anchors": ["sklearn/lightgbm/parameter_mapping.go", "sklearn/lightgbm/lgbm_regressor.go:SetParams"]}
{"id": "C73", "title": "Decision tree training does not depend on row order", "statement": "DecisionTreeClassifier.Fit builds the same tree, classes and importances whatever the order of the training rows, however sort.Slice arranges equal values, and in whatever order the label map is iterated.", "quantifier": "every training set without NaN, every permutation of its rows, every admissible sort and map iteration order", "why_tests_cant": "all permutations; sort.Slice is unstable and map order random, so a test sees one of many executions", "anchors": ["sklearn/tree/tree.go:Fit", "sklearn/tree/tree.go:findBestSplit", "sklearn/tree/tree.go:extractClasses"]}
{"id": "C74", "title": "MiniBatchKMeans labels, inertia and predictions agree", "statement": "After a successful Fit, Labels() gives every training row the first of its nearest centres, Inertia() is the sum of squared distances of the rows to the centres of their labels, and Predict on the training data returns Labels().", "quantifier": "all training matrices with at least nClusters rows and all sequences of random draws", "why_tests_cant": "The random initialisation and mini-batch order make each run different; tests see a few seeds.", "anchors": ["sklearn/cluster/minibatch_kmeans.go:Fit", "sklearn/cluster/minibatch_kmeans.go:Labels", "sklearn/cluster/minibatch_kmeans.go:Inertia"]}
{"id": "C75", "title": "A rejected MiniBatchKMeans.Fit leaves the model as it was", "statement": "If Fit returns an error, Predict, Transform, Labels, Inertia and ClusterCenters answer as before the call.", "quantifier": "all fitted models, all rejected training matrices and all queries", "why_tests_cant": "Concerns the state after every possible rejected call; tests check the error only.", "anchors": ["sklearn/cluster/minibatch_kmeans.go:Fit", "sklearn/cluster/minibatch_kmeans.go:Predict"]}
{"id": "C76", "title": "How MiniBatchKMeans data is cut into batches does not matter", "statement": "Once the centres are initialised, PartialFit on two batches in turn gives the same model as one PartialFit on their rows stacked.", "quantifier": "all models with initialised centres and all pairs of batches", "why_tests_cant": "Ranges over all batch splits and histories.", "anchors": ["sklearn/cluster/minibatch_kmeans.go:PartialFit"]}
{"id": "C77", "title": "Pipeline.FitTransform is Fit followed by Transform", "statement": "FitTransform(X, y) succeeds exactly when Fit(X, y) followed by Transform(X) does, and returns the same matrix (as its documentation says).", "quantifier": "every list of steps, every estimator behaviour and input", "why_tests_cant": "Quantifies over step lists, estimator types and behaviours.", "anchors": ["sklearn/pipeline/pipeline.go:FitTransform", "sklearn/pipeline/pipeline.go:Fit", "core/model/transformer.go:Transformer"]}
{"id": "C78", "title": "A failed refit leaves a fitted pipeline's predictions unchanged", "statement": "If Fit on an already fitted pipeline returns an error, Predict afterwards answers as before.", "quantifier": "every pipeline, training history and failing step", "why_tests_cant": "The failing step and the history are unbounded.", "anchors": ["sklearn/pipeline/pipeline.go:Fit", "sklearn/pipeline/pipeline.go:Predict"]}
{"id": "C79", "title": "Pipeline steps are reachable by name", "statement": "If step names are distinct, NamedSteps()[name] is the estimator of the step of that name and other names are absent; the names Make generates are always distinct.", "quantifier": "every list of steps", "why_tests_cant": "All lengths and names.", "anchors": ["sklearn/pipeline/pipeline.go:New", "sklearn/pipeline/pipeline.go:Make", "sklearn/pipeline/pipeline.go:NamedSteps"]}
{"id": "C80", "title": "scikit-learn JSON files of linear.LinearRegression round trip", "statement": "LoadFromSKLearnReader accepts exactly the version 1.0 LinearRegression documents with at least one coefficient and a matching feature count and leaves the model unchanged otherwise; loading what ExportToSKLearnWriter wrote gives a model with the same predictions on every input.", "quantifier": "every document, every fitted model and every input", "why_tests_cant": "all documents and models; includes the state after rejected loads", "anchors": ["linear/regression.go:LoadFromSKLearnReader", "linear/regression.go:ExportToSKLearnWriter", "core/model/sklearn_import.go:LoadLinearRegressionParams"]}
{"id": "C81", "title": "linear_model.LinearRegression solves the least-squares problem", "statement": "When Fit of linear_model.LinearRegression (without the positive option) succeeds, its coefficients and intercept minimise the residual sum of squares over all coefficients (with intercept 0 when no intercept is fitted), and Predict returns X.coef + intercept.", "quantifier": "every design matrix, target and option", "why_tests_cant": "optimality over all alternative weights", "anchors": ["sklearn/linear_model/linear_regression.go:Fit", "sklearn/linear_model/linear_regression.go:Predict"]}
{"id": "C82", "title": "The positive option gives the best non-negative coefficients", "statement": "With the positive option, Fit of linear_model.LinearRegression returns non-negative coefficients that minimise the residual sum of squares among non-negative coefficients.", "quantifier": "every design matrix and target", "why_tests_cant": "optimality over all non-negative alternatives", "anchors": ["sklearn/linear_model/linear_regression.go:Fit"]}
{"id": "C83", "title": "Streaming learners process every batch once, in order, test before train", "statement": "FitStream trains on the batches in the order sent, each exactly once, and returns nil only when the channel is closed and all were learned; PredictStream and FitPredictStream deliver exactly the successful predictions in order, FitPredictStream always answering a batch with the model trained on the earlier batches only; after cancellation they can finish at once even when nobody reads the output.", "quantifier": "every estimator, every batch sequence and every schedule of producer, consumer and cancellation", "why_tests_cant": "interleavings of producer, consumer and cancellation are unbounded", "anchors": ["sklearn/linear_model/sgd_regressor.go:FitStream", "sklearn/linear_model/sgd_regressor.go:FitPredictStream", "sklearn/linear_model/sgd_classifier.go:PredictStream", "sklearn/cluster/minibatch_kmeans.go:PredictStream"]}
{"id": "C84", "title": "SGDRegressor.Fit visits every row once per epoch and stops when it says", "statement": "Each epoch of Fit trains on every row exactly once (in some order); Fit runs at most the configured number of epochs and stops earlier only when the losses of the last five epochs lie within the tolerance of each other.", "quantifier": "every data set, option and shuffle", "why_tests_cant": "all random permutations and loss histories", "anchors": ["sklearn/linear_model/sgd_regressor.go:Fit"]}
{"id": "C85", "title": "Refitting SGDRegressor without warm start forgets the past", "statement": "Fit without warm start gives the same model whatever was fitted before.", "quantifier": "every training history and data set", "why_tests_cant": "history property", "anchors": ["sklearn/linear_model/sgd_regressor.go:Fit", "sklearn/linear_model/sgd_regressor.go:reset"]}
{"id": "C86", "title": "SGDClassifier steps follow the gradient of the configured loss", "statement": "One training sample moves, for every class, the weights and intercept of its one-versus-rest problem by minus the learning rate times a (sub)gradient of the configured loss plus penalty.", "quantifier": "every weight matrix, sample, label, loss and penalty", "why_tests_cant": "all real weights and samples", "anchors": ["sklearn/linear_model/sgd_classifier.go:updateWeights"]}
{"id": "C87", "title": "SGDClassifier probabilities, labels and decision values agree", "statement": "PredictProba rows are positive and sum to 1, and Predict returns a training class with the greatest decision value and the greatest probability.", "quantifier": "every fitted model and input", "why_tests_cant": "all inputs, including scores of any size", "anchors": ["sklearn/linear_model/sgd_classifier.go:Predict", "sklearn/linear_model/sgd_classifier.go:PredictProba", "sklearn/linear_model/sgd_classifier.go:DecisionFunction"]}
{"id": "C88", "title": "A failed refit leaves a fitted logistic regression as it was", "statement": "If Fit on an already fitted LogisticRegression returns an error, the model's later predictions are those it made before the call.", "quantifier": "every fitted model, every data set Fit refuses, every later batch", "why_tests_cant": "The state left by each error path for every earlier model must be compared with the state before; a test looks at one failing call.", "anchors": ["sklearn/linear_model/logistic.go: Fit, initializeWeights, fitMultinomial, fitLBFGS"]}
{"id": "C89", "title": "Logistic regression training reaches the optimum it claims", "statement": "The function and gradient handed to the optimiser are the regularised mean log loss and its gradient; when the lbfgs solver stops with success, no other weights and intercept have an objective smaller by more than tol times their distance, for the binary problem and for every one-versus-rest problem. Gradient descent takes exactly max_iter steps along the negative gradient with the documented learning rate unless the gradient falls below tol.", "quantifier": "every data set, label set, penalty, C and starting point", "why_tests_cant": "Optimality compares the result with all other weight vectors, which no test can enumerate.", "anchors": ["sklearn/linear_model/logistic.go: Fit, fitLBFGS, fitGradientDescent, fitOvR"]}
{"id": "C90", "title": "Logistic regression parameters round trip", "statement": "Giving the result of GetParams of one LogisticRegression to SetParams of another succeeds, and then both report the same parameters; whether SetParams accepts a map, and what it leads to if so, does not depend on Go's random map order.", "quantifier": "every parameter assignment, every target model, every order of walking the map", "why_tests_cant": "Map order is random, so a passing test shows one order only, and the claim is about every combination of values.", "anchors": ["sklearn/linear_model/logistic.go: GetParams, SetParams"]}
{"id": "C91", "title": "A refused SetParams changes nothing", "statement": "If SetParams of LogisticRegression returns an error, the parameters are what they were before.", "quantifier": "every model, every map with an unknown name, every order of walking the map", "why_tests_cant": "The effect of a refused call depends on the random order in which the map is walked.", "anchors": ["sklearn/linear_model/logistic.go: SetParams"]}
{"id": "C92", "title": "Model.Predict reports probabilities for binary objectives", "statement": "For a binary or cross-entropy model, every value Model.Predict returns is greater than 0 and at most 1, whatever the trees and features are.", "quantifier": "every ensemble, every feature matrix, every raw score", "why_tests_cant": "the exponential is computed by a polynomial that could become negative for some raw scores; tests see a few scores only", "anchors": ["sklearn/lightgbm/model.go: Model.Predict, PredictSingle, sigmoid, exp"]}
{"id": "C93", "title": "Model.Predict's probability exceeds one half exactly when the raw score is positive", "statement": "For a binary model, Model.Predict returns a value above 1/2 exactly for the rows whose raw score (PredictRawScore) is positive, so thresholding at 1/2 gives the class the ensemble votes for.", "quantifier": "every ensemble and every feature vector, i.e. every raw score", "why_tests_cant": "it holds for the small scores used in tests and fails for large ones", "anchors": ["sklearn/lightgbm/model.go: Model.Predict, sigmoid, exp", "sklearn/lightgbm/predictor_extended.go: PredictRawScore"]}
{"id": "C94", "title": "Categorical splits of loaded models are honoured", "statement": "A categorical split of a LightGBM text or JSON file sends a sample left exactly when its value is one of the split's left categories.", "quantifier": "every loaded categorical split and every value", "why_tests_cant": "tests load one file with numerical splits; the claim is about every split and value", "anchors": ["sklearn/lightgbm/leaves_tree.go:categoricalDecision", "sklearn/lightgbm/leaves_loader.go:createNode", "sklearn/lightgbm/json_loader.go:convertJSONTree"]}
{"id": "C95", "title": "Loaded models predict single samples and batches alike", "statement": "LeavesPredictor.PredictBatch gives each row the transformation of PredictRaw, and LeavesPredictor.PredictSingle/Predict give the same value for the same row.", "quantifier": "every loaded model and every batch", "why_tests_cant": "a test compares on one model; the initial score is nonzero only for some files", "anchors": ["sklearn/lightgbm/leaves_predictor.go:PredictSingle,PredictRaw,PredictBatch"]}
{"id": "C96", "title": "The text loader ends on every file", "statement": "readLeavesTree ends on every tree block, also with shared, cyclic or out-of-range child references.", "quantifier": "every tree block", "why_tests_cant": "malformed files are unboundedly many; a test tries a few", "anchors": ["sklearn/lightgbm/leaves_loader.go:readLeavesTree"]}
{"id": "C97", "title": "LightGBM text files predict as LightGBM does", "statement": "A tree loaded with LoadFromReader/LoadFromFile gives each sample the value of the leaf LightGBM assigns it to, through Model.Predict and through Predictor.", "quantifier": "every LightGBM text tree with numerical splits and every sample", "why_tests_cant": "tests compare one file on a few samples", "anchors": ["sklearn/lightgbm/loader.go:LoadFromReader,finalizeTree", "sklearn/lightgbm/model.go:Tree.Predict", "sklearn/lightgbm/predictor.go:predictTree"]}
{"id": "C98", "title": "Submatrix views alias their parent and never leave the memory", "statement": "At and Set on a ZeroCopyMatrix, and on any Slice of it, touch only the memory it was made from, panic exactly for indices outside the view, and entry (i,j) of a Slice(i0,..,j0,..) is entry (i0+i,j0+j) of its parent for reads and writes.", "quantifier": "every slice, shape, nesting of views and index", "why_tests_cant": "unsafe pointer arithmetic over all shapes", "anchors": ["performance/memory_optimizer.go:ZeroCopyMatrix"]}
{"id": "C99", "title": "Aligned buffers are aligned and long enough", "statement": "AlignedAlloc(size, alignment) returns a slice of length size that starts at a multiple of alignment, for every alignment that is a positive multiple of 8.", "quantifier": "every size, alignment and address the allocator returns", "why_tests_cant": "the address comes from the runtime", "anchors": ["performance/memory_optimizer.go:AlignedAlloc"]}
{"id": "C100", "title": "Memory-mapped data survives closing", "statement": "After Close, opening the file again with the same shape and type gives a dataset whose every chunk reads as before.", "quantifier": "every contents, shape and type", "why_tests_cant": "ranges over all contents and shapes", "anchors": ["performance/large_scale.go:NewMemoryMappedDataset", "performance/large_scale.go:Close"]}
{"id": "C101", "title": "Stratified folds have balanced sizes", "statement": "The test folds of StratifiedKFold differ in size by at most one.", "quantifier": "every label vector, k, shuffle and map order", "why_tests_cant": "all label vectors", "anchors": ["sklearn/lightgbm/cross_validation.go:StratifiedKFold.Split"]}
{"id": "C102", "title": "Cross-validation is schedule independent and does not leak the test fold", "statement": "CrossValidate runs the folds in goroutines; the result does not depend on their interleaving, and the model of a fold depends only on the training rows of that fold.", "quantifier": "every data set, splitter, parameters and interleaving", "why_tests_cant": "schedules, and all pairs of data sets differing on the test rows", "anchors": ["sklearn/lightgbm/cross_validation.go:CrossValidate"]}
{"id": "C103", "title": "Cross-validation reports the best fold", "statement": "GetBestScore and GetBestFold of a result are the optimum of the test scores and its first position, for both directions of metric.", "quantifier": "every list of scores", "why_tests_cant": "all score lists", "anchors": ["sklearn/lightgbm/cross_validation.go:CVResult"]}
{"id": "C104", "title": "Training with a validation set keeps the trees up to the best iteration", "statement": "After FitWithValidation with early stopping the ensemble ends at the iteration with the best validation metric.", "quantifier": "every sequence of trees and validation scores, patience and metric", "why_tests_cant": "history property", "anchors": ["sklearn/lightgbm/early_stopping.go:FitWithValidation"]}
{"id": "C105", "title": "Callback patience counts iterations", "statement": "EarlyStoppingCallback(rounds) ends FitWithCallbacks after `rounds` iterations without improvement and RecordEvaluation records one entry per iteration.", "quantifier": "every loss sequence, patience and iteration count", "why_tests_cant": "history property", "anchors": ["sklearn/lightgbm/callbacks.go:EarlyStoppingCallback", "sklearn/lightgbm/callbacks.go:RecordEvaluation", "sklearn/lightgbm/trainer.go:Fit"]}
{"id": "C106", "title": "api.Train builds the requested number of rounds", "statement": "api.Train(params, data, n, …) returns a booster with n boosting iterations, or the training error.", "quantifier": "every n, parameters and data", "why_tests_cant": "all round counts and outcomes of training", "anchors": ["sklearn/lightgbm/api/train.go:Train", "sklearn/lightgbm/api/train.go:trainOneIteration"]}
{"id": "C107", "title": "WithNumIteration limits the trees used for prediction", "statement": "Booster.Predict(data, WithNumIteration(n)) uses the first n iterations.", "quantifier": "every model, n and data", "why_tests_cant": "all models and limits", "anchors": ["sklearn/lightgbm/api/booster.go:Predict", "sklearn/lightgbm/api/booster.go:WithNumIteration"]}
{"id": "C108", "title": "A cloned booster behaves like the original and is independent of it", "statement": "Booster.Clone predicts as the original for every input, and changing one does not change the other.", "quantifier": "every booster (trained or loaded), options, data and later operation", "why_tests_cant": "all boosters and histories", "anchors": ["sklearn/lightgbm/api/booster.go:Clone"]}
{"id": "C109", "title": "Booster.FeatureImportance describes the current model", "statement": "At any time FeatureImportance returns the importance of the model the booster holds.", "quantifier": "every history of importance queries and model replacements", "why_tests_cant": "history property", "anchors": ["sklearn/lightgbm/api/booster.go:FeatureImportance", "sklearn/lightgbm/api/booster.go:SetModel"]}
{"id": "C110", "title": "A loaded booster can be inspected and saved again", "statement": "The trees reported and saved by a booster are those it predicts with, for trained and for loaded boosters.", "quantifier": "every booster", "why_tests_cant": "all boosters", "anchors": ["sklearn/lightgbm/api/booster.go:LoadModel", "sklearn/lightgbm/api/booster.go:NumTrees", "sklearn/lightgbm/api/booster.go:SaveModel"]}
{"id": "C111", "title": "Link-function objectives start from the best constant", "statement": "GetInitScore of the Poisson, Gamma, binary, Tweedie and Huber objectives is a constant raw score of least total loss (cross entropy for binary) over the training targets.", "quantifier": "every target vector for which the mean is inside the clamp range, and every competing constant", "why_tests_cant": "optimality over all constants", "anchors": ["sklearn/lightgbm/objectives.go:PoissonObjective.GetInitScore", "sklearn/lightgbm/objectives.go:GammaObjective.GetInitScore", "sklearn/lightgbm/objectives.go:BinaryLogLossObjective.GetInitScore", "sklearn/lightgbm/objectives.go:TweedieObjective.GetInitScore", "sklearn/lightgbm/objectives.go:HuberObjective.GetInitScore"]}
{"id": "C112", "title": "Multiclass softmax objective is consistent under every schedule", "statement": "The class probabilities of a sample are positive and sum to one, its gradients sum to zero and are the derivatives of the reported loss in each logit, its Hessians are positive, the loss is minus the logarithm of the true class's probability, and the concurrently computed gradients are those of the sequential computation.", "quantifier": "every number of classes and samples, all logits and labels, every interleaving of the goroutines", "why_tests_cant": "real-valued identities and schedules", "anchors": ["sklearn/lightgbm/objectives.go:MulticlassLogLoss.CalculateGradientsAndHessians", "sklearn/lightgbm/objectives.go:MulticlassLogLoss.CalculateLoss", "sklearn/lightgbm/objectives.go:stableSoftmax"]}
{"id": "C113", "title": "Macro-averaged precision, recall and F1", "statement": "With two classes Precision, Recall and F1Score are those of the larger label; otherwise each is the average over the classes of the per-class value.", "quantifier": "every label and prediction vector", "why_tests_cant": "all inputs", "anchors": ["sklearn/lightgbm/evaluation_metrics.go:Precision", "sklearn/lightgbm/evaluation_metrics.go:Recall", "sklearn/lightgbm/evaluation_metrics.go:F1Score"]}
{"id": "C114", "title": "Tensor slices are live windows", "statement": "Slice succeeds exactly on non-empty ranges inside the tensor and never panics; reads and writes at (i,j) of the slice are reads and writes at (r0+i,c0+j) of the original, and a Set changes only the element it names.", "quantifier": "every tensor, range, index and later heap", "why_tests_cant": "all shapes and histories of writes", "anchors": ["core/tensor/tensor.go:Slice", "core/tensor/tensor.go:Set", "core/tensor/tensor.go:At"]}
{"id": "C115", "title": "Tensor shape agrees with its dimensions and T transposes", "statement": "Shape() always equals the dimensions reported by Dims, whatever the program does afterwards, and T() returns the transpose.", "quantifier": "every tensor and every later write", "why_tests_cant": "all histories", "anchors": ["core/tensor/tensor.go:NewTensor", "core/tensor/tensor.go:Shape", "core/tensor/tensor.go:T"]}
{"id": "C116", "title": "Hyperparameters can be copied between regressors", "statement": "Passing the result of GetParams of one LGBMRegressor to SetParams of another gives the second all hyperparameters reported by the first, with the objective replaced by its canonical name, and copying again changes nothing.", "quantifier": "every pair of regressors and every map iteration order", "why_tests_cant": "all values and iteration orders", "anchors": ["sklearn/lightgbm/lgbm_regressor.go:GetParams", "sklearn/lightgbm/lgbm_regressor.go:SetParams", "sklearn/lightgbm/parameter_mapping.go:ValidateObjective"]}
{"id": "C117", "title": "Classifier hyperparameters reported by GetParams can be set", "statement": "Each hyperparameter reported by LGBMClassifier.GetParams, set through SetParams under that name with a value of its type, is reported with that value afterwards, and the others keep theirs.", "quantifier": "every map and value", "why_tests_cant": "all names, values and iteration orders", "anchors": ["sklearn/lightgbm/lgbm_classifier.go:GetParams", "sklearn/lightgbm/lgbm_classifier.go:SetParams"]}
{"id": "C118", "title": "Categorical splits are optimal over all subsets", "statement": "The split found for a categorical feature has the largest gain among all divisions of the categories into two non-empty sets.", "quantifier": "every histogram and every subset of the categories", "why_tests_cant": "exponentially many subsets", "anchors": ["sklearn/lightgbm/histogram_optimization.go:FindBestCategoricalSplitFromHistogram"]}
{"id": "C119", "title": "The split applied is the split evaluated", "statement": "The numbers of rows promised by the split found are those obtained when the trainer sends rows at or below its threshold left, and the gain reported is the decrease of the objective regularised as configured, including L1.", "quantifier": "every data set and parameter setting", "why_tests_cant": "all data", "anchors": ["sklearn/lightgbm/histogram_optimization.go:FindBestSplitFromHistogram", "sklearn/lightgbm/histogram_optimization.go:calculateGain", "sklearn/lightgbm/trainer.go:splitData"]}
{"id": "C120", "title": "The hand-written quicksort sorts", "statement": "quickSort rearranges exactly the given segment of the slice, leaves it sorted, and terminates; the rearrangement holds for every comparison, also with NaN.", "quantifier": "every slice and segment", "why_tests_cant": "all slices", "anchors": ["sklearn/lightgbm/parallel_histogram.go:quickSort"]}
{"id": "C121", "title": "Training rows end where they were grouped", "statement": "For every tree grown by the trainer and every training row given to it, Tree.Predict sends the row to the leaf whose group of rows contained it, so the prediction of a training row is the leaf value fitted to a group containing it.", "quantifier": "every data set, gradients, depth and split finder", "why_tests_cant": "all data and trees, including missing values", "anchors": ["sklearn/lightgbm/trainer.go:buildNode", "sklearn/lightgbm/trainer.go:splitData", "sklearn/lightgbm/model.go:Tree.Predict"]}
{"id": "C122", "title": "Leaf values are optimal", "statement": "The value of each leaf minimises the second-order objective with the configured L1 and L2 regularisation over the rows of the leaf.", "quantifier": "all gradients, hessians, lambda and alpha with positive denominator, and every competing value", "why_tests_cant": "optimality over the reals", "anchors": ["sklearn/lightgbm/trainer_params.go:ApplyLeafRegularization", "sklearn/lightgbm/trainer.go:calculateLeafValue"]}
{"id": "C123", "title": "Row and feature subsampling draw the promised distinct indices", "statement": "SampleInstances and SampleFeatures return the configured number of distinct valid indices, all of them when sampling is off, and every subset arrangement is equally reachable over the random draws.", "quantifier": "every size, fraction, frequency, iteration and random stream", "why_tests_cant": "all random streams", "anchors": ["sklearn/lightgbm/trainer_params.go:SampleInstances", "sklearn/lightgbm/trainer_params.go:SampleFeatures"]}
{"id": "C124", "title": "GOSS sampling keeps the large gradients and is unbiased", "statement": "With boosting type goss the rows of largest gradient are all kept, the others are drawn without repetition and weighted so that the total weight of the sampled small-gradient rows equals their number, and gradients are restored after the tree.", "quantifier": "every gradient vector, rates and random stream", "why_tests_cant": "all random streams", "anchors": ["sklearn/lightgbm/trainer.go:gosssampling", "sklearn/lightgbm/trainer.go:Fit"]}
{"id": "C125", "title": "DART drops and normalises trees", "statement": "The trees selected for dropping are distinct, exist and are at most MaxDrop; normalisation keeps the contribution of the remaining ensemble; and boosting type dart uses them.", "quantifier": "every number of trees, rate and random stream", "why_tests_cant": "all random streams", "anchors": ["sklearn/lightgbm/trainer.go:selectDARTDropIndices", "sklearn/lightgbm/trainer.go:normalizeDARTWeights", "sklearn/lightgbm/trainer.go:Fit"]}
{"id": "C126", "title": "Class weights balance the classes", "statement": "With class_weight balanced each class has the same total weight and the total weight is the number of rows; given weights are used as given.", "quantifier": "every label vector", "why_tests_cant": "all label vectors and map orders", "anchors": ["sklearn/lightgbm/trainer.go:computeClassWeights"]}
{"id": "C127", "title": "Monotone constraints are respected", "statement": "With MonotoneConstraints 1 or -1 for a feature, every split on that feature orders the values of its two sides accordingly, and the trained model is monotone in it.", "quantifier": "every data set and constraint list", "why_tests_cant": "all data", "anchors": ["sklearn/lightgbm/trainer.go:satisfiesMonotoneConstraint", "sklearn/lightgbm/trainer.go:findBestSplitForFeatureWithHistogram", "sklearn/lightgbm/trainer.go:findBestSplitWithHistogram", "sklearn/lightgbm/trainer.go:buildNode"]}
{"id": "C128", "title": "Boosting fits each tree to the gradients left by the previous ones", "statement": "A finished training has the requested number of trees (fewer only if a callback stops it); each is grown from the weighted gradients at the scores of the trees before it; the cached scores and reported losses are those of the ensemble; with squared error and learning rate in [0,2] the training loss never increases; with a positive depth limit and matching sizes training always finishes.", "quantifier": "every data set, objective, parameters, callbacks and random stream", "why_tests_cant": "histories of iterations of any length", "anchors": ["sklearn/lightgbm/trainer.go:Fit", "sklearn/lightgbm/trainer.go:calculateGradients", "sklearn/lightgbm/trainer.go:updatePredictions", "sklearn/lightgbm/trainer.go:calculateLoss"]}
{"id": "C129", "title": "The returned model scores the training rows as the trainer did", "statement": "GetModel after Fit returns a model whose raw score of a training row is the score the trainer used for its gradients and losses.", "quantifier": "every data set, parameters and number of iterations", "why_tests_cant": "all data and histories", "anchors": ["sklearn/lightgbm/trainer.go:GetModel", "sklearn/lightgbm/trainer.go:updatePredictions", "sklearn/lightgbm/model.go:PredictSingle"]}
{"id": "C130", "title": "Training again starts over", "statement": "The trees and scores after Fit depend only on its arguments and the parameters, not on an earlier Fit of the same trainer.", "quantifier": "every sequence of Fit calls", "why_tests_cant": "histories of calls", "anchors": ["sklearn/lightgbm/trainer.go:Fit"]}
{"id": "C131", "title": "A bundling optimizer can be reused", "statement": "CreateBundles gives the same bundles on an optimizer that was used before as on a new one with the same settings.", "quantifier": "every pair of matrices and every setting", "why_tests_cant": "a test builds a new optimizer each time", "anchors": ["sklearn/lightgbm/efb.go:CreateBundles"]}
{"id": "C132", "title": "Bundles respect the limits and the mapping is faithful", "statement": "CreateBundles never fails; its bundles are disjoint, contain only sparse columns, have at least two columns, hold no pair of columns above the conflict limit, and number at most MaxBundles. With two sparse columns or more, two columns map to the same new column exactly if they are bundled together, the new columns have no gaps, and BundleFeatures gives as many columns as GetBundlingInfo reports.", "quantifier": "every matrix, every setting, every order in which the sort leaves equal degrees", "why_tests_cant": "all matrices and all settings", "anchors": ["sklearn/lightgbm/efb.go:CreateBundles", "sklearn/lightgbm/efb.go:greedyBundling", "sklearn/lightgbm/efb.go:createFeatureMapping", "sklearn/lightgbm/efb.go:BundleFeatures", "sklearn/lightgbm/efb.go:GetBundlingInfo"]}
{"id": "C133", "title": "SHAP interactions are symmetric", "statement": "The interaction matrix CalculateInteractions gives for a sample is symmetric, its diagonal holds the sample's SHAP values, and the interaction of two features does not depend on the order in which they are named.", "quantifier": "every model and sample", "why_tests_cant": "all trees", "anchors": ["sklearn/lightgbm/shap.go:calculateSampleInteractions", "sklearn/lightgbm/shap.go:calculatePairwiseInteraction"]}
{"id": "C134", "title": "A feature no tree uses has SHAP value 0", "statement": "If no split of any tree asks about a feature, its SHAP value is 0 for every sample.", "quantifier": "every model, well-formed or not, and every sample", "why_tests_cant": "all trees", "anchors": ["sklearn/lightgbm/shap.go:calculateSampleSHAP"]}
{"id": "C135", "title": "The provider's level is the threshold of its loggers", "statement": "After SetLevel(l) on the provider, a message is written exactly if its level is at least l.", "quantifier": "every level, every message level, every logger obtained afterwards", "why_tests_cant": "All pairs of levels on two different numeric scales", "anchors": ["pkg/log/logger.go:SetLevel", "pkg/log/logger.go:convertLevel"]}
{"id": "C136", "title": "A logger that is not Enabled writes nothing", "statement": "If Enabled(level) is false, a call at that level writes nothing; for a logger obtained after the last SetLevel it is true exactly if the call writes.", "quantifier": "every history of SetLevel and With calls, every level, every argument list", "why_tests_cant": "all histories", "anchors": ["pkg/log/logger.go:Enabled", "pkg/log/logger.go:ToLogLevel"]}
{"id": "C137", "title": "Fields given to With appear in the entries of the derived logger", "statement": "Every entry written through With(fields) carries these fields, in addition to those of the call.", "quantifier": "every list of fields, every later call", "why_tests_cant": "all field lists and chains of With", "anchors": ["pkg/log/logger.go:With", "pkg/log/logger.go:GetLoggerWithName"]}
{"id": "C138", "title": "The test logger captures every enabled call with its message", "statement": "After a call at an enabled level, GetLogEntries returns one more entry, with that level, message and fields.", "quantifier": "every message, every list of fields and values including NaN", "why_tests_cant": "all values a field can take", "anchors": ["pkg/log/testing.go:TestLogger", "pkg/log/testing.go:GetLogEntries"]}
{"id": "C139", "title": "With before a call equals fields in the call", "statement": "With(a).Info(m, b) writes the entry of Info(m, a then b), and a later field wins over an earlier one of the same name.", "quantifier": "every chain of With and every call on the test logger", "why_tests_cant": "all chains of With", "anchors": ["pkg/log/testing.go:With", "pkg/log/testing.go:writeLog"]}
{"id": "C140", "title": "ContainsField finds what was logged", "statement": "ContainsField(k, v) is true if and only if some captured entry has field k with value v.", "quantifier": "every sequence of entries, every key and value", "why_tests_cant": "all value types", "anchors": ["pkg/log/testing.go:ContainsField"]}
{"id": "C141", "title": "Concurrent logging through one test logger loses nothing", "statement": "Whatever the schedule, after several goroutines logged through one test logger the buffer holds every entry exactly once, those of a goroutine in its order; no schedule blocks for ever.", "quantifier": "every number of goroutines, every list of calls per goroutine, every schedule", "why_tests_cant": "interleavings", "anchors": ["pkg/log/testing.go:writeLog"]}
{"id": "C142", "title": "Concurrent logging through derived test loggers loses nothing", "statement": "The same for goroutines that use loggers derived from one test logger by With.", "quantifier": "every schedule", "why_tests_cant": "interleavings; the loggers have different mutexes and one buffer", "anchors": ["pkg/log/testing.go:With"]}
{"id": "C143", "title": "Save then load gives the model back; a crash never gives a wrong one", "statement": "If SaveModel returns nil, LoadModel of the file returns the model saved. If the process stops or a write fails at any point, LoadModel of the file afterwards fails, returns the old content unchanged, or returns the new model: never a mixture.", "quantifier": "every model the codec can encode, every point of failure, every previous content of the file", "why_tests_cant": "crash points", "anchors": ["core/model/persistence.go:SaveModel", "core/model/persistence.go:LoadModel", "core/model/persistence.go:SaveModelToWriter", "core/model/persistence.go:LoadModelFromReader"]}
{"id": "C144", "title": "A save that fails keeps the model that was in the file", "statement": "If SaveModel fails or the process stops before it returns, the model that was in the file can still be loaded.", "quantifier": "every point of failure", "why_tests_cant": "crash points", "anchors": ["core/model/persistence.go:SaveModel"]}
{"id": "C145", "title": "Loading replaces the whole content of the target", "statement": "LoadModel into a value that is already in use leaves exactly the saved model.", "quantifier": "every saved model and every previous content of the target", "why_tests_cant": "all pairs of models", "anchors": ["core/model/persistence.go:LoadModel"]}
{"id": "C146", "title": "A truncated model file is rejected", "statement": "Loading a file that lost a non-empty part at its end returns an error.", "quantifier": "every model and every length of the truncated file, for SaveModel and for the text form of gradient boosting models", "why_tests_cant": "all truncations of all files", "anchors": ["core/model/persistence.go:LoadModel", "sklearn/lightgbm/loader.go:LoadFromFile"]}
{"id": "C147", "title": "A label column of zeros and ones is recognised as binary", "statement": "A dataset is marked as binary exactly if every label is 0 or 1, whatever the order of the rows.", "quantifier": "every label column", "why_tests_cant": "all label columns", "anchors": ["sklearn/lightgbm/api/dataset.go:NewDataset", "sklearn/lightgbm/api/dataset.go:detectBinaryClassification"]}
{"id": "C148", "title": "GetSubset holds exactly the samples asked for", "statement": "Sample i of GetSubset(indices) has the features, label and weight of sample indices[i]; an empty or out-of-range list is an error; a subset of a subset is the subset of the composed indices.", "quantifier": "every dataset with one label and weight per row, every list of indices", "why_tests_cant": "all index lists", "anchors": ["sklearn/lightgbm/api/dataset.go:GetSubset"]}
{"id": "C149", "title": "GetField returns what SetField stored", "statement": "GetField reads the field of that name and fails for unknown names. If SetField(name, v) returns nil, GetField(name) returns v; if it returns an error, the dataset is unchanged; other fields are never affected.", "quantifier": "every field name, every value", "why_tests_cant": "all names and values", "anchors": ["sklearn/lightgbm/api/dataset.go:SetField", "sklearn/lightgbm/api/dataset.go:GetField"]}
{"id": "C150", "title": "CreateValidDatasets lists every dataset once, in order", "statement": "The result holds the non-nil arguments in order, each under its name parameter or valid_ and its position; an invalid one is an error.", "quantifier": "every list of datasets", "why_tests_cant": "all lists", "anchors": ["sklearn/lightgbm/api/dataset.go:CreateValidDatasets"]}
{"id": "C151", "title": "PredictLeaf numbers the leaves of a tree from left to right", "statement": "For every tree, stored with explicit leaves or with negative references, PredictLeaf of a sample is the position of its leaf from the left.", "quantifier": "every tree and sample", "why_tests_cant": "all trees", "anchors": ["sklearn/lightgbm/predictor_extended.go:PredictLeaf"]}
{"id": "C152", "title": "Samples in different leaves have different leaf indices", "statement": "PredictLeafIndex of a sample is the number of the leaf that gives its prediction, so samples with the same index have the same prediction.", "quantifier": "every model, trained or loaded, every sample", "why_tests_cant": "all trees", "anchors": ["sklearn/lightgbm/predictor.go:PredictLeafIndex"]}
{"id": "C153", "title": "The task is chosen by the values, not their order", "statement": "QuickTrain assumes classification exactly if all targets are integers, with fewer than twenty distinct ones and at most a quarter as many as rows; the order of rows does not matter.", "quantifier": "every target column", "why_tests_cant": "all target columns", "anchors": ["sklearn/lightgbm/quick.go:detectTaskType"]}
{"id": "C154", "title": "AutoFit returns the best configuration it tried", "statement": "The model of the result is one that was trained, and no other trained configuration scores higher.", "quantifier": "every list of scores, failed trainings included", "why_tests_cant": "all score vectors", "anchors": ["sklearn/lightgbm/quick.go:AutoFit", "sklearn/lightgbm/quick.go:QuickResult.Predict"]}
{"id": "C155", "title": "QuickCrossValidate reports mean and deviation of held-out scores", "statement": "Each fold is scored on rows its model was not trained on; the numbers returned are the mean and standard deviation of these scores.", "quantifier": "every data set and number of folds", "why_tests_cant": "all data sets", "anchors": ["sklearn/lightgbm/quick.go:QuickCrossValidate"]}
{"id": "C156", "title": "PrintSummary lists the most important features", "statement": "The features listed are min(5, n) different ones in non-increasing order of importance, and none left out is more important than one listed.", "quantifier": "every importance vector", "why_tests_cant": "all vectors", "anchors": ["sklearn/lightgbm/quick.go:PrintSummary"]}
{"id": "C157", "title": "Score of a classifier is the accuracy of Predict", "statement": "When Predict succeeds on X and y holds one label per row, Score(X, y) of a classifier is the fraction of rows whose predicted label equals the given one: between 0 and 1, 1 exactly when every row is right, 0 exactly when none is. If Predict fails, or if there is not one label per row, Score returns an error and no number.", "quantifier": "every trained classifier (decision tree, multinomial naive Bayes, SGDClassifier, LGBMClassifier), every X and y, any number of rows", "why_tests_cant": "Tests score a handful of labelled rows; that no labels exist for which the number is something else, and that no failure turns into a number, is a statement about all inputs.", "anchors": ["sklearn/tree/tree.go: DecisionTreeClassifier.Score", "sklearn/naive_bayes/multinomial_nb.go: MultinomialNB.Score", "sklearn/linear_model/sgd_classifier.go: SGDClassifier.Score", "sklearn/lightgbm/lgbm_classifier.go: LGBMClassifier.Score"]}
{"id": "C158", "title": "Score of a regressor is the coefficient of determination of Predict", "statement": "When Predict succeeds on X and every row of y has a prediction, Score(X, y) of SGDRegressor, LGBMRegressor and the scikit-learn style LinearRegression is 1 - RSS/TSS over the rows of y: never above 1, equal to 1 exactly when every prediction equals its target. It is an error when all targets are equal, and an error of Predict is passed on.", "quantifier": "every trained regressor, every X and y, any number of rows", "why_tests_cant": "The bound and the characterisation of a perfect score quantify over all targets and predictions.", "anchors": ["sklearn/linear_model/sgd_regressor.go: SGDRegressor.Score", "sklearn/linear_model/linear_regression.go: LinearRegression.Score", "sklearn/lightgbm/lgbm_regressor.go: LGBMRegressor.Score"]}
{"id": "C159", "title": "LinearRegression options read back as set", "statement": "After SetParams, GetParams of the scikit-learn style LinearRegression shows the given value for every option given with its type, and the previous value for every other option; a value of another type is ignored. Coefficients, intercept, width and fitted state are untouched. Setting a model's own parameters, or the same parameters twice, changes nothing.", "quantifier": "every model state and every parameter map", "why_tests_cant": "A map can combine any keys with values of any type; the tests try a few.", "anchors": ["sklearn/linear_model/linear_regression.go: LinearRegression.SetParams, LinearRegression.GetParams"]}
{"id": "C160", "title": "A gradient boosting classifier predicts labels it has seen", "statement": "After a successful Fit, FitWeighted or FitWithInit of LGBMClassifier the known classes are the distinct integer parts of the targets in increasing order, at least two, and every label Predict returns for any input is one of them.", "quantifier": "every training set with one target column, every map iteration order, every input of the same width", "why_tests_cant": "all training sets and inputs", "anchors": ["sklearn/lightgbm/lgbm_classifier.go:Fit", "sklearn/lightgbm/lgbm_classifier.go:extractClasses", "sklearn/lightgbm/lgbm_classifier.go:Predict"]}
{"id": "C161", "title": "A failed training leaves the classifier as it was", "statement": "If Fit, FitWeighted or FitWithInit of LGBMClassifier returns an error, the next Predict and PredictProba return what they returned before.", "quantifier": "every previous state, every argument, every way training can fail", "why_tests_cant": "all states and failures", "anchors": ["sklearn/lightgbm/lgbm_classifier.go:Fit", "sklearn/lightgbm/lgbm_classifier.go:FitWeighted", "sklearn/lightgbm/lgbm_classifier.go:FitWithInit", "sklearn/lightgbm/lgbm_classifier.go:setObjective"]}
{"id": "C162", "title": "Predict is the class of highest probability, PredictLogProba the logarithm of PredictProba", "statement": "With two known classes Predict returns the second exactly if its probability is at least 1/2; with another number it returns the first class of highest probability. PredictLogProba has the shape of PredictProba and its entry is the logarithm, minus infinity where the probability is not positive.", "quantifier": "every fitted or loaded classifier, every input", "why_tests_cant": "all models and inputs", "anchors": ["sklearn/lightgbm/lgbm_classifier.go:Predict", "sklearn/lightgbm/lgbm_classifier.go:PredictProba", "sklearn/lightgbm/lgbm_classifier.go:PredictLogProba"]}
{"id": "C163", "title": "Probabilities of a trained classifier are probabilities", "statement": "PredictProba of a classifier trained by Fit, FitWeighted or FitWithInit has one column per class, entries in [0,1], and every row sums to 1 up to the values below 1e-15 that are set to 0.", "quantifier": "every training set, every configuration, every input", "why_tests_cant": "all trained models and inputs", "anchors": ["sklearn/lightgbm/lgbm_classifier.go:PredictProba", "sklearn/lightgbm/predictor.go:PredictProba"]}
{"id": "C164", "title": "DecisionFunction returns raw scores", "statement": "DecisionFunction returns the raw score before the link function, so a negative value means the first class of two.", "quantifier": "every trained or loaded classifier, every input", "why_tests_cant": "all models", "anchors": ["sklearn/lightgbm/lgbm_classifier.go:DecisionFunction"]}
{"id": "C165", "title": "Which two integers name the classes does not matter", "statement": "Renaming the two class labels to two other integers in the same order, in the targets, renames the predictions and changes nothing else.", "quantifier": "every training set with two classes, every pair of labels", "why_tests_cant": "all label pairs", "anchors": ["sklearn/lightgbm/lgbm_classifier.go:Fit", "sklearn/lightgbm/lgbm_classifier.go:extractClasses"]}
{"id": "C166", "title": "Trivial weights and the objective's own initial score change nothing", "statement": "FitWeighted without weights, or with every weight 1, leaves LGBMClassifier and LGBMRegressor in the state Fit leaves it in; FitWithInit with the initial score the objective would choose does too.", "quantifier": "every training set and configuration", "why_tests_cant": "all training sets and configurations", "anchors": ["sklearn/lightgbm/lgbm_classifier.go:FitWeighted", "sklearn/lightgbm/lgbm_classifier.go:FitWithInit", "sklearn/lightgbm/lgbm_regressor.go:FitWeighted"]}
{"id": "C167", "title": "The regressor uses its boosting type", "statement": "Fit and FitWeighted(X, y, nil) of LGBMRegressor train with the boosting type set in the options, so they give the same model.", "quantifier": "every boosting type", "why_tests_cant": "all configurations", "anchors": ["sklearn/lightgbm/lgbm_regressor.go:Fit", "sklearn/lightgbm/lgbm_regressor.go:FitWeighted"]}
{"id": "C168", "title": "Training on well-shaped data succeeds and the result can predict", "statement": "With one target per row, at least two distinct integer labels (classifier) or a known objective (regressor) and a depth limit, Fit returns nil, and Predict and PredictProba then succeed for every matrix with at least one row and the training width, with one row per input row.", "quantifier": "every training set of every size, every configuration with a depth limit", "why_tests_cant": "all training sets", "anchors": ["sklearn/lightgbm/lgbm_classifier.go:Fit", "sklearn/lightgbm/lgbm_classifier.go:Predict", "sklearn/lightgbm/lgbm_regressor.go:Fit", "sklearn/lightgbm/lgbm_regressor.go:Predict"]}
{"id": "C169", "title": "A failed training leaves the regressor as it was", "statement": "If Fit, FitWeighted or FitWithInit of LGBMRegressor returns an error, the next Predict returns what it returned before.", "quantifier": "every previous state, every argument, every way training can fail", "why_tests_cant": "all states and failures", "anchors": ["sklearn/lightgbm/lgbm_regressor.go:Fit", "sklearn/lightgbm/lgbm_regressor.go:FitWeighted", "sklearn/lightgbm/lgbm_regressor.go:FitWithInit"]}
{"id": "C170", "title": "Predicted quantiles do not cross", "statement": "PredictQuantile returns one matrix per level; for a row the value at a higher level is never below the one at a lower level, and the value at level 1/2 is Predict.", "quantifier": "every quantile model, every input, every list of levels", "why_tests_cant": "all models and inputs", "anchors": ["sklearn/lightgbm/lgbm_regressor.go:PredictQuantile"]}
{"id": "C171", "title": "Residual statistics agree with the residuals", "statement": "GetResiduals is target minus prediction row by row; GetMSE, GetMAE and GetRMSE are the mean square, the mean absolute value and the root of the mean square of these residuals.", "quantifier": "every fitted regressor, every X and y", "why_tests_cant": "all inputs", "anchors": ["sklearn/lightgbm/lgbm_regressor.go:GetResiduals", "sklearn/lightgbm/lgbm_regressor.go:GetMSE", "sklearn/lightgbm/lgbm_regressor.go:GetMAE", "sklearn/lightgbm/lgbm_regressor.go:GetRMSE"]}
{"id": "C172", "title": "A saved and loaded classifier predicts the same labels", "statement": "Loading the model file of a trained classifier into another one, from file or from string, makes it predict the same labels; a load that fails changes nothing.", "quantifier": "every trained classifier, every classifier loaded into, every input", "why_tests_cant": "all trained models", "anchors": ["sklearn/lightgbm/lgbm_classifier.go:LoadModel", "sklearn/lightgbm/lgbm_classifier.go:LoadModelFromString", "sklearn/lightgbm/lgbm_classifier.go:SaveModel"]}
{"id": "C173", "title": "Online models answer Predict after every training history", "statement": "After any sequence of Fit, PartialFit, SetWarmStart, SetLearningRate and SetLearningRateSchedule calls, failed ones included, Predict of SGDRegressor, SGDClassifier, PassiveAggressiveRegressor and PassiveAggressiveClassifier returns NotFitted before training, a dimension error for a matrix of another width than the model was trained on, and otherwise one value per row; it never panics for a matrix with rows.", "quantifier": "all call sequences with arbitrary data, options and random numbers; all query matrices", "why_tests_cant": "Call sequences are unbounded and mix failing with successful calls.", "anchors": ["sklearn/linear_model/sgd_regressor.go: Fit, PartialFit, Predict", "sklearn/linear_model/sgd_classifier.go: Fit, PartialFit, Predict, PredictProba, DecisionFunction", "sklearn/linear_model/passive_aggressive.go: Fit, PartialFit, Predict"]}
{"id": "C174", "title": "Online training on labelled data never crashes and fixes the width", "statement": "After any history, Fit and PartialFit on a matrix with one label per row either succeed, after which the model expects that width, or (PartialFit) refuse a matrix of another width with a dimension error and change nothing.", "quantifier": "all call sequences, all labelled batches, all options", "why_tests_cant": "The failing call may be the last of an arbitrary history.", "anchors": ["sklearn/linear_model/sgd_regressor.go: Fit, PartialFit", "sklearn/linear_model/sgd_classifier.go: Fit, PartialFit", "sklearn/linear_model/passive_aggressive.go: Fit, PartialFit"]}
{"id": "C175", "title": "Refitting the other online models without warm start forgets the past", "statement": "Fit of SGDClassifier, PassiveAggressiveRegressor and PassiveAggressiveClassifier without warm start gives the same model and the same result for any two models with equal options, whatever either was trained on before.", "quantifier": "all pairs of model states with equal options, all data, all random numbers", "why_tests_cant": "Prior histories are unbounded.", "anchors": ["sklearn/linear_model/sgd_classifier.go: Fit, reset", "sklearn/linear_model/passive_aggressive.go: Fit, reset"]}
{"id": "C176", "title": "Splitting a batch into several PartialFit calls trains the same model", "statement": "For PassiveAggressiveRegressor, PassiveAggressiveClassifier and SGDClassifier (schedules other than adaptive), two successful PartialFit calls leave the same weights, intercepts, classes and step counter as one call on the stacked batch.", "quantifier": "all models, all pairs of batches, all options", "why_tests_cant": "Exact equality must hold for floating point, so for every rounding of every input.", "anchors": ["sklearn/linear_model/sgd_classifier.go: PartialFit, updateWeights", "sklearn/linear_model/passive_aggressive.go: PartialFit, updateWeights"]}
{"id": "C177", "title": "The classes of an online classifier are fixed by its first training call", "statement": "SGDClassifier and PassiveAggressiveClassifier know exactly the classes given to, or found by, the first training call; later PartialFit calls and warm-started Fit calls keep them, and a batch whose labels are all unknown is accepted without changing the weights.", "quantifier": "all call sequences, all batches", "why_tests_cant": "Later batches are arbitrary.", "anchors": ["sklearn/linear_model/sgd_classifier.go: Fit, PartialFit, extractClasses", "sklearn/linear_model/passive_aggressive.go: Fit, PartialFit, extractClasses"]}
{"id": "C178", "title": "PassiveAggressiveClassifier predicts the first class of greatest score", "statement": "Predict of PassiveAggressiveClassifier returns for every row a class of the model, namely the first one whose score (weights times row plus intercept) is greatest.", "quantifier": "all models, all matrices with finite scores", "why_tests_cant": "Ties and orders of classes are arbitrary.", "anchors": ["sklearn/linear_model/passive_aggressive.go: Predict"]}
{"id": "C179", "title": "LogisticRegression.Fit accepts exactly the settings its solver supports", "statement": "Without warm start and with an optimiser that does not fail, Fit never panics; it succeeds exactly if y is one column with one row per sample and, for solver lbfgs, the penalty is none or l2 with non-zero C and multinomial is asked for two classes only. Other solver names accept every setting and apply no penalty but l2.", "quantifier": "all settings, all data, all random initial weights", "why_tests_cant": "Settings are arbitrary strings and numbers.", "anchors": ["sklearn/linear_model/logistic.go: Fit, validateSolverPenalty, fitBinaryClassification, fitMultiClassification"]}
{"id": "C180", "title": "A training parameter given to api.Train takes effect", "statement": "A value given to api.Train under a documented parameter name is the value training runs with (or is reported as an error); a documented name that is not given keeps its default; other names change nothing.", "quantifier": "all parameter maps, values of every dynamic type", "why_tests_cant": "Maps hold values of any type under any name.", "anchors": ["sklearn/lightgbm/api/train.go: parseParams, Train"]}
{"id": "C181", "title": "The validation score of api.Train is the metric it is called", "statement": "The score api.Train records for a validation set under a metric's name (l2, l1, binary_logloss, multi_logloss) is that metric of the predictions and labels of the set.", "quantifier": "all objectives, predictions and labels", "why_tests_cant": "All predictions and labels of any size.", "anchors": ["sklearn/lightgbm/api/train.go: evaluateDataset, calculateAccuracy, getMetricName"]}
{"id": "C182", "title": "Early stopping of api.Train prefers the better score", "statement": "With WithEarlyStopping an iteration counts as an improvement exactly if its validation score is better than the best so far, better meaning lower for losses and higher for accuracies.", "quantifier": "all objectives, all sequences of scores", "why_tests_cant": "All score sequences and objective names.", "anchors": ["sklearn/lightgbm/api/callbacks.go: EarlyStoppingCallback", "sklearn/lightgbm/api/train.go: evaluateDataset"]}
{"id": "C183", "title": "QuickTrain only fills in what is missing", "statement": "api.QuickTrain trains with every parameter the caller gave and adds only an objective and a number of rounds where none is given; it leaves the caller's map alone.", "quantifier": "all parameter maps and data", "why_tests_cant": "All maps and labels.", "anchors": ["sklearn/lightgbm/api/train.go: QuickTrain"]}
{"id": "C184", "title": "QuickTrain picks the task from the labels", "statement": "Without an objective, api.QuickTrain trains a binary classifier if the labels are 0 and 1, a multiclass model for more classes, otherwise a regression, and returns errors instead of panicking.", "quantifier": "all labels and parameter maps", "why_tests_cant": "Labels are arbitrary.", "anchors": ["sklearn/lightgbm/api/train.go: QuickTrain", "sklearn/lightgbm/api/dataset.go"]}
{"id": "C185", "title": "Callbacks are called in the documented order", "statement": "api.Train calls Init of every callback once in the order given, then in every iteration BeforeIteration of all and afterwards AfterIteration of all with the number of the iteration, and Finalize of all at the end; a CallbackList behaves like its callbacks given one after the other.", "quantifier": "all callbacks that do not fail or stop, whatever else they do, all numbers of rounds", "why_tests_cant": "Callbacks are arbitrary user code with state.", "anchors": ["sklearn/lightgbm/api/train.go: Train", "sklearn/lightgbm/api/callbacks.go: Callback, CallbackList"]}
{"id": "C186", "title": "A callback can stop training and keep the model", "statement": "If a callback asks to stop (by env.ShouldStop or by returning ErrEarlyStop) after iteration k, api.Train runs no further iteration and returns the booster with the iterations so far.", "quantifier": "all k, all numbers of rounds, any further watching callbacks", "why_tests_cant": "All stopping points and other callbacks.", "anchors": ["sklearn/lightgbm/api/train.go: Train", "sklearn/lightgbm/api/callbacks.go: ErrEarlyStop"]}
{"id": "C187", "title": "RecordEvaluation records every score", "statement": "After api.Train with an accepted objective and validation sets of different non-empty names, GetEvalResult of the record callback holds under each set's name and the metric's name exactly the score of every iteration.", "quantifier": "all numbers of rounds and validation sets, any watching callbacks before and after it", "why_tests_cant": "Names and histories of any length; the key is split again at a dash.", "anchors": ["sklearn/lightgbm/api/callbacks.go: RecordEvaluationCallback", "sklearn/lightgbm/api/train.go: Train"]}
{"id": "C188", "title": "PrintEvaluation prints each due iteration under its number", "statement": "With period p, training prints the scores of iterations 1, p+1, 2p+1, ... and of the last one, each under its own number.", "quantifier": "all periods and numbers of rounds, any validation sets", "why_tests_cant": "All periods and numbers of rounds.", "anchors": ["sklearn/lightgbm/api/callbacks.go: PrintEvaluationCallback"]}
{"id": "C189", "title": "ResetParameter changes training from the given iteration on", "statement": "With NewResetParameterCallback(k, p), training uses the parameters p from iteration k on.", "quantifier": "all k, p, parameter maps and other callbacks that do not look at the map", "why_tests_cant": "All parameter maps and callbacks.", "anchors": ["sklearn/lightgbm/api/callbacks.go: ResetParameterCallback", "sklearn/lightgbm/api/train.go: Train, trainOneIteration"]}
{"id": "C190", "title": "DumpModel describes the trees", "statement": "Every map in the dump of a tree carries the data of the node whose number it gives, and following split_feature, threshold and default_left through the dump leads to the value the tree predicts.", "quantifier": "every tree (any shape and size) and every sample", "why_tests_cant": "A test compares dumps of a few trees; the claim is about every tree and every sample, and two different trees may have equal dumps.", "anchors": ["sklearn/lightgbm/api/booster.go:DumpModel", "sklearn/lightgbm/api/booster.go:dumpNode"]}
{"id": "C191", "title": "A booster saved as JSON is read back with the same predictions", "statement": "A model saved with SaveModel(file, WithSaveType(\"json\")) and read with LoadJSONModelFromFile or LoadModelAutoDetect has the same raw scores for every sample.", "quantifier": "every model and every sample", "why_tests_cant": "The file is written and read by different packages with different node layouts; equality must hold for every tree shape, missing value and initial score.", "anchors": ["sklearn/lightgbm/api/booster.go:SaveModel", "sklearn/lightgbm/api/booster.go:DumpModel", "sklearn/lightgbm/json_loader.go:LoadJSONModelFromFile", "sklearn/lightgbm/json_loader.go:LoadModelAutoDetect"]}
{"id": "C192", "title": "Leaf numbers of loaded models tell the leaves apart", "statement": "PredictLeaf of a loaded model returns for each tree a number below its number of leaves, equal for two samples exactly when they fall into the same leaf.", "quantifier": "every loaded tree and every pair of samples", "why_tests_cant": "The number is computed from the leaves met on the way down; whether it identifies the leaf depends on the shape of the tree and on all other leaves.", "anchors": ["sklearn/lightgbm/predictor_extended.go:PredictLeaf", "sklearn/lightgbm/predictor_extended.go:predictLeavesTreeLeaf"]}
{"id": "C193", "title": "The two ways to get raw scores of a loaded model agree", "statement": "PredictRawScore of a loaded model and PredictRaw of its predictor return the same scores for every sample.", "quantifier": "every loaded model and every sample", "why_tests_cant": "Two separate implementations; agreement must hold for every number of classes and every initial score.", "anchors": ["sklearn/lightgbm/predictor_extended.go:PredictRawScore", "sklearn/lightgbm/leaves_predictor.go:PredictRaw"]}
{"id": "C194", "title": "Training callbacks are called around every iteration and can stop it", "statement": "FitWithCallbacks calls every callback before and after each iteration with the iteration number, the model built so far and the latest results; training has then made some number k of its own iterations, fewer than requested only after an error or a request to stop, at most k = i if a callback asks to stop in iteration i, and a request to stop ends it for good.", "quantifier": "all callbacks (arbitrary programs over the environment and their own state), trainers, iteration counts", "why_tests_cant": "Callbacks are arbitrary programs; the claim is about every list and every point where one interferes.", "anchors": ["sklearn/lightgbm/callbacks.go:BeforeIteration", "sklearn/lightgbm/callbacks.go:AfterIteration", "sklearn/lightgbm/callbacks.go:FitWithCallbacks", "sklearn/lightgbm/trainer.go:Fit"]}
{"id": "C195", "title": "A learning rate schedule changes the learning rate of training", "statement": "With LearningRateSchedule(decay, steps) or ResetParameter, the trees built after the change are built with the new learning rate.", "quantifier": "all schedules, parameter functions and trainers", "why_tests_cant": "The effect must hold for every schedule and data set.", "anchors": ["sklearn/lightgbm/callbacks.go:LearningRateSchedule", "sklearn/lightgbm/callbacks.go:ResetParameter", "sklearn/lightgbm/trainer.go:GetModel"]}
{"id": "C196", "title": "TimeLimit ends training at the first late reading", "statement": "With TimeLimit(d) training ends, without error and keeping the trees built, at the first call (before or after an iteration) at which more than d has passed since the callback was created; if none is late all iterations are made.", "quantifier": "all clocks, limits, iteration counts, and other callbacks that do not interfere", "why_tests_cant": "The clock is arbitrary.", "anchors": ["sklearn/lightgbm/callbacks.go:TimeLimit", "sklearn/lightgbm/trainer.go:Fit"]}
{"id": "C197", "title": "PrintEvaluation prints each due iteration once with its own results", "statement": "PrintEvaluation(p) prints exactly one line for each iteration divisible by p, showing that iteration's results.", "quantifier": "all periods, iteration counts, results and other callbacks that do not interfere", "why_tests_cant": "Lines depend on the whole history of calls.", "anchors": ["sklearn/lightgbm/callbacks.go:PrintEvaluation", "sklearn/lightgbm/callbacks.go:BeforeIteration"]}
{"id": "C198", "title": "A checkpoint named after an iteration holds the model after it", "statement": "ModelCheckpoint(path, p, false) leaves a file for exactly the iterations divisible by p, holding the model after that iteration; with saveOnlyImproved a file exists only for iterations whose loss is below all earlier ones and holds the model after that iteration.", "quantifier": "all periods, iteration counts, loss sequences and other callbacks that do not interfere", "why_tests_cant": "Files depend on the whole history of losses.", "anchors": ["sklearn/lightgbm/callbacks.go:ModelCheckpoint", "sklearn/lightgbm/loader.go:SaveToJSON"]}
{"id": "C199", "title": "Base estimators do not interfere with each other", "statement": "Two estimators built on the common base — in particular an estimator and its Clone, or one that exported weights and one that imported them — are independent: nothing done to one (setters, imports, writes to maps obtained from it) changes what the other shows (fitted state, type, version, logger, parameters).", "quantifier": "all programs: sequences of constructors, methods, clones, exports, imports and client writes to maps and shared values", "why_tests_cant": "independence depends on which maps share memory after an arbitrary history", "anchors": ["core/model/base.go: BaseEstimator.Clone, GetParams, SetParams, ExportWeights, ImportWeights"]}
{"id": "C200", "title": "Which maps returned by GetParams are live", "statement": "GetParams returns what the estimator holds. With deep=false and parameters set at least once, the returned map is the estimator's own map for ever: any later write to it changes the parameter. With deep=true, or when no parameter was ever set, the returned map is detached and writes to it never change any estimator.", "quantifier": "all programs, before and after the call", "why_tests_cant": "aliasing must hold at every later time of every program", "anchors": ["core/model/base.go: BaseEstimator.GetParams"]}
{"id": "C201", "title": "SetParams of the base estimator merges", "statement": "SetParams overwrites the given keys, keeps every other key and changes nothing else; a nil map changes no parameter.", "quantifier": "all programs and argument maps, including an estimator's own map", "why_tests_cant": "all histories of parameter maps", "anchors": ["core/model/base.go: BaseEstimator.SetParams"]}
{"id": "C202", "title": "Exported weights and the weight hash reflect what is visible", "statement": "Exporting succeeds exactly for a fitted estimator, leaves it unchanged and yields its type, version and parameters; the weight hash is empty for an unfitted estimator and otherwise a function of type, version and parameter values only.", "quantifier": "all programs and digest functions", "why_tests_cant": "all histories; equality of hashes for equal states", "anchors": ["core/model/base.go: BaseEstimator.ExportWeights, GetWeightHash"]}
{"id": "C203", "title": "Importing weights reproduces the exporting model", "statement": "Importing succeeds exactly when weights are given and the type matches, and a refused import changes nothing. After a successful import of weights exported by a fitted estimator, the importing one shows the same version, parameters and fitted state and has the same weight hash.", "quantifier": "all programs, exporting and importing estimators", "why_tests_cant": "all histories of both estimators", "anchors": ["core/model/base.go: BaseEstimator.ImportWeights, ExportWeights, GetWeightHash"]}
{"id": "C204", "title": "EvaluateRegression: when it succeeds and what it reports", "statement": "EvaluateRegression succeeds exactly for vectors of the same non-zero length whose targets are not all equal. Its entries are the metrics of the same name, rmse is the root of mse, r2 <= explained variance <= 1, r2 = 1 exactly for a perfect prediction, and the percentage error is always a number (the NaN fallback is never taken).", "quantifier": "all pairs of vectors", "why_tests_cant": "all real vectors; unreachability of a branch", "anchors": ["sklearn/lightgbm/evaluation_metrics.go: EvaluateRegression, MSE, MAE, R2Score, MAPE, ExplainedVarianceScore"]}
{"id": "C205", "title": "ClassificationReport covers exactly the labels that occur and its figures fit together", "statement": "EvaluateClassification refuses empty or mismatched input and never panics. The report has an entry exactly for each label among the true or predicted ones, with that class's precision, recall, F1 and number of samples; these numbers sum to the number of samples and the accuracy is the mean of the recalls weighted with them; AUC and log loss are present exactly for two classes with probabilities.", "quantifier": "all label vectors and probabilities", "why_tests_cant": "all sets of labels", "anchors": ["sklearn/lightgbm/evaluation_metrics.go: ClassificationReport, EvaluateClassification"]}
{"id": "C206", "title": "A streaming pipeline delivers what its last stage sends, in order, and does not get stuck", "statement": "StreamingPipeline.Run applies the stages in the order they were added. However many runs go on at once and however goroutines are scheduled, the consumer of a run always holds a beginning of what the last stage sent for that run, in order; when the output is closed and drained it has received all of it; the pipeline runs ahead of the consumer by at most the buffer size plus one; once the last stage closes its channel the run can always go on to the end and needs a bounded number of steps. A nil matrix from the last stage ends the process.", "quantifier": "all executions: any number of runs, buffer sizes, sequences of matrices and interleavings", "why_tests_cant": "order, completeness and freedom from deadlock are claims about every interleaving", "anchors": ["performance/large_scale.go: StreamingPipeline.AddStage, Run"]}
{"id": "C207", "title": "Pipeline counters are the totals over everything that passed", "statement": "At every moment the samples and bytes counters of a StreamingPipeline are the totals over all matrices counted so far in all runs: no update is lost under concurrency, and a drained pipeline has counted everything delivered.", "quantifier": "all executions with any number of concurrent runs; all matrix sizes", "why_tests_cant": "lost updates depend on the interleaving, wrap-around on sizes no test can allocate", "anchors": ["performance/large_scale.go: StreamingPipeline.Run, updateMetrics"]}
{"id": "C208", "title": "The chunked processor hands every row to the callback", "statement": "ChunkedProcessor.Process calls the callback on consecutive chunks of at most chunkSize rows that together are the whole input, in order.", "quantifier": "all inputs, chunk sizes and callbacks", "why_tests_cant": "must hold for every input and chunk size", "anchors": ["performance/large_scale.go: ChunkedProcessor.Process"]}
{"id": "C209", "title": "A fold is scored with the metric that was asked for", "statement": "The train and test scores CrossValidate reports are the named metric of the fold's predictions, and the fold reported as best is best under it. l2/mse, rmse, l1/mae are the errors of the metrics package, binary_logloss/logloss the binary log loss, accuracy the share of right labels; an empty name means binary_logloss for binary and l2 otherwise.", "quantifier": "all metric names, targets and predictions", "why_tests_cant": "all names and data; the direction of comparison matters for every score sequence", "anchors": ["sklearn/lightgbm/cross_validation.go: evaluateMetric, isLossMetric, CrossValidate"]}
{"id": "C210", "title": "Mean and spread of cross-validation scores", "statement": "GetMeanScore is the mean of the test scores: within their range, independent of fold order, following shifts and scalings. GetStdScore is the sample standard deviation: non-negative, zero exactly when all folds score alike, independent of order and shifts; fewer than two folds give 0.", "quantifier": "all lists of scores", "why_tests_cant": "all real lists of every length", "anchors": ["sklearn/lightgbm/cross_validation.go: CVResult.GetMeanScore, GetStdScore"]}
{"id": "C211", "title": "Cross-validating an estimator trains each fold as its Fit would", "statement": "CrossValidateRegressor and CrossValidateClassifier train the model of a fold as Fit of the same estimator would on the rows of that fold.", "quantifier": "all estimators, options and data", "why_tests_cant": "all option combinations and data sets", "anchors": ["sklearn/lightgbm/cross_validation.go: CrossValidateRegressor, CrossValidateClassifier", "sklearn/lightgbm/lgbm_regressor.go: Fit", "sklearn/lightgbm/lgbm_classifier.go: Fit"]}
{"id": "C212", "title": "Every warning reaches the handler in force, once, and no call waits for ever", "statement": "However goroutines are scheduled, the warnings raised with Warn are delivered exactly once each, in the order the calls get their turn (in program order for one goroutine), to the handler in force at that moment, one handler call at a time; and Warn, SetWarningHandler and SetZerologWarnFunc always return.", "quantifier": "all programs of any number of goroutines, all handlers, all schedules", "why_tests_cant": "exactly-once delivery, order and deadlock freedom are claims about every interleaving and every handler", "anchors": ["pkg/errors/errors.go: Warn, SetWarningHandler, SetZerologWarnFunc"]}
{"id": "C213", "title": "The garbage-collection optimizer limits forced collections and can be stopped", "statement": "Forced collections start more than maxPause after the previous one ended, however many monitors and callers there are; the count reported is theirs. Stop ends all monitors and puts back the settings that Start changed.", "quantifier": "all sequences of calls, ticks and clock readings", "why_tests_cant": "rate limiting and termination must hold for all histories", "anchors": ["performance/memory_optimizer.go: GCOptimizer.Start, Stop, ForceGC, GetStats, monitor"]}
{"id": "C214", "title": "The statistics of the matrix pool", "statement": "PeakUsage is the largest number of matrices in use at one time, and AverageReuseRate is a share between 0 and 1.", "quantifier": "all interleavings of Get and Put by any number of goroutines", "why_tests_cant": "a missed peak needs a particular interleaving", "anchors": ["performance/memory_optimizer.go: MatrixPool.Get, Put, GetStats, updatePeakUsage"]}
{"id": "C215", "title": "An error of a callback ends the training", "statement": "If a callback given to api.Train reports an error (other than ErrEarlyStop) from Init, BeforeIteration, AfterIteration or Finalize, at any iteration at which the method is called, Train returns that error and no booster, whatever well-behaved callbacks stand before and after it.", "quantifier": "every method, every iteration at which it is called, every number of rounds, every list of other callbacks", "why_tests_cant": "the error may come at any iteration of any length of run and at any position in the list of callbacks; tests show one", "anchors": ["sklearn/lightgbm/api/train.go:Train", "sklearn/lightgbm/api/callbacks.go:Callback"]}
{"id": "C216", "title": "Text files printed by LightGBM load as the model they describe", "statement": "Booster loading of a LightGBM text file that consists of a header and one section per tree, sections separated by blank lines, with one tree_sizes entry per tree, succeeds; the loaded model has the number of classes and the objective of the header, and every tree gives every sample the value of the leaf LightGBM assigns it to, whatever further keys, title lines and line ends the file has and whatever follows the last tree.", "quantifier": "every file of that form, any number of trees and any tree shapes, every sample, every number format the parser understands", "why_tests_cant": "the correspondence must hold for every tree shape, key order and spacing; tests compare a handful of files", "anchors": ["sklearn/lightgbm/leaves_loader.go:LoadLeavesModelFromReader", "sklearn/lightgbm/leaves_loader.go:readLeavesTree", "sklearn/lightgbm/leaves_tree.go:LeavesTree.Predict"]}
{"id": "C217", "title": "A truncated text model file is rejected", "statement": "Loading a proper prefix of a LightGBM text file that lost part of its trees returns an error: it neither crashes nor returns a model with other predictions.", "quantifier": "every file and every point at which it is cut", "why_tests_cant": "a crash while writing can cut the file at any byte; tests cut it at one or two", "anchors": ["sklearn/lightgbm/leaves_loader.go:LoadLeavesModelFromReader", "sklearn/lightgbm/leaves_loader.go:readLeavesTree"]}
{"id": "C218", "title": "SaveModel and LoadModel of the LightGBM estimators are inverse", "statement": "For every fitted LGBMRegressor or LGBMClassifier, the file SaveModel writes is accepted by LoadModel, and the loaded estimator gives the predictions of the saved one up to the digits printed.", "quantifier": "every fitted model: all numbers of trees, tree shapes, leaf values, classes and features, every printing of numbers that the reader inverts", "why_tests_cant": "Tests save one model; whether every tree shape is read back depends on the lines written for each node and how repeated keys are read.", "anchors": ["sklearn/lightgbm/model.go:SaveToFile", "sklearn/lightgbm/loader.go:LoadFromReader", "sklearn/lightgbm/lgbm_regressor.go:SaveModel", "sklearn/lightgbm/lgbm_classifier.go:SaveModel"]}
{"id": "C219", "title": "LoadFromFile reads LightGBM text files as the model they describe", "statement": "Every LightGBM text file (header, trees, trailing parameters and feature importances) is loaded by LoadFromFile/LoadFromReader with the number of classes, the number of features and the objective it names and one tree per printed tree in order, and the predictor gives for every tree the value LightGBM gives.", "quantifier": "every file: all header lines, numbers and shapes of trees, blank lines, trailing lines, line lengths, feature names and all samples", "why_tests_cant": "A test loads some files; features of any name, constant trees, long lines and missing blank lines are inputs a sample of files does not contain.", "anchors": ["sklearn/lightgbm/loader.go:LoadFromReader", "sklearn/lightgbm/loader.go:finalizeTree", "sklearn/lightgbm/predictor.go:predictTree"]}
{"id": "C220", "title": "Feature importances account for every split", "statement": "The split importance of a feature is the number of splits on it divided by the number of all splits (all zero without splits); the gain importance is the sum of the gains of its splits over the sum of all gains when that is positive, the plain sum otherwise. Both are nonnegative and sum to 1 when there is something to share, do not depend on the order of the trees, and for a model grown by the trainer every split counts for the feature it was made on. Unknown kinds give zeros; a split on a feature out of range panics.", "quantifier": "All models (any trees), all kinds of importance, all trained ensembles", "why_tests_cant": "Models and trees are unbounded", "anchors": ["sklearn/lightgbm/model.go GetFeatureImportance", "sklearn/lightgbm/lgbm_regressor.go GetFeatureImportance"]}
{"id": "C221", "title": "A booster predicts with the model it was given last", "statement": "After any sequence of InitFromModel, SetModel, InitFromLeavesModel (LoadModel) and other calls, Predict answers with the model given last, or fails when none was given.", "quantifier": "All histories of calls on a booster, all models and inputs", "why_tests_cant": "The order of the calls matters and there are infinitely many histories", "anchors": ["sklearn/lightgbm/api/booster.go InitFromModel SetModel InitFromLeavesModel Predict"]}
{"id": "C222", "title": "Raw scores, probabilities and leaves of a booster", "statement": "PredictRawScore returns the sums of the leaf values before the link, PredictProba the probabilities and PredictLeaf the leaf indices of the model the booster holds, whether it was trained or loaded from a file.", "quantifier": "All histories of calls, all models and inputs", "why_tests_cant": "Every objective and every history is concerned", "anchors": ["sklearn/lightgbm/api/booster.go PredictRawScore PredictProba PredictLeaf", "sklearn/lightgbm/leaves_predictor.go Predict"]}
{"id": "C223", "title": "Iteration counters of a booster describe its model", "statement": "Update performs a boosting iteration; CurrentIteration is the number of iterations of the model the booster holds, and BestIteration belongs to that model.", "quantifier": "All histories of calls on a booster", "why_tests_cant": "The counters depend on the whole history", "anchors": ["sklearn/lightgbm/api/booster.go Update CurrentIteration BestIteration NumTrees SetModel"]}
{"id": "C224", "title": "Evaluation results of different datasets and metrics stay apart", "statement": "The results recorded for a dataset and a metric are exactly the values added for that pair, in the order they were added, whatever was added for other pairs.", "quantifier": "All histories of calls, all names and values", "why_tests_cant": "Names are arbitrary strings and the histories are unbounded", "anchors": ["sklearn/lightgbm/api/booster.go AddEvalResult EvalResults"]}
{"id": "C225", "title": "Training with validation data trains the same model", "statement": "FitWithValidation with validation data but without early stopping produces the trees that Fit produces with the same settings; with early stopping it produces a first part of them.", "quantifier": "All training sets, settings (sampling, initial score, objective), validation data and metrics", "why_tests_cant": "The settings combine freely and the training sets are unbounded", "anchors": ["sklearn/lightgbm/early_stopping.go FitWithValidation", "sklearn/lightgbm/trainer.go Fit"]}
{"id": "C226", "title": "The validation score is the weighted mean loss", "statement": "The score that decides about early stopping in FitWithValidation is the mean of the objective's loss of the raw scores on the validation rows, weighted by the validation weights, so that better predictions have a lower score.", "quantifier": "All models, validation data and weights, all objectives", "why_tests_cant": "It must hold for every model that training can produce and every weighting", "anchors": ["sklearn/lightgbm/early_stopping.go evaluateValidation"]}
{"id": "C227", "title": "Decision tree parameters can be copied, and SetParams accepts exactly what GetParams can report", "statement": "SetParams of a decision tree succeeds exactly if every name given is one that GetParams reports and every value has the Go type of the value reported under that name. After a success each parameter given has the value given and every other keeps its value, whatever order the map is visited in. Giving one tree's parameters to another makes both have the same parameters.", "quantifier": "all parameter settings of both trees, all maps, all orders of visiting a map", "why_tests_cant": "Map iteration order is random in Go, so a test sees some of the orders only.", "anchors": ["sklearn/tree/tree.go:531-542 GetParams", "sklearn/tree/tree.go:545-569 SetParams"]}
{"id": "C228", "title": "A refused SetParams of a decision tree leaves the tree as it was", "statement": "When SetParams of a decision tree reports an error, no parameter has changed. (False: assignments made before the offending name is met stay, and which those are depends on the random order of the map. What holds: parameters not given never change, a given one has its old or the given value, a call with one parameter is all or nothing, an error means that a name is unknown and a panic that a value has the wrong type.)", "quantifier": "all parameter settings, all maps, all orders of visiting a map", "why_tests_cant": "Depends on the order in which the map happens to be visited.", "anchors": ["sklearn/tree/tree.go:545-569 SetParams"]}
{"id": "C229", "title": "A limit on the leaves of a decision tree is kept", "statement": "A decision tree trained with max_leaf_nodes = n > 0 has at most n leaves. (False: the value is accepted and reported, but training never reads it; nor max_features and random_state. What holds: a tree of depth d has at most 2^d leaves, so max_depth bounds them, and training gives the same tree whatever those three parameters are.)", "quantifier": "all data sets, all parameter settings", "why_tests_cant": "A limit on all trees over all data sets; small tests may stay below it by chance.", "anchors": ["sklearn/tree/tree.go:29-67 DecisionTreeClassifier", "sklearn/tree/tree.go:178-248 buildTree", "sklearn/tree/tree.go:607-623 GetNLeaves"]}
{"id": "C230", "title": "Pipeline GetParams reports its own and every step's parameters under unambiguous names", "statement": "GetParams of a pipeline reports its own values under steps, memory and verbose whatever the steps are called; every other name reported is name__key for a step and one of its parameters, with that parameter's value. Every parameter of every step whose GetParams takes no argument is reported, provided the names name__key of different parameters differ, for which distinct step names without underscores are enough; without that a parameter can be hidden although all step names differ.", "quantifier": "all pipelines, all step names and parameter maps, all orders of visiting a map", "why_tests_cant": "Ranges over all step names and parameter names.", "anchors": ["sklearn/pipeline/pipeline.go:308-328 GetParams"]}
{"id": "C231", "title": "Pipeline SetParams sets what GetParams reports", "statement": "Setting a parameter of a pipeline under a name that GetParams reports makes GetParams report the new value. (False: parameters of steps, steps and memory are ignored without an error. What holds: verbose is set if given as a boolean, nothing else changes.)", "quantifier": "all pipelines, all parameter maps", "why_tests_cant": "Ranges over all parameter maps.", "anchors": ["sklearn/pipeline/pipeline.go:331-342 SetParams"]}
{"id": "C232", "title": "QuickTrain returns the model it trained with its own training score", "statement": "The estimator returned by QuickTrain is a classifier exactly if the targets look like classes; the score reported is its own Score on the training data, or 0 if that fails. If training fails for whatever reason, a panic of the trainer included, a result is still returned: with score 0, no importances, and an estimator that answers every question with an error.", "quantifier": "all tables and targets, all behaviours of the trainer", "why_tests_cant": "Ranges over all data and all ways training can fail.", "anchors": ["sklearn/lightgbm/quick.go:106-167 QuickTrain", "sklearn/lightgbm/quick.go:22-51 QuickResult"]}
{"id": "C233", "title": "QuickLoadAndPredict predicts with the model in the file", "statement": "QuickLoadAndPredict returns the predictions of the model in the file; a file that cannot be read and a table of another width are errors. (False when a file with another objective than binary, cross_entropy or multiclass is read as a classifier: it is accepted and every row gets the label 0.)", "quantifier": "all files, tables and both kinds", "why_tests_cant": "Ranges over all model files.", "anchors": ["sklearn/lightgbm/quick.go:260-274 QuickLoadAndPredict", "sklearn/lightgbm/lgbm_classifier.go:562-590 LoadModel"]}
{"id": "C234", "title": "QuickBenchmark times predictions", "statement": "QuickBenchmark calls Predict as often as asked for and every call predicts. (False: the classifier it builds expects no columns, so for every table with a column every call is refused at once; the number of calls is right.)", "quantifier": "all tables with at least one column, all iteration counts", "why_tests_cant": "The helper discards errors, so no test of its output can see them.", "anchors": ["sklearn/lightgbm/quick.go:375-413 QuickBenchmark"]}
{"id": "C235", "title": "Learned attributes returned by estimators belong to the caller", "statement": "Coef, Intercept, Classes, GetLossHistory, ClusterCenters, Labels, FeatureLogProb, ClassLogPrior and GetFeatureImportances return the present contents of the attribute. Whatever the caller writes into what it got, at any depth, the estimator keeps its own contents; and however much the estimator is trained afterwards, what the caller got stays as it was.", "quantifier": "all interleavings of accessor calls, writes of the caller and training", "why_tests_cant": "Sharing shows only in particular orders of calls and writes; no finite list of orders settles it.", "anchors": ["sklearn/linear_model/sgd_classifier.go:698-743 Coef, Intercept, Classes", "sklearn/linear_model/sgd_regressor.go:585-643", "sklearn/naive_bayes/multinomial_nb.go:404-454", "sklearn/cluster/minibatch_kmeans.go:419-443", "sklearn/tree/tree.go:572-581 GetFeatureImportances"]}
{"id": "C236", "title": "Slices handed to an estimator are taken by value", "statement": "What a caller passes as classes of PartialFit, as weights of ImportWeights or as WithClassPrior counts as it was at that moment; the caller may use its slice for something else afterwards. (False for WithClassPrior, which keeps the caller's slice.)", "quantifier": "all programs and all later writes", "why_tests_cant": "The error needs a write after the call and a second training.", "anchors": ["sklearn/naive_bayes/multinomial_nb.go:83-87 WithClassPrior", "sklearn/linear_model/sgd_classifier.go:237-238 PartialFit", "sklearn/linear_model/linear_regression.go:351-352 ImportWeights"]}
{"id": "C237", "title": "The same seed gives the same incremental training", "statement": "Two SGD regressors, SGD classifiers or MiniBatchKMeans built with the same options, including a random state of at least 0, and taken through the same training calls return the same results and hold the same state after every call, whatever the clock showed when they were built and in whatever order maps are visited.", "quantifier": "all options, seeds at least 0, sequences of training calls, generators, clock readings and map orders", "why_tests_cant": "The environment that must not matter (clock, map order) cannot be enumerated by a test, and the numbers drawn by one call depend on all calls before it.", "anchors": ["sklearn/linear_model/sgd_regressor.go: NewSGDRegressor, WithRandomState, Fit, PartialFit", "sklearn/linear_model/sgd_classifier.go: NewSGDClassifier, Fit, PartialFit", "sklearn/cluster/minibatch_kmeans.go: NewMiniBatchKMeans, Fit, PartialFit"]}
{"id": "C238", "title": "Fitting again with a seed gives the same model", "statement": "With a random state and without warm start, calling Fit again on the same estimator with the same data gives the same model as the first call.", "quantifier": "all data sets, seeds and histories of calls of SGD regressors, SGD classifiers and MiniBatchKMeans", "why_tests_cant": "The claim ranges over all histories before the second fit; a test that fits a new estimator each time does not see the state of the generator.", "anchors": ["sklearn/linear_model/sgd_regressor.go: Fit", "sklearn/linear_model/sgd_classifier.go: Fit", "sklearn/cluster/minibatch_kmeans.go: Fit"]}
{"id": "C239", "title": "Shuffled folds depend on the seed only", "statement": "With a fixed random state, KFold and StratifiedKFold return the same folds on every call, shuffled or not, and the folds partition the rows.", "quantifier": "all targets, numbers of folds, seeds, generators and orders of map iteration", "why_tests_cant": "Map order is random at run time; a test passes or fails by chance.", "anchors": ["sklearn/lightgbm/cross_validation.go: KFold.Split, StratifiedKFold.Split"]}
{"id": "C240", "title": "Logistic regression respects its random state", "statement": "Two logistic regressions with the same options, including the random state, trained on the same data end with the same coefficients.", "quantifier": "all data sets, solvers, numbers of classes and numbers drawn for the first weights", "why_tests_cant": "The first weights come from a source that no test controls, and two runs may agree by convergence.", "anchors": ["sklearn/linear_model/logistic.go: WithLRRandomState, Fit, initializeWeights"]}
{"id": "C241", "title": "LightGBM training is reproducible", "statement": "Training with a seed or in the deterministic mode gives the same trees, scores and losses in every run, whatever the clock, the global random generator and the order of map iteration.", "quantifier": "all data sets, parameters, callbacks, generators, clock readings and map orders", "why_tests_cant": "The environment that must not matter cannot be enumerated by a test; map order matters only for categorical features with several categories.", "anchors": ["sklearn/lightgbm/trainer.go: Fit, gosssampling", "sklearn/lightgbm/trainer_params.go: NewSamplingStrategy, SampleFeatures, SampleInstances", "sklearn/lightgbm/categorical.go: getCategoriesForSplit", "sklearn/lightgbm/histogram_optimization.go: buildCategoricalHistogram"]}
{"id": "C242", "title": "GOSS samples anew for every tree", "statement": "With boosting type goss every tree is grown from the rows of largest gradient and a new random sample of the others.", "quantifier": "all data sets, rates, seeds, generators and iterations", "why_tests_cant": "A repeated choice of ranks is invisible in any single tree and in the quality of the model.", "anchors": ["sklearn/lightgbm/trainer.go: gosssampling"]}
{"id": "C243", "title": "The objective trained is the one named", "statement": "For every objective name and alias the training objective is the documented one, with the given delta, c, alpha and variance power when these are in their ranges and the defaults otherwise; any other name is refused.", "quantifier": "all names, all parameter values", "why_tests_cant": "Aliases, out-of-range parameters and unknown names are an infinite set; a wrong branch trains a plausible model.", "anchors": ["sklearn/lightgbm/objectives.go: CreateObjectiveFunction, NewTweedieObjective, NewHuberObjective, NewFairObjective, NewQuantileObjective"]}
{"id": "C244", "title": "Feature bundling is greedy and leaves nothing that fits", "statement": "CreateBundles takes columns in the order of increasing numbers of conflicts with other sparse columns; every column in a later bundle or in no bundle is in conflict with a column of the bundle, and unless the limit on the number of bundles is reached the sparse columns left alone are pairwise in conflict.", "quantifier": "all matrices, limits and thresholds, every sorting of equal keys", "why_tests_cant": "Ranges over all conflict graphs; a bundle that stops too early is still valid.", "anchors": ["sklearn/lightgbm/efb.go: CreateBundles, greedyBundling"]}
{"id": "C245", "title": "GetParams of a new estimator reports the options it was made with", "statement": "For SGDRegressor, SGDClassifier, both passive aggressive estimators, LogisticRegression, LinearRegression and DecisionTreeClassifier made with any list of options, GetParams reports under every documented name the value of the last option that sets it, with its dynamic type, and the documented default when no option sets it; no other name is reported.", "quantifier": "every list of options, with repetitions, in every order, and every name", "why_tests_cant": "all lists of options; the tests use one or two options each", "anchors": ["sklearn/linear_model/sgd_regressor.go:NewSGDRegressor", "sklearn/linear_model/sgd_regressor.go:GetParams", "sklearn/linear_model/sgd_classifier.go:NewSGDClassifier", "sklearn/linear_model/sgd_classifier.go:GetParams", "sklearn/linear_model/passive_aggressive.go:NewPassiveAggressiveRegressor", "sklearn/linear_model/passive_aggressive.go:NewPassiveAggressiveClassifier", "sklearn/linear_model/passive_aggressive.go:GetParams", "sklearn/linear_model/logistic.go:NewLogisticRegression", "sklearn/linear_model/linear_regression.go:NewLinearRegression", "sklearn/tree/tree.go:NewDecisionTreeClassifier"]}
{"id": "C246", "title": "Options of clusterers, drift detectors and naive Bayes", "statement": "A new MiniBatchKMeans, DDM or ADWIN has for every setting the last value asked for or the default, whatever the order of options about other settings, and has seen no data. A new MultinomialNB has the last smoothing parameter; a prior given with WithClassPrior is used after Fit unless a later WithFitPrior(true) follows, and in that case every training history gives the predictions of a classifier made without the prior. So for this estimator the order of two different options matters.", "quantifier": "every list of options, every training history and input", "why_tests_cant": "all lists of options and all histories", "anchors": ["sklearn/cluster/minibatch_kmeans.go:NewMiniBatchKMeans", "sklearn/drift/ddm.go:NewDDM", "sklearn/drift/ddm.go:NewADWIN", "sklearn/naive_bayes/multinomial_nb.go:NewMultinomialNB", "sklearn/naive_bayes/multinomial_nb.go:WithClassPrior", "sklearn/naive_bayes/multinomial_nb.go:WithFitPrior"]}
{"id": "C247", "title": "The two leaf outputs of a predictor", "statement": "PredictLeaf and PredictLeafIndex give one row per sample and one entry per tree, the number of the leaf the sample falls into; the two functions report the same numbers, training rows of one leaf share a number, and a matrix of the wrong width is an error.", "quantifier": "every model, matrix and training run", "why_tests_cant": "agreement of two separate traversals and numberings concerns every tree shape and every sample", "anchors": ["sklearn/lightgbm/predictor_extended.go:Predictor.PredictLeaf", "sklearn/lightgbm/predictor.go:Predictor.PredictLeafIndex", "sklearn/lightgbm/trainer.go:Trainer.buildNode"]}
{"id": "C248", "title": "Diagnostics of the SGD models describe the training", "statement": "NIterations counts the losses in GetLossHistory, one per epoch of Fit or call of PartialFit since training last began from scratch; GetLoss is the last of them (infinity before training); GetConverged and the convergence warning tell whether the last Fit ended with levelled losses.", "quantifier": "every history of Fit, PartialFit and setter calls, failing calls included", "why_tests_cant": "counters must agree after every order of calls", "anchors": ["sklearn/linear_model/sgd_regressor.go:SGDRegressor.Fit", "sklearn/linear_model/sgd_regressor.go:SGDRegressor.GetConverged", "sklearn/linear_model/sgd_classifier.go:SGDClassifier.PartialFit"]}
{"id": "C249", "title": "Callbacks run under the state lock", "statement": "A callback passed to WithState sees a state no setter changes while it runs, one passed to WithStateMut runs while no other goroutine reads or writes the state, and both calls return whatever methods of the state manager the callback and the other goroutines use.", "quantifier": "every number of goroutines, every sequence of calls of getters, setters, WithState and WithStateMut with callbacks that may call any of these again, every schedule of a read-write lock that holds back new readers while a writer waits", "why_tests_cant": "a deadlock needs one particular interleaving among all, and that a call never returns is a statement about all schedules", "anchors": ["core/model/state_manager.go:StateManager.WithState", "core/model/state_manager.go:StateManager.WithStateMut", "core/model/state_manager.go:StateManager.IsFitted"]}
{"id": "C250", "title": "Node histograms of the trainer partition the rows", "statement": "In the trainer's histogram code, binning succeeds exactly when there are no columns, or there is a row and the bin limit is not negative; otherwise it panics. With at least one row and a positive limit, every feature has as many bins as it has distinct values, at most the limit, every training value lies in exactly one bin and never on an inner bound, and for every node the bins' counts, gradient and hessian sums are those of the node's rows with values in the bin, so they add up to the node's totals; the histogram of one child got by subtracting the other child's from the parent's is the histogram of that child.", "quantifier": "every matrix, gradients, hessians, bin limit and set of rows of a node", "why_tests_cant": "a test builds a few histograms; a boundary value in the wrong bin or a row lost in the subtraction shows only for particular data", "anchors": ["sklearn/lightgbm/trainer.go:buildHistograms", "sklearn/lightgbm/trainer.go:buildNodeHistogram", "sklearn/lightgbm/trainer.go:subtractHistogram", "sklearn/lightgbm/trainer.go:findQuantileBinBoundaries"]}
{"id": "C251", "title": "Which files the model loaders open", "statement": "A model loader given a relative path opens the file the path names, only if it lies below the working directory, and whether a path is accepted does not depend on its spelling or on the contents of the file.", "quantifier": "every path, working directory and file contents", "why_tests_cant": "path traversal depends on arbitrary combinations of components; a test tries a few spellings", "anchors": ["sklearn/lightgbm/loader.go:LoadFromFile", "sklearn/lightgbm/loader.go:LoadFromJSONFile", "sklearn/lightgbm/json_loader.go:LoadJSONModelFromFile", "sklearn/lightgbm/json_loader.go:IsJSONModel", "sklearn/lightgbm/json_loader.go:LoadModelAutoDetect", "sklearn/lightgbm/leaves_loader.go:LoadLeavesModelFromFile"]}
{"id": "C252", "title": "Cached feature values are those asked for", "statement": "A call for the sorted values of a feature returns the sorted values of that feature in the given matrix and rows, under every interleaving with other calls and with clearing the cache; a call is never blocked for good.", "quantifier": "every number of goroutines, schedule, matrix and rows", "why_tests_cant": "schedules and earlier calls", "anchors": ["sklearn/lightgbm/histogram_optimization.go:GetCachedFeatureValues", "sklearn/lightgbm/histogram_optimization.go:ClearCache"]}
{"id": "C253", "title": "Multiclass probabilities of Model.Predict", "statement": "For a multiclass model, Model.Predict reports for every row one probability per class, between 0 and 1 and adding up to 1. Each is the share of a weight: 1 for the classes of largest raw score, 0 for those more than 700 below it, and otherwise the exponential of the distance to the largest score up to distance^21/21!. Hence the order of the probabilities is the order of the raw scores. (The last sentence is false of the code: the exponential is a 21-term power series, so with raw scores 30, 0 and 0 the class that is practically certain gets a probability below 1e-9. It holds when all scores are within 6 of the largest, and the winning class is right when they are within 8.)", "quantifier": "all lists of raw scores, all numbers of classes and all rows", "why_tests_cant": "tests use small scores; where the power series stops being an exponential depends on the distance between the scores of the classes", "anchors": ["sklearn/lightgbm/model.go: Predict", "sklearn/lightgbm/model.go: softmax", "sklearn/lightgbm/model.go: exp"]}
{"id": "C254", "title": "Early stopping without validation data", "statement": "Training with early stopping set to n rounds and no validation data stops once the training loss has not improved for n iterations. (False of the code: the check always answers no, so the setting changes nothing - the same trees, scores, losses and errors as without it.)", "quantifier": "all settings, data, callbacks and earlier states of the trainer", "why_tests_cant": "a test with early stopping usually improves until the last iteration", "anchors": ["sklearn/lightgbm/trainer.go: Fit", "sklearn/lightgbm/trainer.go: checkEarlyStopping"]}
{"id": "C255", "title": "Settings of the parallel histogram builder do not change its result", "statement": "Whatever numbers SetNumWorkers and SetChunkSize are given, BuildHistogramsParallel returns for every feature the histogram that a sequential pass over the rows gives: the number of workers, the chunk size, the strategy chosen by the size of the data and the schedule do not matter. Settings that are not positive are ignored.", "quantifier": "all sequences of settings, all data and all schedules", "why_tests_cant": "the number of schedules is unbounded and the strategy by samples needs more than 10000 rows", "anchors": ["sklearn/lightgbm/parallel_histogram.go: BuildHistogramsParallel", "sklearn/lightgbm/parallel_histogram.go: SetNumWorkers", "sklearn/lightgbm/parallel_histogram.go: SetChunkSize"]}
{"id": "C256", "title": "IsEFBBeneficial tells whether bundling helps", "statement": "IsEFBBeneficial holds exactly if there are at least ten columns and the share of zero entries is at least the sparsity ratio; it holds if and only if CreateBundles finds a bundle. (The second half is false of the code in both directions; it does imply that some column is sparse enough.)", "quantifier": "all matrices and settings", "why_tests_cant": "needs all matrices", "anchors": ["sklearn/lightgbm/efb.go: IsEFBBeneficial", "sklearn/lightgbm/efb.go: CreateBundles"]}
{"id": "C257", "title": "SHAP values of a matrix are computed row by row, and wrong widths are refused", "statement": "CalculateSHAP returns one list of values for every row and one value for every column; the list of a row depends only on that row; the base value is the initial score of the model. CalculateInteractions returns one symmetric matrix for every row with the row's SHAP values on the diagonal. PredictSHAP of an estimator that was not trained is an error, and a matrix whose number of columns differs from the training data's is refused.", "quantifier": "every model, every matrix, every row", "why_tests_cant": "The independence of rows must hold for all matrices and all models; tests compare a few sums.", "anchors": ["sklearn/lightgbm/shap.go:CalculateSHAP", "sklearn/lightgbm/shap.go:CalculateInteractions", "sklearn/lightgbm/shap.go:PredictSHAP"]}
{"id": "C258", "title": "Predictors return the probabilities of the raw scores", "statement": "SimplePredictor returns for more than two classes the softmax of the raw scores, all positive with sum 1, and for binary objectives the logistic function of the raw score (exactly 1 above 500, exactly 0 below -500). Predictor returns the same values up to its precision threshold, below which it writes 0; for the objective multiclass_logloss PredictProba is the softmax of what Predict returns. Other objectives of one class return the raw score.", "quantifier": "all models, samples and raw scores", "why_tests_cant": "a test compares a few scores with a tolerance and cannot rule out that the two branches for negative and positive scores or the two predictors disagree elsewhere", "anchors": ["sklearn/lightgbm/simple_predictor.go: SimplePredictor.PredictSingle, sigmoid, softmax", "sklearn/lightgbm/predictor.go: stableSigmoid, PredictProba, applySoftmax"]}
{"id": "C259", "title": "Best iteration limits the trees used for a prediction", "statement": "When the best iteration is set and smaller than the number of iterations, Predictor uses exactly the trees of the iterations up to it; otherwise all iterations of the model. A further tree beyond the limit does not change any prediction.", "quantifier": "all models, all numbers of trees, classes and iterations, all samples", "why_tests_cant": "the number of trees per iteration depends on the number of classes; tests train models with one class", "anchors": ["sklearn/lightgbm/predictor.go: predictSingleSample"]}
{"id": "C260", "title": "Objective names mean the same everywhere", "statement": "A name that ValidateObjective accepts is an objective that training accepts, aliases are mapped to the objective they stand for, and a model file with that objective is loaded with the same objective; names that are not accepted by one of them are refused by all.", "quantifier": "all strings", "why_tests_cant": "three tables of names have to agree on every string, tests look up a few names in one of them", "anchors": ["sklearn/lightgbm/parameter_mapping.go: ValidateObjective", "sklearn/lightgbm/objectives.go: CreateObjectiveFunction", "sklearn/lightgbm/json_loader.go: parseObjective"]}
{"id": "C261", "title": "Parameter defaults and Python names", "statement": "The Python name derived from a Go field name consists of its words in lower case joined by underscores, without one at the front; the default of a parameter is found under its canonical name and under each alias, and unknown names have none.", "quantifier": "all identifiers made of capitalised words, all parameter names and aliases", "why_tests_cant": "the conversion works on arbitrary strings and the tables have many aliases; tests try a handful", "anchors": ["sklearn/lightgbm/parameter_mapping.go: GetDefault, toSnakeCase"]}
{"id": "C262", "title": "A log record contains its message, level and fields", "statement": "Every record at or above the configured level is written with the level asked for, the message, the context fields and each key with its value, in order; an error passed as a field is written under its key.", "quantifier": "all records, all lists of keys and values of any types and lengths", "why_tests_cant": "the fields are arbitrary values in arbitrary numbers; tests log a few of them", "anchors": ["pkg/log/logger.go: Debug, Info, Warn, Error, addFields"]}
{"id": "C263", "title": "SHAP interactions are defined by the splits on the way and add up", "statement": "The interaction of two different features is the learning rate times the sum, over the trees that ask about both and over the splits on the sample's way that ask about one of them, of a tenth of the distance between the values stored at the two children. It is never negative for a learning rate that is not, it is 0 for features that share no tree, and the interactions of a feature, its own entry included, sum up to its SHAP value.", "quantifier": "all models, trees, samples and pairs of features", "why_tests_cant": "the sums range over all paths through arbitrary trees; tests check shapes and symmetry", "anchors": ["sklearn/lightgbm/shap.go: calculateSampleInteractions, calculatePairwiseInteraction, treeUsesFeatures, treeInteractionContribution"]}
{"id": "C264", "title": "The categorical split used in training is the best of all groupings of the categories", "statement": "Training divides a categorical feature by sorting the categories present in the node and cutting the sorted list in two. Without L1 regularisation, with at most one row asked for in a leaf and with hessians above the smallest accepted one, no division of the categories into two groups has a higher gain than the split found, provided there is no L2 regularisation or all categories carry the same hessian. The documentation promises the best split without these conditions; with L2 regularisation, or with a larger minimum of rows in a leaf, a better grouping can exist.", "quantifier": "all data sets, gradients, hessians, sets of rows and groups of categories; all orders in which maps are visited and sorts resolve ties", "why_tests_cant": "there are 2^(k-1) groupings of k categories, and each data set has its own order", "anchors": ["sklearn/lightgbm/histogram_optimization.go: FindBestCategoricalSplitFromHistogram, calculateGain, buildCategoricalHistogram"]}
{"id": "C265", "title": "A categorical split found without histograms describes a group of categories", "statement": "The split search on category statistics returns the counts, sums and gain of the rows of a group of categories and of the other rows; both sides have the number of rows asked for, and no other cut of the sorted categories with enough rows gains more. The categories of the node built from such a split should be those of the group; they are looked up in a list sorted by a different key (the L2 regularisation in place of the smoothing), so the node can send other categories to the left than the split describes.", "quantifier": "all data sets, gradients, hessians, smoothing and regularisation values; all orders in which maps are visited", "why_tests_cant": "the order depends on the sums of all rows of each category", "anchors": ["sklearn/lightgbm/trainer.go: findBestCategoricalSplit", "sklearn/lightgbm/categorical.go: getCategoriesForSplit"]}
{"id": "C266", "title": "Weight hashes tell the weights of a linear regression apart", "statement": "For LinearRegression, GetWeightHash of fitted models is the same exactly when the coefficients and the intercept are, an unfitted model has no hash, and a model that imported exported weights has the hash of the exporting model. False with NaN or infinite weights: all such models have the same hash.", "quantifier": "every pair of models, every weights, every collision-free encoding and hash function", "why_tests_cant": "a test compares a few models; two models with equal hashes and different weights must not exist", "anchors": ["sklearn/linear_model/linear_regression.go: GetWeightHash, ExportWeights, ImportWeights"]}
{"id": "C267", "title": "ImportWeights of a linear regression refuses altered weights", "statement": "Weights exported by LinearRegression.ExportWeights and changed afterwards are refused by ImportWeights. False of the intercept: the checksum covers the coefficients only, so weights with another intercept are accepted.", "quantifier": "every fitted model, every importing model, every change", "why_tests_cant": "a test changes one coefficient; the claim is about every change", "anchors": ["sklearn/linear_model/linear_regression.go: ExportWeights, ImportWeights"]}
{"id": "C268", "title": "With methods of LightGBM estimators set what GetParams reports", "statement": "After any chain of With calls on an LGBMRegressor or LGBMClassifier, GetParams reports under each name the value of the last call that sets it and otherwise what it reported before; setting the number of leaves, depth, learning rate, iterations, seed or determinism by a With call and by SetParams gives the same estimator. False of objectives: SetParams stores the canonical name and WithObjective the name given. The classifier's WithEarlyStopping, and WithProgressBar and WithTweedieVariancePower, change nothing GetParams reports.", "quantifier": "every estimator, every chain of calls of every length, every order in which the maps are visited", "why_tests_cant": "a test calls a few methods in one order", "anchors": ["sklearn/lightgbm/lgbm_regressor.go: WithNumLeaves, WithMaxDepth, WithLearningRate, WithNumIterations, WithRandomState, WithDeterministic, WithProgressBar, WithObjective, WithTweedieVariancePower, WithEarlyStopping, GetParams, SetParams", "sklearn/lightgbm/lgbm_classifier.go: WithNumLeaves, WithMaxDepth, WithLearningRate, WithNumIterations, WithRandomState, WithDeterministic, WithProgressBar, WithEarlyStopping, GetParams"]}
{"id": "C269", "title": "Metrics keep their range in floating point", "statement": "With every operation rounded (any monotone rounding that keeps 0, 1 and negation, so in particular IEEE round-to-nearest without overflow), MSE and MAE are not negative, R2 and explained variance are at most 1, accuracy and classification error are in [0, 1], and a perfect prediction scores exactly 0 error and exactly accuracy 1; the mean squared error is 0 only for equal vectors. Of the code the last clause is false: squared differences below the smallest number underflow, so two different vectors have MSE 0; it holds if no squared difference underflows. Accuracy is not always the number nearest to the fraction of hits.", "quantifier": "every pair of vectors of representable numbers and every rounding function", "why_tests_cant": "the claims are about all inputs and all rounding patterns; tests compare a few results with a tolerance", "anchors": ["metrics/regression.go:MSE", "metrics/regression.go:MAE", "metrics/regression.go:R2Score", "metrics/classification.go:Accuracy"]}
{"id": "C270", "title": "MinMaxScaler stays in its range in floating point", "statement": "With every operation rounded, the training data transformed by MinMaxScaler are within the feature range, the minimum of each column is mapped to the lower limit exactly, and larger values are not mapped to smaller ones. Of the code the upper limit is false: for the range [-0.2, 0.4] in binary64 the largest value is mapped above 0.4, since the code multiplies by a rounded width and adds the lower limit; it holds if the width of the range is representable, as for [0, 1].", "quantifier": "every matrix, every feature range and every rounding function", "why_tests_cant": "holds or fails depending on the rounding of the width of the range; tests use [0, 1] and a tolerance", "anchors": ["preprocessing/scaler.go:MinMaxScaler.FitTransform", "preprocessing/scaler.go:MinMaxScaler.Transform"]}
{"id": "C271", "title": "StandardScaler maps constant columns to zero in floating point", "statement": "With every operation rounded, a column of equal values is mapped to zeros. Of the code this is false: for three rows with the value 100000000.1 in binary64 the rounded mean differs from the value, the difference is also the standard deviation and above the limit of 1e-8, so every row is mapped to 1. It holds if the multiples of the value up to the number of rows are representable, for instance for integers.", "quantifier": "every constant column and every rounding function", "why_tests_cant": "the failure needs a value whose multiples are rounded; tests use small integers", "anchors": ["preprocessing/scaler.go:StandardScaler.FitTransform", "preprocessing/scaler.go:StandardScaler.Fit"]}
{"id": "C272", "title": "Split thresholds separate neighbouring values in floating point", "statement": "With every operation rounded, the threshold of a split of the decision tree lies between the two neighbouring feature values it was computed from, and separates them. Of the code the second part is false: for two neighbouring binary64 numbers the midpoint may round to the larger one, so rows that differ cannot be separated and the tree predicts one label for both; it holds whenever a representable number lies in the upper half of the gap.", "quantifier": "every training set, every rounding function for which doubling is exact", "why_tests_cant": "the failure needs values one unit in the last place apart", "anchors": ["sklearn/tree/tree.go:findBestSplit", "sklearn/tree/tree.go:DecisionTreeClassifier.Fit"]}
{"id": "C273", "title": "Predicted probabilities in floating point", "statement": "With every operation rounded, and for any exponential that is not negative, one at zero and at most one below zero, the probabilities that LogisticRegression and MultinomialNB return are in [0, 1] and their sum differs from one by at most a stated error that depends on the number of classes only; those of SGDClassifier are in [0, 1] if the exponential of some score does not vanish.", "quantifier": "every fitted model, every query, every rounding function with a bounded error", "why_tests_cant": "the error must be bounded for all models and all numbers of classes; tests sum a few rows with a tolerance", "anchors": ["sklearn/linear_model/logistic.go:LogisticRegression.PredictProba", "sklearn/naive_bayes/multinomial_nb.go:MultinomialNB.PredictProba", "sklearn/linear_model/sgd_classifier.go:SGDClassifier.PredictProba"]}
{"id": "C274", "title": "Error of linear predictions in floating point", "statement": "With every operation rounded with relative error eps and absolute error eta, each prediction of LinearRegression (both implementations) and of SGDRegressor differs from intercept plus the sum of feature times coefficient by at most ((1+eps)^(n+1) - 1) times the sum of the absolute values of the terms, plus n (2+eps) (1+eps)^n eta, for n features. Binary64 without overflow has eps = 2^-53 and eta = 2^-1075.", "quantifier": "every model, every query, every number of features, every rounding function with such an error", "why_tests_cant": "a bound on the error for all inputs; tests compare single predictions with a tolerance", "anchors": ["linear/regression.go:LinearRegression.Predict", "sklearn/linear_model/linear_regression.go:LinearRegression.Predict", "sklearn/linear_model/sgd_regressor.go:SGDRegressor.Predict"]}
{"id": "C275", "title": "The number of iterations an online learner reports is the number of passes over the data", "statement": "After a successful Fit, NIterations of the two PassiveAggressive estimators is the configured maximum, on top of the count before when warm started. SGDClassifier without warm start reports the number of passes it made, at most the maximum; it records one loss per pass, makes fewer passes only when it reports convergence, and reports convergence only when the recorded losses have levelled out within tol. PartialFit counts as an iteration for SGDRegressor only.", "quantifier": "every estimator state, option setting, dataset, random order and initial weights", "why_tests_cant": "the number of passes depends on the whole sequence of losses; tests fix one dataset and one maximum", "anchors": ["sklearn/linear_model/passive_aggressive.go Fit, PartialFit, NIterations", "sklearn/linear_model/sgd_classifier.go Fit, PartialFit, NIterations", "sklearn/linear_model/sgd_regressor.go PartialFit"]}
{"id": "C276", "title": "Metrics of finite vectors are finite", "statement": "For finite label and prediction vectors of equal, non-zero length, the mean squared error, the mean absolute error and the R² score are finite numbers, the ones that the rounded computation gives.", "quantifier": "all vectors of finite float64 values, of every length", "why_tests_cant": "Overflow of a difference, a square or a sum depends on the magnitudes of all entries; tests use ordinary magnitudes.", "anchors": ["metrics/regression.go MSE, MAE, R2Score"]}
{"id": "C277", "title": "Scaling finite data gives finite data", "statement": "FitTransform of the min-max scaler and of the standard scaler turns every matrix of finite numbers into finite numbers (no NaN and no infinity), the ones that the rounded computation gives.", "quantifier": "all matrices of finite float64 values, all numbers of rows and columns, all feature ranges", "why_tests_cant": "The range and the variance overflow only for particular magnitudes.", "anchors": ["preprocessing/scaler.go MinMaxScaler.FitTransform, StandardScaler.FitTransform"]}
{"id": "C278", "title": "Probabilities of logistic regression are numbers", "statement": "Every probability that PredictProba of a fitted logistic regression returns is a number between 0 and 1 (not NaN), also when the exponential of a score overflows or underflows.", "quantifier": "all fitted models with finite weights, all rows of finite values, any number of classes", "why_tests_cant": "Tests use moderate scores, where no exponential overflows.", "anchors": ["sklearn/linear_model/logistic.go PredictProba"]}
{"id": "C279", "title": "Linear predictions of finite data are finite", "statement": "A linear model with finite coefficients predicts finite numbers for finite rows.", "quantifier": "all fitted linear and SGD regressors with finite coefficients, all finite matrices", "why_tests_cant": "Intermediate products and sums overflow only for particular magnitudes.", "anchors": ["linear/regression.go Predict", "sklearn/linear_model/linear_regression.go Predict", "sklearn/linear_model/sgd_regressor.go Predict"]}
{"id": "C280", "title": "Warm start of logistic regression resumes from the last fit", "statement": "With warm_start set, Fit of LogisticRegression starts the optimiser from the weights and intercepts of the last Fit, and after a successful Fit the model answers Predict, also when the new data has other columns or classes.", "quantifier": "all fitted models, all data sets, every optimiser", "why_tests_cant": "Tests fit each model once; the starting point is visible only through the optimiser.", "anchors": ["sklearn/linear_model/logistic.go Fit, fitBinaryLBFGS, fitBinaryForClassLBFGS"]}
{"id": "C281", "title": "MiniBatchKMeans starts from distinct rows", "statement": "When the data have at least n_clusters distinct rows, the initial centres are n_clusters distinct rows of the data; with k-means++ each further centre is drawn with probability proportional to the squared distance to the nearest centre chosen so far.", "quantifier": "every data set, number of clusters and random generator", "why_tests_cant": "A test fixes one data set and seed; repeated starts depend on the draws and on how many rows coincide.", "anchors": ["sklearn/cluster/minibatch_kmeans.go:initializeCenters", "sklearn/cluster/minibatch_kmeans.go:initKMeansPlusPlus"]}
{"id": "C282", "title": "Rounding error of MSE, MAE and MAPE", "statement": "Computed in float64, the mean squared error, the mean absolute error and the mean absolute percentage error of n pairs differ from the exact values by at most n plus a small constant number of unit roundoffs of the exact value (n + 4 for MSE, n + 2 for MAE, c + 4 for MAPE over the c targets that are not zero), plus a constant number of underflow units. There is no cancellation, whatever the data.", "quantifier": "all vectors of equal length, of fewer than 2^53 entries, of all float64 values without overflow", "why_tests_cant": "The bound ranges over all vectors of all lengths; a test compares a few against a tolerance.", "anchors": ["metrics/regression.go MSE", "metrics/regression.go MAE", "metrics/regression.go MAPE"]}
{"id": "C283", "title": "Scaling and scaling back loses only rounding errors", "statement": "In float64, InverseTransform after Transform returns every value up to one unit roundoff of the value and about three of its distance from the stored centre, plus underflow, whatever the scaler was fitted on and whatever calls came before.", "quantifier": "all histories of calls, all matrices of the fitted width, all float64 values without overflow", "why_tests_cant": "The error must be bounded for every value and every fitted centre and scale; a test looks at a few with a tolerance.", "anchors": ["preprocessing/scaler.go StandardScaler.InverseTransform", "preprocessing/scaler.go MinMaxScaler.InverseTransform"]}
{"id": "C284", "title": "Rounding error of ensemble scores", "statement": "The raw score of a class computed in float64 is the initial score plus the outputs of exactly the trees of that class, up to one unit roundoff per tree of the sum of the magnitudes; no tree is left out or counted for another class.", "quantifier": "all models, any number of trees and classes, all rows, any number of used iterations", "why_tests_cant": "The bound must hold for every ensemble and row; tests compare a few scores with a tolerance.", "anchors": ["sklearn/lightgbm/model.go PredictSingle", "sklearn/lightgbm/model.go PredictRawScore"]}
{"id": "C285", "title": "A perfect ranking has an area under the curve of exactly 1, and the rounded area is close to the fraction of correctly ordered pairs", "statement": "`AUC` computed in floating point is never negative, differs from the fraction of correctly ordered pairs of a positive and a negative (ties count one half) by a bound that grows linearly with the number of samples, is at most 1, and is exactly 1 when every positive outscores every negative.", "quantifier": "All label and score vectors with both labels, any order of the samples, any arrangement of ties by the sort, every operation rounded.", "why_tests_cant": "The widths of the steps of the curve are differences of rounded fractions; whether they add up to 1 depends on the sizes of the groups of tied scores, of which a test tries a few.", "anchors": ["metrics/classification.go: AUC, AUCMatrix"]}
{"id": "C286", "title": "The mean of the adaptive window is the mean of the values in the window, also in floating point", "statement": "After any history of `Update` and `Reset`, `GetMean` of `ADWIN` is the mean of the last `GetWidth` values rounded once; values that left the window leave no trace.", "quantifier": "All histories of updates and resets, all settings, every operation rounded; whole numbers of bounded total for the positive half.", "why_tests_cant": "The running sum is kept by adding and subtracting, so an error made by a value that left long ago stays; a test sees short histories of friendly values.", "anchors": ["sklearn/drift/ddm.go: ADWIN.Update, ADWIN.GetMean, ADWIN.GetWidth"]}
{"id": "C287", "title": "Naive Bayes on counts does not depend on the order of the training rows, bit for bit", "statement": "`Fit` of `MultinomialNB` on the same rows in another order, or with another iteration order of Go's map of labels, leaves the same model bit for bit: the same classes, class priors, feature log probabilities and predictions.", "quantifier": "All tables of counts, all permutations of the rows, all iteration orders of the map, every operation rounded; whole-number counts of bounded column totals for the positive half.", "why_tests_cant": "There are n! orders; a test that shuffles once with small whole numbers passes and says nothing about tf-idf weights.", "anchors": ["sklearn/naive_bayes/multinomial_nb.go: MultinomialNB.Fit, MultinomialNB.FeatureLogProb, MultinomialNB.ClassLogPrior"]}
{"id": "C288", "title": "Cluster centres stay in the range of the data in float64", "statement": "In float64, after any sequence of PartialFit calls every centre of MiniBatchKMeans lies, in every coordinate, within the range of the values seen; in particular a cluster of identical rows has that row as its centre.", "quantifier": "every number of clusters, generator, history of batches of one width and every rounding of the arithmetic", "why_tests_cant": "The error of the running mean depends on all earlier updates of a centre; tests compare a few small samples with a tolerance.", "anchors": ["sklearn/cluster/minibatch_kmeans.go: PartialFit, findNearestCluster"]}
{"id": "C289", "title": "Decision tree splits are optimal in float64", "statement": "In float64 the split the decision tree chooses has a positive impurity decrease, no admissible split between neighbouring values decreases the impurity more, and a node stays unsplit only if no admissible split decreases it.", "quantifier": "every training set, number of classes, parameters and rounding of the arithmetic", "why_tests_cant": "Whether a rounding error tips a comparison depends on the counts in every candidate split; tests use data with one clearly best split.", "anchors": ["sklearn/tree/tree.go: findBestSplit, calculateImpurity, Fit"]}
{"id": "C290", "title": "Pure nodes are recognised in float64", "statement": "In float64 the impurity of a node is exactly 0, so that it becomes a leaf, if and only if all its rows have one class; a pure node is a leaf for both criteria.", "quantifier": "every set of rows, every number of classes, every rounding of the arithmetic", "why_tests_cant": "The code compares a computed float64 with 0; that no mixture of classes rounds to 0 and every pure node does needs a bound over all counts.", "anchors": ["sklearn/tree/tree.go: shouldStop, calculateImpurity"]}
{"id": "C291", "title": "SetLearningRate takes effect", "statement": "After SetLearningRate(v) on SGDRegressor or SGDClassifier, GetLearningRate reports the rate the schedule derives from v, and the next training steps use that rate.", "quantifier": "every schedule name, rate, model with any training history and history of later Fit and PartialFit calls", "why_tests_cant": "The rate is read inside the training loop and depends on the schedule, the number of steps and the loss history.", "anchors": ["sklearn/linear_model/sgd_regressor.go: SetLearningRate, GetLearningRate, SetLearningRateSchedule, getLearningRate, updateWeights", "sklearn/linear_model/sgd_classifier.go: SetLearningRate, GetLearningRate, SetLearningRateSchedule, getLearningRate, updateWeights"]}
{"id": "C292", "title": "StandardScaler fits the mean and the variance of the data in float64", "statement": "In float64 the mean and the scale that StandardScaler.Fit stores for a column are the exact mean and the exact population standard deviation of its values up to a relative error of about n roundings, n the number of rows.", "quantifier": "every matrix of float64 values, every number of rows up to 2^53 and every column", "why_tests_cant": "The error depends on all values and their order; no set of samples bounds it.", "anchors": ["preprocessing/scaler.go: StandardScaler.Fit"]}
{"id": "C293", "title": "Standardised data has unit mean square and mean near zero in float64", "statement": "In float64, FitTransform of StandardScaler turns every column of n < 2^40 values whose standard deviation is not tiny (variance at least 1e-15) into one whose exact mean square is 1 up to 3(n + 6) units of 2^-53, and whose exact mean is 0 up to 2(n + 1) such units times the ratio of the mean absolute value to the scale, plus three units.", "quantifier": "every matrix of float64 values without overflow, every column and every square root as accurate as a correctly rounded one", "why_tests_cant": "Accumulated rounding of three dependent passes over the data; a sample of data sets shows no bound.", "anchors": ["preprocessing/scaler.go: StandardScaler.Fit, Transform, FitTransform"]}
{"id": "C294", "title": "Large feature values do not hide splits", "statement": "In float64, for a feature with at most max_bin distinct values, gradient boosting finds the best split between two neighbouring values and sends left exactly the rows it counted on the left, whatever the magnitude of the values (amounts, identifiers, timestamps).", "quantifier": "every column, gradients, hessians and parameter setting", "why_tests_cant": "The margin of 1e-10 above each value is lost in rounding from about two million on; tests use features of magnitude one.", "anchors": ["sklearn/lightgbm/histogram_optimization.go: findBinBoundaries, findBinIndex, FindBestSplitFromHistogram", "sklearn/lightgbm/trainer.go: splitData, buildNode"]}
{"id": "C295", "title": "Histogram subtraction gives the sibling's histogram in float64", "statement": "Subtracting the histogram of one child from that of its parent gives the histogram that would be built from the rows of the other child, with exact counts and no negative hessian sum, when every operation is rounded.", "quantifier": "every column, bounds, gradients, non-negative hessians and division of the rows", "why_tests_cant": "Cancellation depends on the magnitudes of the rows taken away; tests compare sums of small numbers.", "anchors": ["sklearn/lightgbm/histogram_optimization.go: HistogramSubtraction, buildContinuousHistogram"]}
{"id": "C296", "title": "Exclusive feature bundling is lossless in float64", "statement": "UnbundleFeatures(BundleFeatures(X)) gives back X when every operation is rounded, for mutually exclusive columns with values between 1e-10 and 1000.", "quantifier": "every matrix with exclusive sparse columns", "why_tests_cant": "The value is added to an offset of at least 1000 and loses its last digits; tests use small whole numbers, which are exact.", "anchors": ["sklearn/lightgbm/efb.go: BundleFeatures, createBundleValue, UnbundleFeatures, unbundleValue"]}
{"id": "C297", "title": "A missing value is not hidden by a metric", "statement": "A metric computed from predictions or targets that contain NaN is NaN or an error, so that the missing value is noticed.", "quantifier": "all target and prediction vectors with NaN at any place", "why_tests_cant": "One test places NaN at one position of one metric; the claim covers every metric, every position and every other value.", "anchors": ["metrics/regression.go:MSE", "metrics/regression.go:MAE", "metrics/regression.go:MAPE", "metrics/classification.go:AUC", "metrics/classification.go:Accuracy"]}
{"id": "C298", "title": "A row with a missing value does not damage a MiniBatchKMeans model", "statement": "After PartialFit with a row that contains NaN, the centres are numbers again once complete rows arrive, and complete rows keep being assigned by distance.", "quantifier": "all centres, counts, rows with NaN and later rows", "why_tests_cant": "The damage shows only in later calls; tests run a few rows and do not look at every history after a missing value.", "anchors": ["sklearn/cluster/minibatch_kmeans.go:PartialFit"]}
{"id": "C299", "title": "Samples are assigned to a nearest centre, also for very large coordinates", "statement": "MiniBatchKMeans assigns a sample with finite coordinates to a centre for which no other centre is nearer.", "quantifier": "all finite samples and centres, of every magnitude", "why_tests_cant": "Overflow of the squared distance happens only for coordinates beyond 1e154, which tests do not use.", "anchors": ["sklearn/cluster/minibatch_kmeans.go:findNearestCluster", "sklearn/cluster/minibatch_kmeans.go:euclideanDistance"]}
{"id": "C300", "title": "An adaptive window forgets a missing value", "statement": "After NaN was passed to Update of ADWIN and has left the window, GetMean is the mean of the values in the window, and drift is detected as before.", "quantifier": "all detectors, all runs of updates before and after the NaN", "why_tests_cant": "The NaN stays in the running sum through any number of later updates; a test of finite length cannot show that it never leaves.", "anchors": ["sklearn/drift/ddm.go:ADWIN.Update", "sklearn/drift/ddm.go:ADWIN.GetMean"]}
{"id": "C301", "title": "A missing value affects only its own row of a MinMaxScaler", "statement": "The range fitted to a column with missing values is the range of the other values of the column, independent of the order of the rows.", "quantifier": "all matrices with NaN at any places", "why_tests_cant": "Whether the NaN matters depends on the row it is in; tests would have to try every place.", "anchors": ["preprocessing/scaler.go:MinMaxScaler.Fit", "preprocessing/scaler.go:MinMaxScaler.Transform"]}
{"id": "C302", "title": "MultinomialNB without smoothing", "statement": "With alpha 0 (documented as no smoothing) Predict returns a class with the greatest likelihood; in particular a sample that uses only features seen in one class gets that class.", "quantifier": "all count matrices, labels and samples", "why_tests_cant": "The failure needs a feature with count zero in a class and in the sample, and shows as a wrong label, not as an error.", "anchors": ["sklearn/naive_bayes/multinomial_nb.go:WithAlpha", "sklearn/naive_bayes/multinomial_nb.go:Predict"]}
{"id": "C303", "title": "A sample with a missing value leaves an SGDRegressor usable", "statement": "After PartialFit with a sample whose target or feature is NaN, weights and predictions are still numbers.", "quantifier": "all models, losses, batches with NaN and later batches", "why_tests_cant": "The claim is about every later history of batches; a test sees only the first.", "anchors": ["sklearn/linear_model/sgd_regressor.go:PartialFit", "sklearn/linear_model/sgd_regressor.go:updateWeights"]}
{"id": "C304", "title": "Samples with a missing value do not change passive-aggressive models", "statement": "PartialFit with a sample that has a feature NaN (or, for the regressor, the target NaN) changes neither weights nor intercept.", "quantifier": "all models, losses, samples with NaN at any place", "why_tests_cant": "NaN passes through comparisons, maxima and divisions; that every path leaves the weights alone must hold for every model and sample.", "anchors": ["sklearn/linear_model/passive_aggressive.go:PassiveAggressiveRegressor.PartialFit", "sklearn/linear_model/passive_aggressive.go:PassiveAggressiveClassifier.PartialFit"]}
{"id": "C305", "title": "A sample with a missing value leaves an SGDClassifier usable", "statement": "After PartialFit with a sample that has a feature NaN, decision values are numbers and Predict still tells the classes apart.", "quantifier": "all models, losses, penalties, batches with NaN and later batches", "why_tests_cant": "The claim is about every loss, penalty and later history of batches; the failure is silent, as Predict keeps returning labels.", "anchors": ["sklearn/linear_model/sgd_classifier.go:PartialFit", "sklearn/linear_model/sgd_classifier.go:Predict", "sklearn/linear_model/sgd_classifier.go:DecisionFunction"]}
{"id": "C306", "title": "A decision tree separates values of every magnitude", "statement": "DecisionTreeClassifier.Fit on a feature whose two values are finite and distinct and whose samples have different labels finds a threshold between them, so that Predict returns the label of each training sample", "quantifier": "all pairs of finite values, all labellings, all tree parameters", "why_tests_cant": "The threshold is the sum of two neighbours divided by two: the sum overflows only for values above 9e307, which tests do not use, and then the threshold is infinite", "anchors": ["sklearn/tree/tree.go: Fit, Predict, findBestSplit"]}
{"id": "C307", "title": "A missing value affects only its own row of a StandardScaler", "statement": "Fitting a StandardScaler on a column with one NaN and transforming any matrix leaves the entries of the other rows numbers", "quantifier": "all training matrices with a NaN anywhere, all matrices transformed afterwards, all options", "why_tests_cant": "The mean of a column reads every row, so one NaN changes the result for all rows transformed later; tests use complete data", "anchors": ["preprocessing/scaler.go: StandardScaler.Fit, StandardScaler.Transform"]}
{"id": "C308", "title": "A missing target leaves an LGBMRegressor usable", "statement": "After Fit or FitWeighted returned without error on targets of which one is NaN, Predict returns numbers for samples far from the row without target", "quantifier": "all training data with a NaN target, all objectives that start from the mean of the targets, all trees grown, all samples predicted", "why_tests_cant": "The initial score is read by every prediction, so one missing target decides all of them; tests train on complete targets", "anchors": ["sklearn/lightgbm/lgbm_regressor.go: Fit, FitWeighted, Predict", "sklearn/lightgbm/objectives.go: GetInitScore", "sklearn/lightgbm/trainer.go: Fit, GetModel"]}
{"id": "C309", "title": "In float64 a sample is assigned to a nearest centre", "statement": "In float64, Predict of MiniBatchKMeans gives every row a centre for which no other centre is nearer; where rounding prevents this, the chosen centre is farther by at most a few units of rounding per column.", "quantifier": "all fitted models, all rows and columns whose distances do not overflow", "why_tests_cant": "whether two nearly equal distances compare correctly depends on the rounding of every term, so no sample of inputs settles the worst case", "anchors": ["sklearn/cluster/minibatch_kmeans.go: Predict, findNearestCluster, euclideanDistance"]}
{"id": "C310", "title": "Distances and inertia of MiniBatchKMeans are accurate in float64", "statement": "After a successful Fit in float64, Inertia is the exact sum of squared distances of the rows to the centres of their labels up to a relative error proportional to rows plus columns, and every distance given by Transform is exact up to a relative error proportional to the columns.", "quantifier": "all data, settings and random draws for which Fit succeeds and keeps a run; all models and rows for Transform", "why_tests_cant": "the accumulated rounding error grows with the number of rows and columns; samples cannot show a bound for all of them", "anchors": ["sklearn/cluster/minibatch_kmeans.go: Fit, Inertia, Labels, Transform, computeInertia, euclideanDistance"]}
{"id": "C311", "title": "Leaf values of boosted trees are optimal in float64", "statement": "In float64 the value of each leaf minimises the second-order objective of its rows with the configured L1 and L2 regularisation, up to a small multiple of the rounding unit.", "quantifier": "all rows, gradients, non-negative hessians and regularisation", "why_tests_cant": "the sum of the gradients can cancel, so the error depends on all of them and on their order; samples cannot give a bound", "anchors": ["sklearn/lightgbm/trainer.go: calculateLeafValue", "sklearn/lightgbm/trainer_params.go: ApplyLeafRegularization"]}
{"id": "C312", "title": "The split taken from a histogram is nearly the best one in float64", "statement": "Among the bin boundaries leaving min_data_in_leaf rows on both sides, the one returned by FindBestSplitFromHistogram has the largest regularised gain computed from the sums stored in the histogram, and the reported gain is that gain; in float64 both hold up to a bound proportional to the relative error of the sums, and when no split is returned no boundary has a gain above that bound.", "quantifier": "all histograms of up to 2^16 bins with non-negative hessians, all totals close to the sums of the bins, all regularisation without L1, every boundary keeping a minimum of hessian on both sides", "why_tests_cant": "rounding errors of sums, squares and quotients interact for each histogram; a sample of histograms shows neither a bound nor that the choice is nearly optimal in general", "anchors": ["sklearn/lightgbm/histogram_optimization.go: FindBestSplitFromHistogram, calculateGain"]}
{"id": "C313", "title": "R2Score is accurate in float64 and refuses constant targets", "statement": "In float64 R2Score returns the coefficient of determination 1 - RSS/TSS up to a bound proportional to the number of values times 1 + RSS/TSS, and it returns an error exactly when the true values are all equal.", "quantifier": "all non-empty vectors of equal length with fewer than 2^40 values", "why_tests_cant": "the mean is rounded, so the error depends on the size of the values against their spread for each vector; a few vectors show neither the bound nor where it ends", "anchors": ["metrics/regression.go: R2Score"]}
{"id": "C314", "title": "DDM keeps its protocol in float64", "statement": "In float64, for every history of a DDM: the reported error rate lies between 0 and 1 and the square root is never taken of a negative number; with outControlLevel >= warningLevel every drift report comes with a warning; with levels of at least 1 an update reaching the lowest error level since the last reset reports neither; past the warm-up the confidence level is at least 1; no report is made before the first error, and the first error after only correct predictions is reported as a drift.", "quantifier": "every history of updates and resets, every setting, every monotone rounding and every non-negative square root; the last part for up to 2^53 predictions", "why_tests_cant": "rounding could push a rate above one, make a radicand negative or turn a tie into a report for some counts only; all counts and histories cannot be tried", "anchors": ["sklearn/drift/ddm.go: NewDDM, Update, Reset"]}
{"id": "C315", "title": "Fractions ask for the number of rows, features and trees they say, in float64", "statement": "With BaggingFraction, FeatureFraction, the GOSS top rate or the DART drop rate q and n rows, features or trees, the number taken is the share of q: floor(n*q), or ceil(n*q) for DART, but at least one; in particular exactly n*q when that is whole.", "quantifier": "all decimal fractions, all numbers of rows, features and trees below 2^50, all generators", "why_tests_cant": "Whether float64(n)*q falls below a whole number depends on n and q together; tests use fractions like 0.5 and 0.8, which happen to work.", "anchors": ["sklearn/lightgbm/trainer_params.go: SampleFeatures, SampleInstances", "sklearn/lightgbm/trainer.go: goss sampling, selectDARTDropIndices"]}
{"id": "C316", "title": "Boosting starts from a score in the range of the targets, in float64", "statement": "The score from which boosting starts when it is computed from the targets (mean, median or quantile, by objective) lies between the smallest and the largest target; for equal targets it is the target.", "quantifier": "all non-empty target lists of float64, all quantile levels", "why_tests_cant": "Whether a rounded mean, a rounded interpolation or an overflowing sum leaves the range depends on the targets and their number.", "anchors": ["sklearn/lightgbm/objectives.go: GetInitScore, calculateMedian, calculateQuantile"]}
{"id": "C317", "title": "A row with a missing feature value does not keep a decision tree from separating the other rows", "statement": "When a decision tree is trained on data in which some rows have NaN for a feature, the tree still separates rows of different classes that it would separate without those rows; a missing value is never a threshold, a feature that is missing everywhere is never used, and rows with a missing value go to the right at every split on it, in training as in prediction. (The first part is false: a row with a missing value between two others hides the threshold between them.)", "quantifier": "every training set with missing values at any place, every number of classes and features, every set of parameters", "why_tests_cant": "Tests use complete data; whether a missing row does harm depends on where it stands in the data.", "anchors": ["sklearn/tree/tree.go:findBestSplit", "sklearn/tree/tree.go:Fit", "sklearn/tree/tree.go:Predict"]}
{"id": "C318", "title": "A missing value of a feature does not spoil the splits of boosted trees on that feature", "statement": "When an LGBM model is trained on data in which some rows have NaN for a numerical feature, the histogram of the feature still counts the other rows in the bins of their values: rows that would be split without the missing ones are split with them, and the counts for which a split is chosen are those of the rows that go left and right. A row with a missing value counts on the right, where training sends it, and other features are not affected. (The first part is false.)", "quantifier": "every training set with any number of missing values, every node, every number of bins, every set of gradients", "why_tests_cant": "Tests use complete data; the effect depends on the place of NaN in the sorted values and on a binary search through bounds that are NaN.", "anchors": ["sklearn/lightgbm/histogram_optimization.go:findBinBoundaries", "sklearn/lightgbm/histogram_optimization.go:findBinIndex", "sklearn/lightgbm/histogram_optimization.go:FindBestSplit", "sklearn/lightgbm/trainer.go:buildNode"]}
{"id": "C319", "title": "Linear classifiers predict a class with the greatest score, in float64", "statement": "SGDClassifier, PassiveAggressiveClassifier and MultinomialNB predict for every row a class whose score (intercept or log prior plus the sum of feature times weight) is the greatest in exact arithmetic. In float64 the predicted class can be behind another one, but by no more than the rounding errors of the two scores: a relative error of about the number of features times 2^-53 of the sum of the absolute values of the terms. A class that is ahead of all others by more than that is always predicted.", "quantifier": "every model, every row, every number of classes and features, every rounding with a relative error bound", "why_tests_cant": "Tests compare classes that are far apart; the bound must hold for every set of weights.", "anchors": ["sklearn/linear_model/sgd_classifier.go:Predict", "sklearn/linear_model/passive_aggressive.go:Predict", "sklearn/naive_bayes/multinomial_nb.go:Predict"]}
{"id": "C320", "title": "BinaryLogLoss is accurate in float64 and treats both classes alike", "statement": "For labels 0 and 1 and any predictions BinaryLogLoss in float64 is not negative, differs from the mean cost of the rows by about n + 1 relative rounding errors, and no row costs more than the dearer of the two wrong certain predictions; a NaN prediction makes the loss NaN. Swapping the classes, that is replacing labels y by 1 - y and predictions p by 1 - p, does not change the loss. (The last part is false in float64: 1 - (1 - 1e-15) is 9/2^53, less than 1e-15, so a certain wrong prediction of class 1 costs more than one of class 0.)", "quantifier": "all vectors of labels and predictions of any length, every rounding with a relative error bound, every logarithm that is monotone and not positive up to 1", "why_tests_cant": "Tests compare a few values with a tolerance; the bound grows with the number of rows and the asymmetry shows only for clipped predictions.", "anchors": ["metrics/classification.go:BinaryLogLoss", "metrics/classification.go:logSafe"]}
{"id": "C321", "title": "An error can still be recognised after it was wrapped", "statement": "If a call of the package fails with a structured error (not fitted, dimension, validation, value, numerical, input shape, recovered panic) and callers on the way up wrap it with Wrap, WithStack, fmt.Errorf with %w, NewModelError or Recover, any number of times and in any order, then As gives the same error with the same fields, Is matches what it matched before and no other error of the package, a nil error stays nil, and the text of the first error is part of the text of the last. An error of a recovered panic can be told apart from others by type, and the error value the code panicked with can be found with Is.", "quantifier": "all errors, all targets, all numbers and orders of wrapping layers", "why_tests_cant": "The number of layers is not bounded and every order of the kinds of layer has to be covered; tests wrap once or twice.", "anchors": ["pkg/errors/errors.go: Is, As, Wrap, WithStack, New, NewModelError, NumericalInstabilityError.Error", "pkg/errors/recovery.go: Recover, PanicError.Unwrap"]}
{"id": "C322", "title": "The drop rate of a forgetting warning says how much performance was lost", "statement": "NewCatastrophicForgettingWarning(metric, old, new) reports a positive DropRate exactly if the new performance is below the old one, and new = old - old * DropRate.", "quantifier": "all pairs of an old and a new performance", "why_tests_cant": "Old performances of zero and below zero, as for R2, are as possible as any other.", "anchors": ["pkg/errors/errors.go: NewCatastrophicForgettingWarning"]}
{"id": "C323", "title": "Probabilities and feature importances of a decision tree in float64", "statement": "In float64 every row of PredictProba of a fitted DecisionTreeClassifier has one number in [0, 1] per class, whose exact sum differs from 1 by at most one relative rounding error (and the smallest float per class), and Predict returns the label of the first class with the greatest probability. The feature importances are one number in [0, 1] per feature, exactly 0 for a feature the tree does not test, and unless all are 0 their exact sum differs from 1 by an error that depends on the number of features only.", "quantifier": "every training set of fewer than 2^52 rows, every query at least as wide, every parameter setting and rounding of the arithmetic", "why_tests_cant": "Tests add up a few rows with a tolerance; that no counts make two shares round to the same number, or the sum drift, needs a bound over all counts.", "anchors": ["sklearn/tree/tree.go: PredictProba, Predict, normalizeFeatureImportances"]}
{"id": "C324", "title": "Numerical guards with overflow, infinities and NaN", "statement": "In float64: ClipValue puts every number, also an infinite one, into [lo, hi] and returns a NaN unchanged. SafeDivide of finite numbers is finite if the numerator is at most the largest float64 times the threshold, and can be infinite otherwise. ClipGradient keeps the number of entries and never makes a finite entry larger in magnitude or changes its sign; if the sum of squares overflows, every finite entry becomes 0 and every infinite one NaN, and a gradient with a NaN is returned unchanged.", "quantifier": "all float64 values, all bounds, all gradients of any length, every rounding for the shrinking part", "why_tests_cant": "The guards exist for numbers outside the usual range; a test has one overflow, not the threshold at which the direction of a gradient is lost", "anchors": ["pkg/errors/numerical.go: SafeDivide", "pkg/errors/numerical.go: ClipValue", "pkg/errors/numerical.go: ClipGradient"]}
{"id": "C325", "title": "LogSumExp in float64", "statement": "In float64, LogSumExp of finite numbers is at least the largest of them and at most that number plus the computed logarithm of their count. A +Inf among values without NaN gives NaN instead of +Inf; a NaN shows in the result unless every other value before it is -Inf, when the result is -Inf.", "quantifier": "all lists of float64 values of any length that can be counted exactly, every monotone rounding", "why_tests_cant": "The bound must survive the rounding of every partial sum, for any number of values; the non-finite cases depend on the position of the value", "anchors": ["pkg/errors/numerical.go: LogSumExp"]}
{"id": "C326", "title": "The norm of a clipped gradient in float64", "statement": "In float64 the exact L2 norm of the result of ClipGradient with a limit that is not negative exceeds the limit at most by the factor (1 + eps)^2 / sqrt((2 - (1 + eps)^2)(1 - eps)^(n+1)), eps = 2^-53 and n the number of entries, if no square, no scaled entry and not the factor underflows.", "quantifier": "all gradients of any length, all limits that are not negative, every rounding with the accuracy of float64, every accurate square root", "why_tests_cant": "The computed norm, the factor and each entry are rounded; the excess depends on the number of entries and tests on small gradients see none", "anchors": ["pkg/errors/numerical.go: ClipGradient"]}
{"id": "C327", "title": "A passive-aggressive step moves the model towards the sample, in float64", "statement": "One training step of PassiveAggressiveRegressor leaves the model unchanged when the computed residual is at most epsilon; otherwise each weight, the intercept and the computed prediction for the sample move towards the target or stay, never away from it. One step of PassiveAggressiveClassifier never lowers the computed score of the class of the sample and never raises that of another class, so a row that is predicted right is still predicted right after training on it. All of this holds for the rounded numbers, not only in exact arithmetic.", "quantifier": "all models, samples, targets and labels, all C that are not negative, every monotone rounding", "why_tests_cant": "Rounding could turn a step around for some combination of magnitudes; a test has a few samples", "anchors": ["sklearn/linear_model/passive_aggressive.go: PartialFit", "sklearn/linear_model/passive_aggressive.go: Predict"]}
{"id": "C328", "title": "The predicted class is a most probable one, in float64", "statement": "For every row, the label Predict of LogisticRegression or SGDClassifier returns belongs to a class whose number in PredictProba is the greatest of the row, compared as float64. For two classes the probability of the second one never falls when the score rises, and a score that is not negative gives the second class; a negative score gives the first class (this last part does not hold next to zero, where the exponential rounds to 1).", "quantifier": "all fitted models, all matrices, every monotone rounding, every monotone exponential that is not negative", "why_tests_cant": "Predict compares scores, PredictProba rounded quotients of exponentials; that rounding never reorders them needs an argument for all numbers", "anchors": ["sklearn/linear_model/logistic.go: Predict", "sklearn/linear_model/logistic.go: PredictProba", "sklearn/linear_model/sgd_classifier.go: Predict", "sklearn/linear_model/sgd_classifier.go: PredictProba"]}
{"id": "C329", "title": "ADWIN on a constant stream in float64", "statement": "If every value passed to Update of ADWIN is the same number and its multiples up to the number of calls are float64 numbers, no call signals drift. Without the second condition this fails: five times the value 1600000000000000512 (a time in nanoseconds) signals drift although nothing changed.", "quantifier": "all values, all histories of Update and Reset, all confidences and bucket limits, every rounding to float64", "why_tests_cant": "Tests use small values, whose sums are exact; whether rounding of the sums can be taken for drift depends on every value and every length of the history.", "anchors": ["sklearn/drift/ddm.go: ADWIN.Update, ADWIN.detectDrift, ADWIN.addElement"]}
{"id": "C330", "title": "Mean and spread of cross-validation scores in float64", "statement": "GetMeanScore differs from the exact mean of the test scores by at most n + 1 relative rounding errors of the mean of their absolute values. GetStdScore is never negative and its square is the sample variance about the reported mean up to n + 6 relative errors. If all folds have the same score and its multiples are float64 numbers, the mean is that score and the spread is 0; for other scores this fails: three folds with score 0.1 have a mean above every score and a positive spread.", "quantifier": "all lists of float64 test scores, every rounding with the accuracy of float64, every correctly rounded square root", "why_tests_cant": "A test compares a few means with a tolerance; the bound has to hold for every list of scores, and equal scores with a mean outside their range are found only by looking at rounding.", "anchors": ["sklearn/lightgbm/cross_validation.go: CVResult.GetMeanScore, CVResult.GetStdScore"]}
{"id": "C331", "title": "Naive Bayes log probabilities and labels in float64", "statement": "Whatever batches a MultinomialNB has received, its fitted log priors and feature log probabilities are never positive, and PredictLogProba never returns a positive number. The label Predict returns belongs to a class whose log probability (PredictLogProba) and whose probability (PredictProba) are the greatest of the row.", "quantifier": "all histories of PartialFit, all samples, all smoothing parameters that are not negative, every rounding, every monotone exponential and every logarithm with the right sign", "why_tests_cant": "The three prediction methods round in different places; that they agree for every model and sample, and that no rounding makes a log probability positive, cannot be sampled.", "anchors": ["sklearn/naive_bayes/multinomial_nb.go: PartialFit, Predict, PredictLogProba, PredictProba"]}
{"id": "C332", "title": "Classification reports in float64", "statement": "Accuracy, precision, recall and F1 of the LightGBM evaluation are in [0, 1] for all labels, also with rounding. If every prediction is right all four are exactly 1, and with fewer than 2^53 samples an accuracy of 1 is reported only then. F1 lies between precision and recall only up to rounding: with both equal to 0.8 the reported F1 is larger.", "quantifier": "all lists of labels and predictions of any length and number of classes, every rounding", "why_tests_cant": "Tests check a few label lists with a tolerance; that no list gives a score above 1, or a score of 1 in spite of an error, needs all of them.", "anchors": ["sklearn/lightgbm/evaluation_metrics.go: ClassificationMetrics.Accuracy, Precision, Recall, F1Score, classF1Score"]}
{"id": "C333", "title": "Scalers keep the order of the values in float64", "statement": "Whatever a StandardScaler or a MinMaxScaler (with a range that is not reversed) was fitted to, a value that is not larger than another one of the same feature is never mapped to a larger number by Transform or InverseTransform, in the same call or in different calls. Different values may become equal.", "quantifier": "all histories of Fit, FitTransform, Transform, InverseTransform and Reset, all data, every rounding and every square root that is not negative", "why_tests_cant": "Whether rounding can swap two neighbouring values depends on all pairs of values and all fitted means and scales.", "anchors": ["preprocessing/scaler.go: StandardScaler.Transform, StandardScaler.InverseTransform, MinMaxScaler.Transform, MinMaxScaler.InverseTransform"]}
{"id": "C334", "title": "Boosting objectives push every prediction towards its target in float64", "statement": "In floating point, whatever the rounding, every objective that CreateObjectiveFunction returns has a Hessian that is never negative. For the regression objectives without a link function a prediction below the target never has a positive gradient and one above never a negative one. For targets that are not negative a larger prediction never has a smaller gradient. The gradient of a log loss lies in [-1, 0] for rows of the class and in [0, 1] for the others. The Huber gradient never exceeds its threshold, the fair gradient never its parameter. Every Hessian is positive.", "quantifier": "every rounding, every objective name and parameter, every prediction and target", "why_tests_cant": "the sign and the order of a gradient must survive every rounding; a test checks a few pairs with a tolerance", "anchors": ["sklearn/lightgbm/objectives.go: CreateObjectiveFunction, CalculateGradient, CalculateHessian"]}
{"id": "C335", "title": "Missing targets and very large values in boosting gradients", "statement": "With float64 as the code has it, with overflow, infinities and NaN: a NaN target gives a NaN gradient for every objective, so that it is never taken for a number; and the gradients of the absolute error and of Huber's loss stay finite for every prediction and target, also if their difference overflows, and no objective turns finite predictions and targets into a NaN Hessian or an infinite gradient beyond its bound.", "quantifier": "every objective name and parameter, every prediction and target including infinities and NaN", "why_tests_cant": "NaN takes the else branch of every comparison; tests use finite targets", "anchors": ["sklearn/lightgbm/objectives.go: CreateObjectiveFunction, CalculateGradient, CalculateHessian"]}
{"id": "C336", "title": "When a node of a boosted tree becomes a leaf, and the minimum of rows with GOSS", "statement": "While a tree is grown, a node becomes a leaf exactly if the depth limit is reached, if it has fewer rows than required, if the leaf limit is reached, or if the best split found has too little gain. The rows required are MinDataInLeaf; with gradient-based one-side sampling (GOSS) they are MinDataInLeaf times the share of rows sampled, but at least one, so that small samples can still be split.", "quantifier": "every training set, gradient vector, parameter set, partial tree and list of rows", "why_tests_cant": "the limits interact with the split finder at every node of every tree; tests look at the finished trees of a few data sets", "anchors": ["sklearn/lightgbm/trainer.go: buildNode", "sklearn/lightgbm/histogram_optimization.go: FindBestSplit"]}
{"id": "C337", "title": "Tensors of zeros and of ones", "statement": "NewZeros and NewOnes with two positive dimensions return a tensor of that shape which holds the value at every position and lives in memory no earlier tensor uses; no existing data changes.", "quantifier": "every memory, every pair of positive dimensions, every position", "why_tests_cant": "Tests read a few positions of one small tensor; shapes and aliasing range over all memories.", "anchors": ["core/tensor/tensor.go:NewZeros", "core/tensor/tensor.go:NewOnes"]}
{"id": "C338", "title": "The adaptive learning rate is halved exactly when the loss stagnates", "statement": "With the adaptive schedule the learning rate of an SGD step is half the initial one exactly when more than five losses were recorded and the last five never fall; otherwise it is the initial rate.", "quantifier": "every history of losses, every initial rate and step", "why_tests_cant": "Depends on the whole history of losses; tests run one history.", "anchors": ["sklearn/linear_model/sgd_regressor.go:getLearningRate", "sklearn/linear_model/sgd_regressor.go:isIncreasing"]}
{"id": "C339", "title": "All ways of feeding the drift detector are one", "statement": "Any history of Update, UpdateWithError, UpdateWithPrediction and Reset gives the same results and the same detector as the history of Update and Reset in which errors of at least 0.1 and predictions off by at least 1e-10 are the mistakes.", "quantifier": "every history of calls, every detector state", "why_tests_cant": "Quantifies over all histories; tests call each method a few times.", "anchors": ["sklearn/drift/ddm.go:UpdateWithError", "sklearn/drift/ddm.go:UpdateWithPrediction"]}
{"id": "C340", "title": "A booster predicts row by row in order and refuses without a model", "statement": "A booster whose last model was loaded returns one prediction per row in the order of the rows, each that of the row alone; a booster to which no model was given answers every kind of prediction with an error and does not panic.", "quantifier": "every history of calls on a booster, every matrix", "why_tests_cant": "Histories and matrices are unbounded.", "anchors": ["sklearn/lightgbm/api/booster.go:Predict", "sklearn/lightgbm/leaves_predictor.go:Predict"]}
{"id": "C341", "title": "A regressor after loading a model", "statement": "After a successful load a regressor predicts as the loaded model does, refuses matrices of another width, and a failed load changes nothing; the next Fit trains the objective of the loaded model.", "quantifier": "every regressor state, every loaded model, every matrix", "why_tests_cant": "Holds for every earlier state of the receiver and every model file; tests load one file into a new regressor.", "anchors": ["sklearn/lightgbm/lgbm_regressor.go:LoadModel", "sklearn/lightgbm/lgbm_regressor.go:LoadModelFromString", "sklearn/lightgbm/lgbm_regressor.go:LoadModelFromJSON"]}
{"id": "C342", "title": "The JSON writer refuses exactly the numbers JSON cannot hold", "statement": "A model is written as JSON only if the shrinkage of every tree, the output of every leaf and the gain, threshold and value of every split reached from the root are numbers JSON can hold; an error of the writer means that one of them is not.", "quantifier": "every model, with trees of any size and shape", "why_tests_cant": "Tests write finite models; the statement is about every node of every tree.", "anchors": ["sklearn/lightgbm/loader.go:ToJSON", "sklearn/lightgbm/loader.go:treeToNodeJSON"]}
{"id": "C343", "title": "The options of an estimator reach training", "statement": "All training methods of the classifier and the regressor train with the number of trees and leaves, depth, learning rate, minimum of rows, bagging, regularisation, weights and initial score set on the estimator or given in the call; every option has an effect.", "quantifier": "every combination of options, every training set, all random numbers drawn", "why_tests_cant": "Tests set a few options; that an option has no effect for any data cannot be seen from runs.", "anchors": ["sklearn/lightgbm/lgbm_classifier.go:Fit", "sklearn/lightgbm/lgbm_regressor.go:Fit", "sklearn/lightgbm/trainer.go:NewTrainer"]}
{"id": "C344", "title": "The ranking objectives rank", "statement": "Training with lambdarank or rank_xendcg depends on the order of the relevances within each query only; a query with one document has no influence.", "quantifier": "every training set, every option, every grouping into queries", "why_tests_cant": "What the objective optimises cannot be seen from single runs.", "anchors": ["sklearn/lightgbm/objectives.go:LambdaRankObjective", "sklearn/lightgbm/objectives.go:CreateObjectiveFunction"]}
{"id": "C345", "title": "The drift detector on exact, missing and infinite predictions", "statement": "In float64 a DDM detector fed with predictions equal to their targets never warns and never signals drift, however many there are; a missing prediction, target or error counts as a mistake.", "quantifier": "every sequence of float64 predictions and targets, every finite level, every minimum number of instances", "why_tests_cant": "Holds for streams of any length, including counts beyond the range of float64.", "anchors": ["sklearn/drift/ddm.go:UpdateWithPrediction", "sklearn/drift/ddm.go:UpdateWithError", "sklearn/drift/ddm.go:Update"]}
{"id": "C346", "title": "Missing values in the data of a linear regression stay in their row", "statement": "A missing value (NaN) in a row makes the prediction of that row NaN whatever the weights are, the predictions of all other rows stay as they are, and a score over data with a missing feature or target is NaN or an error, never a number.", "quantifier": "every model, every matrix, every position of the missing value", "why_tests_cant": "Rounding and NaN rules must hold for every weight and position.", "anchors": ["linear/regression.go:Predict", "linear/regression.go:Score"]}
{"id": "C347", "title": "A row with a missing value is labelled as the first class by every linear classifier", "statement": "For a fitted LogisticRegression, SGDClassifier or PassiveAggressiveClassifier, Predict on a row with a NaN in a column the model uses returns no error and the label of the first class, whatever the weights and the other columns are. PredictProba of LogisticRegression and SGDClassifier on the same row returns NaN for every class. A NaN in a column behind the fitted ones does not change the label of LogisticRegression.", "quantifier": "every fitted state, every matrix, every row and column, float64 with NaN and infinities", "why_tests_cant": "Tests use complete data; the label of a missing row looks like any other label, so only a proof over all weights shows that it carries no information.", "anchors": ["sklearn/linear_model/logistic.go: LogisticRegression.Predict, PredictProba", "sklearn/linear_model/sgd_classifier.go: SGDClassifier.Predict", "sklearn/linear_model/passive_aggressive.go: PassiveAggressiveClassifier.Predict"]}
