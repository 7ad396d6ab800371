{"id": "C01", "title": "Bootstrap samples are rows of the input with labels kept attached", "statement": "ops.bootstrap_sampling(x, y) returns exactly as many rows as x has; every returned (row, label) pair is an (x[i], y[i]) pair of the input; if y has a different length it raises ValueError and returns nothing.", "quantifier": "every x, y and every sequence of indices the random generator can draw", "why_tests_cant": "the draw is random: tests see a handful of index sequences, the claim is about all of them and about all row contents.", "anchors": ["classicML/backend/python/ops.py::bootstrap_sampling"]}
{"id": "C02", "title": "A computed convex hull is a closed, left-turning chain of input points", "statement": "ops.ConvexHull(points).hull starts and ends at the same point, consists only of input points, starts at a point of minimal x, and no three consecutive vertices of the open chain make a right turn.", "quantifier": "every finite non-empty set of planar points (at least two), any order, duplicates and collinear points included", "why_tests_cant": "the scan is a loop over an unbounded list with an inner popping loop; convexity is an invariant of every prefix.", "anchors": ["classicML/backend/python/ops.py::ConvexHull.compute_convex_hull", "classicML/backend/python/ops.py::ConvexHull._get_cross_product", "classicML/backend/python/ops.py::ConvexHull._get_slope"]}
{"id": "C03", "title": "The convex hull encloses every input point", "statement": "every input point lies on or to the left of every edge of the closed polygon returned by ops.ConvexHull.", "quantifier": "every finite set of planar points", "why_tests_cant": "containment quantifies over all points and all edges for all inputs; it depends on tie-breaking in two sorts.", "anchors": ["classicML/backend/python/ops.py::ConvexHull.compute_convex_hull"]}
{"id": "C04", "title": "clip_alpha is the projection onto [low, high]", "statement": "with low <= high, ops.clip_alpha(alpha, low, high) lies in [low, high], equals alpha when alpha already does, is the closest point of the interval to alpha, is idempotent and monotone; the C++ implementation returns the same value.", "quantifier": "every alpha, low <= high in a linearly ordered domain", "why_tests_cant": "real-valued interval endpoints and ties at the boundary form an unbounded domain.", "anchors": ["classicML/backend/python/ops.py::clip_alpha", "classicML/backend/cc/ops/ops.cc::ClipAlpha"]}
{"id": "C05", "title": "type_of_target classifies every target array by the documented rule", "statement": "ops.type_of_target returns 'unknown' for object or more-than-2-D arrays, 'continuous' iff some float entry is not an integer, 'binary'/'multiclass' for column targets with exactly two / more than two distinct values, 'multilabel' for wider 2-D targets with at least two distinct values, and 'unknown' otherwise.", "quantifier": "every target array: any dtype kind, any number of dimensions, any number of rows and values", "why_tests_cant": "the rule depends on the number of distinct values of arrays of any length and on overlapping branch conditions.", "anchors": ["classicML/backend/python/ops.py::type_of_target"]}
{"id": "C06", "title": "SVC training always stays in the dual feasible set", "statement": "during and after SVC/SMO training every Lagrange multiplier lies in [0, C] and the multipliers weighted by the +-1 labels sum to zero.", "quantifier": "every dataset, every kernel function (even asymmetric), every C >= 0, tolerance, number of epochs and every outcome of the random partner permutations", "why_tests_cant": "it is an invariant of an unbounded, randomised optimisation history.", "anchors": ["classicML/backend/python/optimizers.py::SequentialMinimalOptimization.run", "classicML/backend/python/optimizers.py::SequentialMinimalOptimization._update_alpha"]}
{"id": "C07", "title": "The support vectors reported by SVC are exactly the samples with positive multiplier", "statement": "the index list returned by SMO is the strictly increasing list of the indices whose final multiplier is > 0, and the multipliers, labels and rows returned beside it are those of these indices, in that order.", "quantifier": "every dataset, kernel, C, tolerance, epochs and random history", "why_tests_cant": "the masks are maintained incrementally beside the multipliers; agreement is an invariant over all histories.", "anchors": ["classicML/backend/python/optimizers.py::SequentialMinimalOptimization.run", "classicML/backend/python/optimizers.py::SequentialMinimalOptimization._update_alpha_cache"]}
{"id": "C08", "title": "SMO stops after at most `epochs` passes, and stops early only when no pair can be improved", "statement": "with epochs >= 0 at most that many passes are executed; an early stop happens only right after a pass over all samples in which no multiplier changed, and then each sample either satisfies its KKT test within tol or admits no partner j for which the two-variable update makes progress.", "quantifier": "every dataset, kernel, C, tol, epochs and every family of permutations", "why_tests_cant": "it is a statement about the final state of an arbitrarily long run with interleaved full and partial passes.", "anchors": ["classicML/backend/python/optimizers.py::SequentialMinimalOptimization.run", "classicML/backend/python/optimizers.py::SequentialMinimalOptimization._update_parameters"]}
{"id": "C09", "title": "The second SMO multiplier maximises the error gap among non-bound samples", "statement": "ops.select_second_alpha returns a non-bound index whose cached error differs most from the given error (the first such index on ties) together with its cached error; the C++ implementation returns the same index.", "quantifier": "every error value, error cache and non-empty non-bound mask", "why_tests_cant": "caches of every length and all tie patterns.", "anchors": ["classicML/backend/python/ops.py::select_second_alpha", "classicML/backend/cc/ops/ops.cc::SelectSecondAlpha"]}
{"id": "C10", "title": "Each accepted SMO update increases the dual objective", "statement": "a successful two-variable update never decreases the SVM dual objective sum(alpha) - 1/2 sum alpha_i alpha_j y_i y_j k(x_i,x_j), and strictly increases it by at least eta/2 * (change)^2 >= eta/2 * 1e-10.", "quantifier": "every symmetric kernel, dataset, state reachable in training", "why_tests_cant": "the claim is about a quadratic form of any size and about cached values that may be stale.", "anchors": ["classicML/backend/python/optimizers.py::SequentialMinimalOptimization._update_alpha", "classicML/backend/python/ops.py::calculate_error"]}
{"id": "C11", "title": "The SMO error cache holds the true prediction errors of the non-bound samples", "statement": "between updates, for every sample whose multiplier is strictly between 0 and C, the cached error equals decision_function(x_i) - y_i under the current multipliers and bias.", "quantifier": "every reachable training state", "why_tests_cant": "cache coherence is a history invariant.", "anchors": ["classicML/backend/python/optimizers.py::SequentialMinimalOptimization._update_error_cache", "classicML/backend/python/optimizers.py::SequentialMinimalOptimization._update_alpha", "classicML/backend/python/ops.py::calculate_error"]}
{"id": "C12", "title": "KMeans.predict assigns every sample to a nearest centroid", "statement": "for each row KMeans.predict returns the smallest index of a centroid at minimal Euclidean distance.", "quantifier": "every set of samples and every non-empty list of centroids, ties included", "why_tests_cant": "real-valued data of any size and dimension.", "anchors": ["classicML/backend/python/ops.py::get_cluster", "classicML/backend/python/ops.py::calculate_euclidean_distance", "classicML/api/models/cluster/k_means.py::KMeans.predict"]}
{"id": "C13", "title": "When KMeans stops early its labels and centroids are mutually consistent", "statement": "if fit leaves the loop before the epoch limit, the stored labels are the nearest-centroid labels of the stored centroids (so predict on the training data reproduces them) and recomputing the cluster means moves no coordinate by more than tol.", "quantifier": "every dataset, initial centroids, tol and epoch limit", "why_tests_cant": "fixpoint condition of a loop of any length.", "anchors": ["classicML/api/models/cluster/k_means.py::KMeans.fit", "classicML/backend/python/ops.py::compare_differences", "classicML/backend/python/ops.py::calculate_centroids"]}
{"id": "C14", "title": "A KMeans iteration never increases the within-cluster sum of squares", "statement": "replacing labels by nearest centroids and then centroids by cluster means does not increase the sum of squared distances of samples to their centroid.", "quantifier": "every dataset, every set of centroids for which no cluster becomes empty", "why_tests_cant": "Lloyd monotonicity is an inequality over all real data sets.", "anchors": ["classicML/api/models/cluster/k_means.py::KMeans.fit", "classicML/backend/python/ops.py::calculate_centroids", "classicML/backend/python/ops.py::get_cluster"]}
{"id": "C15", "title": "KMeans.fit always yields n_clusters centroids", "statement": "after fit the model holds exactly n_clusters finite centroids.", "quantifier": "every dataset with at least n_clusters rows and every initial centroid choice fit can make", "why_tests_cant": "an empty cluster can appear at any iteration for particular real data.", "anchors": ["classicML/backend/python/ops.py::calculate_centroids", "classicML/backend/python/ops.py::init_centroids", "classicML/api/models/cluster/k_means.py::KMeans.fit"]}
{"id": "C16", "title": "Initial centroids are rows of the data, the requested rows, or exactly the given matrix; anything else is refused", "statement": "ops.init_centroids returns n_clusters rows of x when no init is given, x[init] for a valid index list, the given (n_clusters, n_features) matrix verbatim, raises ValueError for wrong length / out-of-range / wrong shape and TypeError for a non-array.", "quantifier": "every x, n_clusters, init argument and random draw", "why_tests_cant": "shape- and value-dependent dispatch over unbounded inputs.", "anchors": ["classicML/backend/python/ops.py::init_centroids"]}
{"id": "C17", "title": "Gaussian-mixture posteriors are probability distributions", "statement": "each row of the posterior matrix is non-negative and sums to 1 whenever the total density of the sample is non-zero.", "quantifier": "every sample set, positive component densities and non-negative mixture weights", "why_tests_cant": "sums over any number of components and real values.", "anchors": ["classicML/backend/python/ops.py::get_gaussian_mixture_distribution_posterior_probability"]}
{"id": "C18", "title": "Gaussian-mixture weights stay a probability vector through training", "statement": "after any number of EM steps the mixture coefficients are non-negative and sum to 1.", "quantifier": "every dataset, number of components, positive density function and number of epochs, from any initial probability vector", "why_tests_cant": "invariant over an unbounded training history.", "anchors": ["classicML/backend/python/ops.py::calculate_mixture_coefficient", "classicML/api/models/cluster/gaussian_mixture.py"]}
{"id": "C19", "title": "Gaussian-mixture means are convex combinations of the samples", "statement": "after an EM step each component mean is a convex combination of the samples, hence each coordinate lies between the minimum and maximum of that coordinate over the data.", "quantifier": "every dataset and non-negative posterior with positive column sums", "why_tests_cant": "inequality over all real matrices.", "anchors": ["classicML/backend/python/ops.py::calculate_means"]}
{"id": "C20", "title": "Gaussian-mixture covariances are symmetric positive semidefinite", "statement": "after an EM step every component covariance matrix is symmetric and positive semidefinite.", "quantifier": "every dataset, means and non-negative posterior with positive column sums", "why_tests_cant": "definiteness quantifies over every vector.", "anchors": ["classicML/backend/python/ops.py::calculate_covariances"]}
{"id": "C21", "title": "A fitted decision tree predicts without failure on values seen in training", "statement": "predict returns a label for every row whose discrete attribute values all occur in the corresponding training column; the only failure is a KeyError for an unseen discrete value on the path.", "quantifier": "every tree the generator can build, every row", "why_tests_cant": "trees of any shape and depth.", "anchors": ["classicML/backend/python/tree/generators.py::DecisionTreeGenerator.tree_generate", "classicML/api/models/tree/decision_tree_classifier.py"]}
{"id": "C22", "title": "Decision-tree predictions are labels from the training data", "statement": "every leaf category, hence every prediction, is one of the labels in the training target.", "quantifier": "every training set, criterion and row", "why_tests_cant": "trees of any shape.", "anchors": ["classicML/backend/python/tree/generators.py::DecisionTreeGenerator.tree_generate"]}
{"id": "C23", "title": "An unpruned decision tree classifies a consistent discrete training set perfectly", "statement": "if all attributes are discrete and no two training rows with equal attributes have different labels, the unpruned fitted tree predicts the training label of every training row, whatever split attribute the criterion prefers.", "quantifier": "every consistent discrete training set, every criterion", "why_tests_cant": "induction over unbounded trees and data.", "anchors": ["classicML/backend/python/tree/generators.py::DecisionTreeGenerator.tree_generate"]}
{"id": "C24", "title": "The chosen split is optimal for the criterion", "statement": "optimal_division returns an attribute whose criterion value is minimal (gini, entropy) or maximal (information gain) over all candidate attributes, the first one on ties, together with the dividing point of that attribute; for a continuous attribute the dividing point is a best midpoint of adjacent distinct values.", "quantifier": "every dataset and attribute order", "why_tests_cant": "an optimum over data-dependent candidate sets of any size.", "anchors": ["classicML/backend/python/tree/criteria.py::Criterion.optimal_division", "classicML/backend/python/tree/criteria.py::Criterion.get_value", "classicML/backend/python/tree/criteria.py::Gain.optimal_division"]}
{"id": "C25", "title": "Recorded tree statistics are the true leaf count and height", "statement": "after tree generation num_of_leaves equals the number of leaves of the tree and height equals its depth.", "quantifier": "every generated tree", "why_tests_cant": "structural induction over all tree shapes.", "anchors": ["classicML/backend/python/tree/generators.py::DecisionTreeGenerator.tree_generate"]}
{"id": "C26", "title": "Post-pruning never lowers validation accuracy", "statement": "the number of validation rows classified correctly by the post-pruned tree is at least that of the original tree.", "quantifier": "every tree and validation set", "why_tests_cant": "bottom-up rewriting of trees of any shape; local decisions must compose globally.", "anchors": ["classicML/backend/python/tree/pruners.py::PostPruner.__call__", "classicML/backend/python/tree/pruners.py::PostPruner.calculation_accuracy"]}
{"id": "C27", "title": "Post-pruning keeps the leaf count and height correct", "statement": "after post-pruning num_of_leaves and height again equal the number of leaves and depth of the pruned tree.", "quantifier": "every tree and validation set", "why_tests_cant": "structural induction over all trees.", "anchors": ["classicML/backend/python/tree/pruners.py::PostPruner.__call__"]}
{"id": "C28", "title": "Pre-pruning works on trees with continuous attributes and keeps statistics correct", "statement": "pre-pruning completes on every generated tree and leaves num_of_leaves and height equal to the number of leaves and depth of the pruned tree.", "quantifier": "every tree and validation set", "why_tests_cant": "structural induction over all trees; the failing branch depends on the run-time value of a dividing point.", "anchors": ["classicML/backend/python/tree/pruners.py::PrePruner.__call__"]}
{"id": "C29", "title": "The decision stump minimises training error over all its candidates", "statement": "the stump returned by the stump generator has the least number of training errors among all (feature, threshold at a midpoint of consecutive sorted distinct values, direction) candidates, and its training accuracy is at least 1/2 on +-1 labels.", "quantifier": "every data set with at least two distinct values in some column", "why_tests_cant": "optimum over an unbounded data-dependent search.", "anchors": ["classicML/backend/python/tree/generators.py::DecisionStumpGenerator.tree_generate", "classicML/backend/python/tree/generators.py::DecisionStumpGenerator.evaluate"]}
{"id": "C30", "title": "Two-level AdaBoost trees have depth at most two and predict +-1", "statement": "a two-level tree has at most four leaves and depth at most two, predicts only +1 or -1, and each leaf is the weighted majority of the samples reaching it (ties give -1).", "quantifier": "every weighted sample set", "why_tests_cant": "weights and data are real-valued and unbounded.", "anchors": ["classicML/backend/python/tree/generators.py::TwoLevelDecisionTreeGenerator.tree_generate", "classicML/backend/python/tree/generators.py::TwoLevelDecisionTreeGenerator.choose_feature_to_divide"]}
{"id": "C31", "title": "A two-level tree's weighted training error is at most one half", "statement": "the total weight of training samples misclassified by the two-level tree is at most half the total weight, so AdaBoost's error > 0.5 stop never fires with this learner.", "quantifier": "every weighted sample set with non-negative weights", "why_tests_cant": "inequality over all real weights and all tree outcomes.", "anchors": ["classicML/backend/python/tree/generators.py::TwoLevelDecisionTreeGenerator.tree_generate", "classicML/api/models/ensemble/boosting.py"]}
{"id": "C32", "title": "AdaBoost keeps a positive, normalised sample distribution", "statement": "after any number of boosting rounds the sample weights are positive and sum to 1, and the numbers of stored coefficients and estimators are equal and at most n_estimators.", "quantifier": "every data set, every behaviour of the base learner, any number of rounds", "why_tests_cant": "invariant over an unbounded history.", "anchors": ["classicML/api/models/ensemble/boosting.py::AdaBoostClassifier.fit"]}
{"id": "C33", "title": "AdaBoost reweighting makes the last learner exactly uninformative", "statement": "after every round that does not end training (its weighted error lies between 1e-36 and 1/2), the weighted error of that round's learner under the new distribution is exactly 1/2 (in exact arithmetic).", "quantifier": "every distribution, labels and predictions in {-1,+1}", "why_tests_cant": "an identity over the reals involving exp and log.", "anchors": ["classicML/api/models/ensemble/boosting.py::AdaBoostClassifier.fit"]}
{"id": "C34", "title": "AdaBoost training error is bounded by the product of the normalisers", "statement": "the fraction of training samples misclassified by the weighted vote is at most the product over rounds of 2*sqrt(max(eps, 1e-36)*(1-eps)).", "quantifier": "every data set, base learner and number of rounds, labels and learners +-1, coefficients of positive sum", "why_tests_cant": "exponential bound proved by induction over rounds.", "anchors": ["classicML/api/models/ensemble/boosting.py"]}
{"id": "C35", "title": "AdaBoost predicts the sign of the weighted vote", "statement": "predict returns +1 or -1 for every row, equal to the sign of the coefficient-weighted vote of the estimators.", "quantifier": "every set of estimators and coefficients with positive sum, every row", "why_tests_cant": "real-valued votes and ties.", "anchors": ["classicML/api/models/ensemble/boosting.py::AdaBoostClassifier.predict"]}
{"id": "C36", "title": "Bagging predicts the majority of its estimators", "statement": "predict returns +1 iff at least as many estimators vote +1 as -1 and -1 otherwise; fit adds exactly n estimators, trained with seeds s, s+1, ....", "quantifier": "every number of estimators and every row", "why_tests_cant": "any number of voters and all tie patterns.", "anchors": ["classicML/api/models/ensemble/bagging.py::BaggingClassifier"]}
{"id": "C37", "title": "Class priors form a probability distribution", "statement": "get_prior_probability returns two values in [0,1] summing to 1, equal to the class frequencies, or to the Laplace-corrected frequencies when smoothing is on; the C++ implementation returns the same values.", "quantifier": "every non-empty 0/1 label vector", "why_tests_cant": "label vectors of any length.", "anchors": ["classicML/backend/python/ops.py::get_prior_probability", "classicML/backend/cc/ops/ops.cc::GetPriorProbability"]}
{"id": "C38", "title": "Smoothed conditional probabilities are positive and sum to one", "statement": "for a fixed class the Laplace-smoothed conditional probabilities of the values of an attribute are positive and sum to 1.", "quantifier": "every column, every class, any number of values", "why_tests_cant": "sums over value sets of any size.", "anchors": ["classicML/backend/python/ops.py::get_conditional_probability"]}
{"id": "C39", "title": "One-dependent joint priors sum to one", "statement": "the (class, super-parent value) priors of get_dependent_prior_probability are positive and sum to 1 over the two classes and all values.", "quantifier": "every data set, attribute with any number of values", "why_tests_cant": "sums over value sets of any size.", "anchors": ["classicML/backend/python/ops.py::get_dependent_prior_probability"]}
{"id": "C40", "title": "Density estimates are strictly positive", "statement": "get_probability_density never returns 0 or a negative number for non-degenerate variance, so taking its logarithm is always possible.", "quantifier": "every sample value, mean and variance > 0", "why_tests_cant": "underflow behaviour over all reals.", "anchors": ["classicML/backend/python/ops.py::get_probability_density", "classicML/backend/python/ops.py::get_normal_distribution_probability_density"]}
{"id": "C41", "title": "Naive Bayes attributes each conditional count to the right attribute value", "statement": "after NaiveBayes.fit the conditional probability stored for a value of a discrete attribute is computed from the number of class samples having that value.", "quantifier": "every training column", "why_tests_cant": "depends on the order of first occurrence versus frequency in arbitrarily long columns.", "anchors": ["classicML/api/models/bayes/naive_bayes_classifier.py"]}
{"id": "C42", "title": "Naive Bayes predicts the more probable class", "statement": "predict returns the class with the larger posterior score, and with probability=True the larger of the two returned numbers belongs to that class.", "quantifier": "every fitted parameter set and every row", "why_tests_cant": "real-valued scores and ties.", "anchors": ["classicML/api/models/bayes/naive_bayes_classifier.py::NaiveBayesClassifier.predict"]}
{"id": "C43", "title": "Refitting a one-dependent estimator forgets the previous data", "statement": "after fit on data B, the predictions of a SuperParentOneDependentEstimator do not depend on a data set A it was fitted on before.", "quantifier": "every pair of data sets", "why_tests_cant": "state left over from an earlier call; histories are unbounded.", "anchors": ["classicML/api/models/bayes/semi_naive_bayes_classifiers.py::SuperParentOneDependentEstimator"]}
{"id": "C44", "title": "The within-class scatter matrix is symmetric positive semidefinite", "statement": "get_within_class_scatter_matrix returns a symmetric positive semidefinite matrix, equal to the sum over both classes of the outer products of the deviations from the class mean.", "quantifier": "every two-class data set", "why_tests_cant": "definiteness quantifies over every vector.", "anchors": ["classicML/backend/python/ops.py::get_within_class_scatter_matrix"]}
{"id": "C45", "title": "The LDA direction is S_w^-1 (mu0 - mu1)", "statement": "the projection vector computed for linear discriminant analysis solves S_w w = mu0 - mu1 when S_w is invertible.", "quantifier": "every invertible S_w and means", "why_tests_cant": "identity over all real matrices.", "anchors": ["classicML/backend/python/ops.py::get_w_v2", "classicML/backend/python/ops.py::get_w"]}
{"id": "C46", "title": "LDA predicts the class with the nearer projected centre", "statement": "predict returns 1 iff the projection of the row is strictly nearer to the projected centre of class 1 than to that of class 0; rescaling w does not change any prediction.", "quantifier": "every row, projection and centres", "why_tests_cant": "real-valued data, ties.", "anchors": ["classicML/api/models/linear_model/linear_discriminant_analysis.py::LinearDiscriminantAnalysis.predict"]}
{"id": "C47", "title": "Logistic-regression updates follow the true gradient and Hessian", "statement": "the backward step of the gradient-descent and Newton optimisers equals the derivative of the negative log-likelihood with respect to the parameters, and the Newton Hessian equals the second derivative.", "quantifier": "every data set, labels in {0,1}, every parameter vector", "why_tests_cant": "derivative identities over real vectors of any dimension.", "anchors": ["classicML/backend/python/optimizers.py::GradientDescent.backward", "classicML/backend/python/optimizers.py::NewtonMethod.backward"]}
{"id": "C48", "title": "The logistic-regression Hessian is positive semidefinite", "statement": "the Hessian used by the Newton optimiser is symmetric positive semidefinite, so the loss is convex.", "quantifier": "every data set and parameter vector", "why_tests_cant": "definiteness quantifies over every direction.", "anchors": ["classicML/backend/python/optimizers.py::NewtonMethod"]}
{"id": "C49", "title": "Network parameter shapes are always compatible", "statement": "for every layer list the initialisers produce W_l with shape (n_l, n_{l-1}) and b_l with shape (1, n_l), and forward propagation never meets incompatible shapes and outputs one row of n_L values per sample.", "quantifier": "every list of at least two layer sizes and every batch size", "why_tests_cant": "layer lists of any length.", "anchors": ["classicML/backend/python/initializers.py", "classicML/backend/python/optimizers.py::StochasticGradientDescent.forward"]}
{"id": "C50", "title": "Softmax outputs are probability vectors", "statement": "every row of the softmax activation is positive, sums to 1, and is invariant under adding a constant to the row.", "quantifier": "every non-empty real row", "why_tests_cant": "real-valued identities over rows of any length.", "anchors": ["classicML/backend/python/activations.py::Softmax"]}
{"id": "C51", "title": "Softmax cross-entropy back-propagation uses the true gradient", "statement": "the output-layer error used for multi-class networks, prediction - one-hot label, is the gradient of the categorical cross-entropy of the softmax with respect to the logits.", "quantifier": "every logit row and one-hot label", "why_tests_cant": "derivative identity over real vectors of any length.", "anchors": ["classicML/backend/python/optimizers.py::StochasticGradientDescent.backward"]}
{"id": "C52", "title": "Adam's second moments stay non-negative and its bias-corrected first moment is a weighted mean of past gradients", "statement": "at every step v >= 0 so the denominator sqrt(v)+eps is positive, and m divided by (1 - beta1^t) is a convex combination of the gradients seen so far.", "quantifier": "every gradient history and 0 <= beta < 1", "why_tests_cant": "histories of any length.", "anchors": ["classicML/backend/python/optimizers.py::Adam"]}
{"id": "C53", "title": "RBF-network updates follow the true gradient", "statement": "the updates of the RBF-network optimiser are the partial derivatives of the squared-error loss with respect to w, b and beta.", "quantifier": "every data set and parameter set", "why_tests_cant": "derivative identities over the reals.", "anchors": ["classicML/backend/python/optimizers.py::RadialBasisFunctionOptimizer.backward"]}
{"id": "C54", "title": "History holds exactly one record per trained epoch", "statement": "after any sequence of fits with epochs e1..ek the History callback holds e1+...+ek loss and metric records in training order.", "quantifier": "every sequence of fit calls", "why_tests_cant": "histories of any length.", "anchors": ["classicML/backend/python/callbacks.py::History", "classicML/backend/python/optimizers.py::_record_callbacks"]}
{"id": "C55", "title": "The progress bar has constant width", "statement": "the progress bar drawn for epoch e of n has exactly 25 cells for every 1 <= e <= n, fills monotonically and is full exactly at the last epoch.", "quantifier": "every n >= 1 and 1 <= e <= n", "why_tests_cant": "integer rounding over all pairs (e, n).", "anchors": ["classicML/backend/python/_utils.py::ProgressBar"]}
{"id": "C56", "title": "Binary accuracy is the fraction of correct predictions", "statement": "BinaryAccuracy lies in [0,1] and equals the fraction of rows where the thresholded prediction equals the label.", "quantifier": "every prediction and label vector", "why_tests_cant": "vectors of any length and arbitrary reals.", "anchors": ["classicML/backend/python/metrics.py::BinaryAccuracy"]}
{"id": "C57", "title": "Categorical accuracy is the fraction of rows with matching argmax", "statement": "CategoricalAccuracy lies in [0,1], equals the fraction of rows whose predicted argmax equals the label argmax, and is 1 iff all rows match.", "quantifier": "every prediction and one-hot label matrix", "why_tests_cant": "matrices of any size.", "anchors": ["classicML/backend/python/metrics.py::CategoricalAccuracy"]}
{"id": "C58", "title": "Cross-entropy losses are non-negative and vanish only for certain predictions", "statement": "BinaryCrossentropy, CategoricalCrossentropy and LogLikelihood are >= 0 for probabilities in (0,1) / any logits, and LogLikelihood equals n times the binary cross-entropy of the sigmoid outputs.", "quantifier": "every label and prediction matrix", "why_tests_cant": "real inequalities over any number of samples.", "anchors": ["classicML/backend/python/losses.py"]}
{"id": "C59", "title": "Mean squared error is zero only for perfect predictions", "statement": "MeanSquaredError(y_pred, y_true) is non-negative, is zero iff y_pred = y_true, and equals half the mean of squared differences.", "quantifier": "every pair of equal-length vectors", "why_tests_cant": "real identities over any number of samples.", "anchors": ["classicML/backend/python/losses.py::MeanSquaredError"]}
{"id": "C60", "title": "Kernels are symmetric and yield positive semidefinite Gram matrices", "statement": "every built-in kernel is symmetric; linear Gram matrices are positive semidefinite; RBF/Gaussian values lie in (0,1], are 1 on equal rows and, for gamma > 0, only there; the curvature eta used by SMO is non-negative for linear and RBF kernels.", "quantifier": "every pair of vectors, every dimension, every gamma > 0", "why_tests_cant": "real inequalities over all vectors.", "anchors": ["classicML/backend/python/kernels.py"]}
{"id": "C61", "title": "Min-max scaling maps onto [0,1] and is invertible", "statement": "for one-dimensional data with at least two distinct values MinMaxScaler outputs lie in [0,1], attain both ends, preserve order, and inverse(call(x)) = x.", "quantifier": "every non-constant finite vector", "why_tests_cant": "real vectors of any length.", "anchors": ["classicML/backend/python/data/preprocessing.py::MinMaxScaler"]}
{"id": "C62", "title": "Standard scaling centres the data and is invertible", "statement": "StandardScaler outputs have mean 0 and variance 1, and inverse(call(x)) = x, for data with positive variance.", "quantifier": "every non-constant finite vector", "why_tests_cant": "real vectors of any length.", "anchors": ["classicML/backend/python/data/preprocessing.py::StandardScaler"]}
{"id": "C63", "title": "One-hot encoding is faithful", "statement": "OneHotEncoder outputs exactly one 1 per row, in the column that class_indices assigns to the label; equal labels get equal rows and different labels different rows; the labels can be recovered.", "quantifier": "every label list", "why_tests_cant": "label lists of any length and content.", "anchors": ["classicML/backend/python/data/preprocessing.py::OneHotEncoder", "classicML/backend/python/data/preprocessing.py::DummyEncoder"]}
{"id": "C64", "title": "Max-margin encoding maps the two classes to -1 and +1", "statement": "MaxMarginEncoder outputs only -1 and +1, consistently with class_indices, and is injective on classes for two-class data.", "quantifier": "every label list with at most two classes", "why_tests_cant": "label lists of any length.", "anchors": ["classicML/backend/python/data/preprocessing.py::MaxMarginEncoder"]}
{"id": "C65", "title": "The imputer fills every missing entry and changes nothing else", "statement": "after Imputer every entry is present, entries that were present are unchanged, numeric columns are filled with the column mean and other columns with a most frequent value.", "quantifier": "every table in which each column has at least one present value", "why_tests_cant": "tables of any size.", "anchors": ["classicML/backend/python/data/preprocessing.py::Imputer"]}
{"id": "C66", "title": "Dataset label encodings agree with class_indices", "statement": "for binary data sets the encoded label of each sample equals class_indices[original label].", "quantifier": "every label column", "why_tests_cant": "label contents of any kind.", "anchors": ["classicML/backend/python/data/dataset.py::Dataset"]}
{"id": "C67", "title": "Categorical relabelling is injective", "statement": "replacing class labels by their class index never merges two classes.", "quantifier": "every list of integer labels", "why_tests_cant": "sequential in-place replacement can collide for particular values.", "anchors": ["classicML/backend/python/data/dataset.py::Dataset._encoder_label", "classicML/backend/python/data/dataset.py::Dataset._preprocessing_categorical_labels"]}
{"id": "C68", "title": "Weights files are accepted exactly for the same model and supported versions", "statement": "loading succeeds the header check iff the stored model name equals the loading model's and both versions are at least the minimum; in particular a file written by this version is accepted by the same model and rejected by any other.", "quantifier": "every model name and version string", "why_tests_cant": "string parsing over all version numbers.", "anchors": ["classicML/backend/io.py::initialize_weights_file", "classicML/backend/io.py::_parse"]}
{"id": "C69", "title": "Getter functions accept exactly the documented names", "statement": "get_optimizer, get_kernel, get_loss, get_metric, get_initializer, get_criterion and get_pruner return an object of the class documented for each accepted name, and raise AttributeError for any other string.", "quantifier": "every string", "why_tests_cant": "the set of strings is infinite.", "anchors": ["classicML/backend/training.py"]}
{"id": "C70", "title": "Untrained models refuse to predict", "statement": "calling predict before fit or load_weights raises ValueError; after a successful fit or load it does not.", "quantifier": "every sequence of compile / fit / load / predict calls", "why_tests_cant": "call histories are unbounded.", "anchors": ["classicML/api/models/base_model.py", "classicML/api/models"]}
{"id": "C71", "title": "Initial mixture coefficients are a probability vector", "statement": "ops.init_mixture_coefficient returns n_components non-negative coefficients that sum to 1, and raises for every other argument.", "quantifier": "every n_components and every init argument", "why_tests_cant": "the check is over all real vectors.", "anchors": ["classicML/backend/python/ops.py::init_mixture_coefficient"]}
{"id": "C72", "title": "GaussianMixture.predict picks the most probable component and fit stores its answer", "statement": "predict labels each sample with the first component of largest posterior probability; after fit, clusters equals predict on the training data with the final parameters; fit stops early only if one more EM step would move no parameter by more than tol.", "quantifier": "every dataset, density, parameters, tol and epoch limit", "why_tests_cant": "ties and unbounded training histories over real data.", "anchors": ["classicML/api/models/cluster/gaussian_mixture.py::GaussianMixture.predict", "classicML/api/models/cluster/gaussian_mixture.py::GaussianMixture.fit"]}
{"id": "C73", "title": "score is the fraction of correctly predicted rows", "statement": "for every model whose score is inherited from BaseModel, score(x, y) is the number of rows where predict(x) equals y divided by the number of rows.", "quantifier": "every predictor, every data set and every label vector", "why_tests_cant": "ranges over all label alphabets and all data.", "anchors": ["classicML/api/models/base_model.py::BaseModel.score", "classicML/backend/python/metrics.py::BinaryAccuracy"]}
{"id": "C74", "title": "Two-level trees choose the split of least weighted Gini index", "statement": "the threshold test at the root of a fitted two-level tree has the least weighted Gini index among all midpoints of neighbouring values of all features; likewise below the root for the samples that reach the node.", "quantifier": "every weighted sample set with at least three samples and one feature", "why_tests_cant": "all data sets, weights, features and thresholds.", "anchors": ["classicML/backend/python/tree/generators.py::TwoLevelDecisionTreeGenerator", "classicML/api/models/tree/decision_tree_classifier.py::TwoLevelDecisionTreeClassifier"]}
{"id": "C75", "title": "Ensembles can be refitted", "statement": "fit may be called again on a fitted AdaBoostClassifier or BaggingClassifier; afterwards predict depends only on the data of the last fit.", "quantifier": "every sequence of fit and load_weights calls, all data", "why_tests_cant": "the property is about call histories.", "anchors": ["classicML/api/models/ensemble/boosting.py::AdaBoostClassifier.fit", "classicML/api/models/ensemble/bagging.py::BaggingClassifier.fit"]}
{"id": "C76", "title": "A fitted AdaBoostClassifier labels every row +1 or -1", "statement": "after fit on data with labels -1/+1 and at least one feature, predict returns +1 or -1 for every row.", "quantifier": "every data set, every row", "why_tests_cant": "depends on sums of logarithms of weighted errors of unbounded training runs.", "anchors": ["classicML/api/models/ensemble/boosting.py::AdaBoostClassifier.predict"]}
{"id": "C77", "title": "Continuous attributes use the normal density of the class", "statement": "for a continuous attribute, naive Bayes and the one-dependent estimators use the normal density with the mean and the variance of the attribute in the class.", "quantifier": "every sample value, mean and variance > 0", "why_tests_cant": "identity over the reals.", "anchors": ["classicML/backend/python/ops.py::get_probability_density", "classicML/api/models/bayes/naive_bayes_classifier.py::NaiveBayesClassifier.fit"]}
{"id": "C78", "title": "The averaged one-dependent estimator adds up its super-parents", "statement": "AveragedOneDependentEstimator.predict compares, for the two classes, the sum over all super-parents of the log score of the one-dependent estimator for the value of that super-parent in the row.", "quantifier": "every data set, every row", "why_tests_cant": "depends on the order of columns and on values shared between columns of arbitrary data.", "anchors": ["classicML/api/models/bayes/semi_naive_bayes_classifiers.py::AveragedOneDependentEstimator.fit", "classicML/api/models/bayes/semi_naive_bayes_classifiers.py::AveragedOneDependentEstimator._predict"]}
{"id": "C79", "title": "A one-dependent estimator predicts the class of larger joint estimate", "statement": "SuperParentOneDependentEstimator.predict returns the class c with the larger P(c, s) * product of P(x_j | c, s), s being the super-parent value of the row.", "quantifier": "every data set, every row", "why_tests_cant": "all data sets and rows.", "anchors": ["classicML/api/models/bayes/semi_naive_bayes_classifiers.py::SuperParentOneDependentEstimator._predict"]}
{"id": "C80", "title": "Naive Bayes can be fitted on every discrete data set", "statement": "NaiveBayesClassifier.fit completes for every non-empty data set.", "quantifier": "every data set, any number of distinct values per column", "why_tests_cant": "all data sets.", "anchors": ["classicML/api/models/bayes/naive_bayes_classifier.py::NaiveBayesClassifier.fit"]}
{"id": "C81", "title": "LDA classifies the two class means correctly", "statement": "after fit on two classes with different means and an invertible within-class scatter matrix, predict returns 0 for the mean of class 0 and 1 for the mean of class 1.", "quantifier": "every data set with both classes, different means and invertible scatter", "why_tests_cant": "all data sets; depends on the definiteness of the scatter matrix.", "anchors": ["classicML/api/models/linear_model/linear_discriminant_analysis.py::LinearDiscriminantAnalysis.fit", "classicML/api/models/linear_model/linear_discriminant_analysis.py::LinearDiscriminantAnalysis.predict"]}
{"id": "C82", "title": "LDA trained on one class predicts that class", "statement": "fit on rows that all have label 1 either raises an error or yields a model that predicts 1 for its training rows.", "quantifier": "every such data set", "why_tests_cant": "all data sets.", "anchors": ["classicML/api/models/linear_model/linear_discriminant_analysis.py::LinearDiscriminantAnalysis.fit", "classicML/api/models/linear_model/linear_discriminant_analysis.py::LinearDiscriminantAnalysis.predict"]}
{"id": "C83", "title": "Gradient descent for logistic regression never increases the loss and converges", "statement": "with a learning rate of at most 4 / sum(|x_i|^2 + 1), no epoch of GradientDescent increases the negative log-likelihood, and after e epochs it exceeds that of any parameter vector b by at most |beta_0 - b|^2 / (2 * learning_rate * e).", "quantifier": "every data set, initial parameters, number of epochs and such learning rate", "why_tests_cant": "training runs of any length on all data sets.", "anchors": ["classicML/backend/python/optimizers.py::GradientDescent.run"]}
{"id": "C84", "title": "Parameters left unchanged by an epoch are a global optimum", "statement": "parameters of logistic regression that an epoch of GradientDescent (with non-zero learning rate) or NewtonMethod leaves unchanged minimise the negative log-likelihood over all parameter vectors, and minimisers are left unchanged by both.", "quantifier": "every data set and parameter vector", "why_tests_cant": "global optimality quantifies over all parameter vectors.", "anchors": ["classicML/backend/python/optimizers.py::GradientDescent.run", "classicML/backend/python/optimizers.py::NewtonMethod.run"]}
{"id": "C85", "title": "LogisticRegression predicts probabilities ordered by the linear score", "statement": "predict returns values strictly between 0 and 1, above 1/2 exactly where w.x + b > 0, and increasing with w.x + b.", "quantifier": "every row and parameter vector", "why_tests_cant": "all real rows.", "anchors": ["classicML/api/models/linear_model/logistic_regression.py::LogisticRegression.predict"]}
{"id": "C86", "title": "Softmax is numerically safe", "statement": "softmax of a finite matrix has no NaN row: for every row the sum of the exponentials is positive, even if the exponential underflows to 0 for very negative arguments.", "quantifier": "every matrix, every exponential function that may underflow", "why_tests_cant": "depends on the spread of all entries of a matrix of any size.", "anchors": ["classicML/backend/python/activations.py::Softmax.__call__"]}
{"id": "C87", "title": "Activation functions do not modify their argument", "statement": "calling softmax(z) leaves the array z unchanged.", "quantifier": "every matrix", "why_tests_cant": "aliasing effects are not visible in return values.", "anchors": ["classicML/backend/python/activations.py::Softmax.__call__"]}
{"id": "C88", "title": "Binary back-propagation uses the true gradient", "statement": "for a network with one sigmoid output the gradient computed by back-propagation is the gradient of the binary cross-entropy with respect to all weights and biases.", "quantifier": "every network depth, parameters, data and labels in {0,1}", "why_tests_cant": "derivative identity over reals and arbitrary depth.", "anchors": ["classicML/backend/python/optimizers.py::StochasticGradientDescent.backward", "classicML/backend/python/activations.py::Sigmoid.diff"]}
{"id": "C89", "title": "A multi-class network refuses or understands integer class labels", "statement": "fitting a network with k >= 2 outputs on a column of class numbers either raises an error or follows the gradient of the cross-entropy of the meant classes.", "quantifier": "every network with at least two outputs, every sample and every class number", "why_tests_cant": "quantifies over all parameters and depths.", "anchors": ["classicML/backend/python/optimizers.py::StochasticGradientDescent.backward"]}
{"id": "C90", "title": "Network predictions are row-wise probabilities", "statement": "the prediction for a row does not depend on the other rows of the batch; every output is strictly between 0 and 1 and the outputs of a multi-class row sum to 1.", "quantifier": "every network, batch and row", "why_tests_cant": "batches and depths of any size; the softmax subtracts a maximum taken over the whole batch.", "anchors": ["classicML/backend/python/optimizers.py::StochasticGradientDescent.forward", "classicML/backend/python/activations.py::Softmax"]}
{"id": "C91", "title": "RBF networks accept label vectors", "statement": "RadialBasisFunctionNetwork.fit accepts labels as a one-dimensional array, the form used by the other models.", "quantifier": "every data set with two features, label vector and number of epochs", "why_tests_cant": "all data and parameters.", "anchors": ["classicML/backend/python/optimizers.py::RadialBasisFunctionOptimizer.backward", "classicML/api/models/neural_network/radial_basis_function_network.py"]}
{"id": "C92", "title": "RBF networks accept any number of features", "statement": "fit and predict of an RBF network work for any number of features and compute sum_u w_u exp(-beta_u ||x-c_u||^2) + b.", "quantifier": "every number of features and every data set", "why_tests_cant": "all feature counts and data.", "anchors": ["classicML/backend/python/initializers.py::RBFNormal", "classicML/backend/python/optimizers.py::RadialBasisFunctionOptimizer.forward"]}
{"id": "C93", "title": "The first RBF epoch", "statement": "a freshly initialised RBF network predicts 0 everywhere; the first epoch leaves beta and the centres unchanged and sets the bias to the learning rate times the mean label.", "quantifier": "every random initialisation and data set", "why_tests_cant": "all random draws and data.", "anchors": ["classicML/backend/python/initializers.py::RBFNormal", "classicML/backend/python/optimizers.py::RadialBasisFunctionOptimizer"]}
{"id": "C94", "title": "Monitoring does not change training", "statement": "the trained parameters do not depend on verbose, on the callbacks or on earlier uses of the optimiser's progress bar.", "quantifier": "every optimiser loop, number of epochs and monitoring setting", "why_tests_cant": "all histories of fits.", "anchors": ["classicML/backend/python/optimizers.py::StochasticGradientDescent.run", "classicML/backend/python/optimizers.py::Adam.run", "classicML/backend/python/optimizers.py::GradientDescent.run", "classicML/backend/python/optimizers.py::NewtonMethod.run"]}
{"id": "C95", "title": "The last History record describes the returned model", "statement": "after fit the last loss and metric in a History callback are the loss and metric of the returned parameters.", "quantifier": "every optimiser, data set and number of epochs >= 1", "why_tests_cant": "all training histories.", "anchors": ["classicML/backend/python/optimizers.py::GradientDescent.run", "classicML/backend/python/optimizers.py::NewtonMethod.run", "classicML/backend/python/optimizers.py::RadialBasisFunctionOptimizer.run", "classicML/backend/python/optimizers.py::StochasticGradientDescent.run"]}
{"id": "C96", "title": "verbose=False is silent", "statement": "fit with verbose=False writes no progress line; with verbose=True it writes one line per epoch, numbered 1..n of n.", "quantifier": "every sequence of fits", "why_tests_cant": "histories of fits of any length.", "anchors": ["classicML/backend/python/optimizers.py::Optimizer", "classicML/backend/python/_utils.py::ProgressBar"]}
{"id": "C97", "title": "Optimiser extra arguments are bound by position or name", "statement": "the values of verbose, loss, metric and callbacks given to an optimiser by position or keyword reach the parameter of that name; omitted ones have a neutral default.", "quantifier": "every split into positional and keyword arguments, any order and values", "why_tests_cant": "all argument lists and values.", "anchors": ["classicML/backend/python/optimizers.py::_get_optimizer_parameters"]}
{"id": "C98", "title": "Sigmoid kernel Gram matrices are positive semidefinite", "statement": "with its default parameters the Sigmoid kernel is a valid SVM kernel: every Gram matrix is positive semidefinite and the curvature used by SMO is non-negative.", "quantifier": "every dimension and every finite set of points", "why_tests_cant": "all point sets.", "anchors": ["classicML/backend/python/kernels.py::Sigmoid"]}
{"id": "C99", "title": "Scalers work on tables", "statement": "MinMaxScaler and StandardScaler with the default axis accept every non-empty table and scale each row (axis=-1) or each column (axis=0) by its own statistics.", "quantifier": "every table", "why_tests_cant": "all shapes and entries.", "anchors": ["classicML/backend/python/data/preprocessing.py::MinMaxScaler", "classicML/backend/python/data/preprocessing.py::StandardScaler"]}
{"id": "C100", "title": "Encoders can be reused", "statement": "class_indices of an encoder that is called a second time describes the labels of that call: distinct classes have distinct codes.", "quantifier": "every sequence of label lists", "why_tests_cant": "histories of calls.", "anchors": ["classicML/backend/python/data/preprocessing.py::OneHotEncoder", "classicML/backend/python/data/preprocessing.py::DummyEncoder", "classicML/backend/python/data/preprocessing.py::MaxMarginEncoder"]}
{"id": "C101", "title": "Labels agree with class_indices in every label mode", "statement": "after from_dataframe the encoded label of every sample (integer, one-hot row or sign) is class_indices[original label].", "quantifier": "every label column and label mode", "why_tests_cant": "all label columns.", "anchors": ["classicML/backend/python/data/dataset.py::Dataset.from_dataframe", "classicML/backend/python/data/dataset.py::Dataset._encoder_label", "classicML/backend/python/data/dataset.py::Dataset._set_real_class_indices"]}
{"id": "C102", "title": "from_tensor_slices supports the documented label modes", "statement": "from_tensor_slices accepts label vectors in every label mode, and data without labels for unsupervised data sets; class_indices covers all classes.", "quantifier": "every label vector and label mode", "why_tests_cant": "all label vectors.", "anchors": ["classicML/backend/python/data/dataset.py::Dataset.from_tensor_slices"]}
{"id": "C103", "title": "A data set can be reloaded", "statement": "after loading a second frame class_indices has exactly the classes of that frame.", "quantifier": "every sequence of loads", "why_tests_cant": "histories of loads.", "anchors": ["classicML/backend/python/data/dataset.py::Dataset.from_dataframe", "classicML/backend/python/data/dataset.py::Dataset._preprocessing_categorical_labels"]}
{"id": "C104", "title": "Normalisation of a loaded table", "statement": "with normalization=True every non-constant numeric column of x is its min-max scaled version.", "quantifier": "every numeric table, integer or float", "why_tests_cant": "all tables.", "anchors": ["classicML/backend/python/data/dataset.py::Dataset._preprocessing_features"]}
{"id": "C105", "title": "Standardisation and normalisation together", "statement": "with both flags set the result is the normalisation of the standardised column.", "quantifier": "every column with positive variance", "why_tests_cant": "all columns.", "anchors": ["classicML/backend/python/data/dataset.py::Dataset._preprocessing_features"]}
{"id": "C106", "title": "Layout of a digitised table", "statement": "with digitization=True x consists of the numeric columns in order followed by one block of 0/1 columns per discrete column, one column per distinct value; without it all columns stay in place.", "quantifier": "every table", "why_tests_cant": "all tables and mixtures of column kinds.", "anchors": ["classicML/backend/python/data/dataset.py::Dataset._preprocessing_features"]}
{"id": "C107", "title": "Loading does not modify the caller's array", "statement": "from_tensor_slices(x) leaves x unchanged.", "quantifier": "every array and setting", "why_tests_cant": "all arrays and settings.", "anchors": ["classicML/backend/python/data/dataset.py::Dataset.from_tensor_slices", "classicML/backend/python/data/dataset.py::Dataset._preprocessing_features"]}
{"id": "C108", "title": "Default names select their class", "statement": "the name of every default optimizer, loss, metric, kernel, criterion and pruner, passed to the corresponding getter, yields an equal default object.", "quantifier": "every backend class, every gamma", "why_tests_cant": "a table over all classes that save/load depends on.", "anchors": ["classicML/backend/training.py"]}
{"id": "C109", "title": "Saved models can be loaded", "statement": "if save_weights succeeds, load_weights of that file into an instance of the same class succeeds and every data attribute and network parameter has the saved value.", "quantifier": "every class, every model state, every file system and every loading instance", "why_tests_cant": "all model states, attribute values and instances.", "anchors": ["classicML/api/models/cluster/k_means.py::KMeans.load_weights", "classicML/api/models/support_vector_machine/support_vector_classifier.py::SupportVectorClassifier.load_weights", "classicML/api/models/support_vector_machine/support_vector_classifier.py::SupportVectorClassifier.save_weights", "classicML/backend/io.py"]}
{"id": "C110", "title": "Backend objects survive saving", "statement": "after save and load the kernel and the metric are those of the saved model.", "quantifier": "every kernel (degree, gamma, beta, theta) and metric", "why_tests_cant": "all kernels.", "anchors": ["classicML/api/models/support_vector_machine/support_vector_classifier.py::SupportVectorClassifier.save_weights", "classicML/api/models/support_vector_machine/support_vector_classifier.py::SupportVectorClassifier.load_weights", "classicML/backend/training.py::get_kernel", "classicML/backend/training.py::get_metric"]}
{"id": "C111", "title": "A failed load leaves the model as it was", "statement": "if load_weights raises, the model is unchanged.", "quantifier": "every class, file and model state", "why_tests_cant": "all files.", "anchors": ["classicML/api/models/support_vector_machine/support_vector_classifier.py::SupportVectorClassifier.load_weights", "classicML/api/models/cluster/k_means.py::KMeans.load_weights"]}
{"id": "C112", "title": "A failed save keeps the old file", "statement": "if save_weights raises, the file that was at that path is unchanged.", "quantifier": "every class, model state and file system", "why_tests_cant": "all model states and files.", "anchors": ["classicML/backend/io.py::initialize_weights_file", "classicML/api/models/support_vector_machine/support_vector_classifier.py::SupportVectorClassifier.save_weights"]}
{"id": "C113", "title": "Every trained model can be saved", "statement": "save_weights succeeds for every trained model.", "quantifier": "every trained model, any number of samples", "why_tests_cant": "unbounded model sizes.", "anchors": ["classicML/api/models/cluster/k_means.py::KMeans.save_weights", "classicML/api/models/cluster/gaussian_mixture.py::GaussianMixture.save_weights", "classicML/api/models/support_vector_machine/support_vector_classifier.py::SupportVectorClassifier.save_weights"]}
{"id": "C114", "title": "Loading replaces the model", "statement": "the state after load_weights depends on the file only, not on what the loading instance held before.", "quantifier": "every file and every instance", "why_tests_cant": "all pairs of instance and file.", "anchors": ["classicML/api/models/neural_network/back_propagation_neural_network.py::BackPropagationNeuralNetwork.load_weights", "classicML/api/models/cluster/gaussian_mixture.py::GaussianMixture.load_weights", "classicML/api/models/tree/decision_tree_classifier.py::DecisionTreeClassifier.load_weights"]}
{"id": "C115", "title": "fit trains on the data it is given", "statement": "the model after fit is the one trained on the data of the call, also if weights had been loaded before.", "quantifier": "every model state and every data set", "why_tests_cant": "histories of load and fit calls.", "anchors": ["classicML/api/models/tree/decision_tree_classifier.py::DecisionTreeClassifier.fit", "classicML/api/models/linear_model/logistic_regression.py::LogisticRegression.fit"]}
{"id": "C116", "title": "The picture of a tree is the tree", "statement": "plot_tree draws one symbol for every node of the fitted tree, with its attribute or its category, joined to its parent by an edge with the text of the branch in the middle; a node is on the row of its depth and above the middle of its leaves, the leaves are evenly spaced from left to right in the order of the branches, and no two nodes are drawn in the same place. This holds with any pruner.", "quantifier": "every training table, criterion, pruner and validation table for which fit succeeds", "why_tests_cant": "the recursion uses four global variables; a picture of one small tree says nothing about deep or wide ones", "anchors": ["classicML/api/plots/tree.py::plot_tree", "classicML/api/plots/tree.py::_plot_decision_tree", "classicML/api/plots/utils.py::_add_node", "classicML/api/plots/utils.py::_add_text"]}
{"id": "C117", "title": "A plotted tree fits on the canvas", "statement": "every node drawn by plot_tree lies inside the unit square shown by the axes", "quantifier": "every training table, criterion, pruner and validation table for which fit succeeds", "why_tests_cant": "it depends on the recorded height, which is wrong only for trees with branches of different depth after pruning", "anchors": ["classicML/api/plots/tree.py::plot_tree", "classicML/api/models/tree/decision_tree_classifier.py::DecisionTreeClassifier.fit"]}
{"id": "C118", "title": "After an update the two samples sit on the margin", "statement": "after a successful SMO update of a pair of samples whose errors were known exactly, each of the two samples whose multiplier is strictly between 0 and C lies exactly on its margin: y f(x) = 1; in any case the two remaining errors cancel", "quantifier": "every data set with labels +1/-1, symmetric kernel, C, state of training and pair of samples", "why_tests_cant": "a test sees the end of a few training runs; the bias after each single update for all kernels and boxes is not observable there", "anchors": ["classicML/backend/python/optimizers.py::SequentialMinimalOptimization._update_alpha"]}
{"id": "C119", "title": "The training schedule of the SVM", "statement": "training starts with a sweep over all samples in order; a sweep over all samples that changes nothing ends the training; otherwise sweeps over the samples with multipliers strictly between 0 and C follow, until one of them changes nothing, and then a sweep over all samples again; with epochs = e >= 0 there are at most e sweeps and fewer only because of the stopping rule, with epochs = -1 only the stopping rule ends the training", "quantifier": "every data set, kernel, C, tol, epochs and sequence of random permutations", "why_tests_cant": "the alternation depends on the whole history of updates; the result alone does not show it", "anchors": ["classicML/backend/python/optimizers.py::SequentialMinimalOptimization.run"]}
{"id": "C120", "title": "EM never lowers the likelihood", "statement": "GaussianMixture.fit, whatever the tolerance and the number of epochs, ends with parameters under which the training data are at least as likely as under the initial parameters, and so does every single EM iteration; the density it uses is that of the multivariate normal distribution", "quantifier": "every data set, number of components, initial means, initial weights forming a probability vector, positive definite initial covariances, tol and epochs, for runs that produce no singular covariance", "why_tests_cant": "monotonicity of the likelihood is an inequality over all data sets and all iterations; a test sees single runs", "anchors": ["classicML/api/models/cluster/gaussian_mixture.py::GaussianMixture.fit", "classicML/backend/python/ops.py::calculate_means", "classicML/backend/python/ops.py::calculate_covariances", "classicML/backend/python/ops.py::calculate_mixture_coefficient", "classicML/backend/python/ops.py::get_normal_distribution_probability_density"]}
{"id": "C121", "title": "Initial covariances are the default or exactly the given ones", "statement": "by default every component of a Gaussian mixture starts with 0.1 times the identity; an array of shape (n_components, features, features) is used as given, other arrays raise ValueError and other objects TypeError", "quantifier": "every number of components and features and every initial array", "why_tests_cant": "the accepted shapes are an infinite family; tests try one shape", "anchors": ["classicML/backend/python/ops.py::init_covariances"]}
{"id": "C122", "title": "Impurity measures measure impurity", "statement": "the Gini index of a list of labels is the probability that two labels drawn from it differ; Gini index and entropy are 0 exactly for equal labels and at most 1-1/k and log2(k) for k different labels, reached exactly when all of them are equally frequent", "quantifier": "every non-empty list of labels", "why_tests_cant": "the extremal characterisations quantify over all label lists", "anchors": ["classicML/backend/python/tree/criteria.py::Gini.__call__", "classicML/backend/python/tree/criteria.py::Entropy.__call__"]}
{"id": "C123", "title": "A split never increases impurity", "statement": "splitting by the values of an attribute, or of a numerical attribute at any point, never increases the weighted Gini index or entropy, and leaves it unchanged exactly when the outcome is statistically independent of the label; in particular the information gain of the chosen attribute is never negative", "quantifier": "every attribute column, list of labels of the same length and dividing point", "why_tests_cant": "a concavity inequality over all tables of counts", "anchors": ["classicML/backend/python/tree/criteria.py::Criterion.get_value", "classicML/backend/python/tree/criteria.py::Gain.get_value", "classicML/backend/python/tree/criteria.py::Gain.optimal_division"]}
{"id": "C124", "title": "SVC predicts by the sign of its decision function", "statement": "after SVC.fit, predict answers -1 exactly for the rows where the decision function sum_i alpha_i*y_i*K(row,x_i)+b over all the training samples is negative and +1 elsewhere, for multipliers in [0,C] with sum_i alpha_i*y_i=0, although only the support vectors are kept; an untrained classifier refuses with ValueError", "quantifier": "every training set with labels +1/-1, kernel, gamma, C>=0, tol, number of epochs, pass order and every list of rows", "why_tests_cant": "the dropped samples could matter for some unseen row; tests look at a few rows", "anchors": ["classicML/api/models/support_vector_machine/support_vector_classifier.py::SupportVectorClassifier.fit", "classicML/api/models/support_vector_machine/support_vector_classifier.py::SupportVectorClassifier.predict"]}
{"id": "C125", "title": "gamma='auto' and 'scale' follow the training data", "statement": "each SVC.fit with gamma='auto' uses 1/features and with gamma='scale' uses 1/(features*variance) of the data it is given; a number is used as it is, and gamma is ignored for a Kernel instance", "quantifier": "every sequence of fits, training sets and kernels", "why_tests_cant": "depends on the history of the object; tests fit once", "anchors": ["classicML/api/models/support_vector_machine/support_vector_classifier.py::SupportVectorClassifier.fit", "classicML/backend/python/kernels.py"]}
{"id": "C126", "title": "SVC trained on one class answers that class", "statement": "an SVC trained on samples that all have the same label answers that label", "quantifier": "every training set with one label, kernel, parameters and row", "why_tests_cant": "quantifies over all data sets and all pass orders", "anchors": ["classicML/api/models/support_vector_machine/support_vector_classifier.py::SupportVectorClassifier.fit", "classicML/api/models/support_vector_machine/support_vector_classifier.py::SupportVectorClassifier.predict"]}
{"id": "C127", "title": "Post-pruning is reduced-error pruning, node by node", "statement": "the post-pruned tree has at every node either the test of the original tree or a leaf with the majority label of the training rows that reach the node; a subtree is only replaced if the leaf classifies strictly more of the validation rows there correctly, nodes without validation rows stay as they are, and no remaining bottom node could still be improved by replacing it", "quantifier": "every tree, majority rule, training set and validation set for which post-pruning completes, and every node of the result", "why_tests_cant": "quantifies over all nodes of all trees with the rows routed to them; tests look at one tree", "anchors": ["classicML/backend/python/tree/pruners.py::PostPruner.__call__", "classicML/backend/python/tree/pruners.py::PostPruner.calculation_accuracy"]}
{"id": "C128", "title": "Pre-pruning keeps exactly the splits that pay", "statement": "whenever pre-pruning completes, a node that validation rows reach keeps its test exactly if labelling each branch with the majority of its training rows classifies strictly more validation rows correctly than one leaf with the majority label, and is that leaf otherwise; on a fitted tree that tests by value the result classifies at least as many validation rows correctly as the majority label of the training data", "quantifier": "every tree, majority rule, training set and validation set for which pre-pruning completes, and every node of the result", "why_tests_cant": "quantifies over all nodes of all trees with the rows routed to them; tests look at one tree", "anchors": ["classicML/backend/python/tree/pruners.py::PrePruner.__call__", "classicML/backend/python/tree/pruners.py::PrePruner.calculation_accuracy"]}
{"id": "C129", "title": "Leaves of a fitted tree carry the majority label", "statement": "every leaf of a decision tree fitted without pruning is labelled with the most frequent label of the training rows that reach it, and a branch that no training row takes is a leaf with the most frequent label of its parent node", "quantifier": "every training set, criterion and fitted tree, and every node of it", "why_tests_cant": "quantifies over all leaves of all trees; tests look at predictions for a few rows", "anchors": ["classicML/backend/python/tree/generators.py::DecisionTreeGenerator.tree_generate"]}
{"id": "C130", "title": "Activation.diff applies the derivative of the activation", "statement": "Relu.diff(output, relu(z)) is output times the derivative of relu at z for every z other than 0; Sigmoid.diff(output, sigmoid(z), y) is the derivative of the sigmoid times the error y-output, i.e. minus the derivative of the squared error when output is the activation; Softmax.diff(y, softmax(z)) is the derivative of the cross-entropy with respect to each logit for targets that sum to 1", "quantifier": "every real logit, output and target, every number of classes", "why_tests_cant": "derivatives are limits; finite differences on samples only approximate them", "anchors": ["classicML/backend/python/activations.py::Relu.diff", "classicML/backend/python/activations.py::Sigmoid.diff", "classicML/backend/python/activations.py::Softmax.diff", "classicML/backend/cc/activations/activations.cc"]}
{"id": "C131", "title": "Naive Bayes answers exactly the rows of known values", "statement": "a NaiveBayesClassifier constructed with attribute names and fitted answers 0 or 1 for every row whose discrete values occur in the training columns; a row with an unknown discrete value raises KeyError (with or without smoothing), a row of another length ValueError; without attribute names fit succeeds and predict raises TypeError for every row; untrained it raises ValueError", "quantifier": "every training table, labels, smoothing, attribute names, value_counts order and every row", "why_tests_cant": "the set of rows is infinite and the error depends on the whole training table", "anchors": ["classicML/api/models/bayes/naive_bayes_classifier.py::NaiveBayesClassifier.fit", "classicML/api/models/bayes/naive_bayes_classifier.py::NaiveBayesClassifier.predict"]}
{"id": "C132", "title": "C++ bootstrap samples rows uniformly and keeps pairs together", "statement": "with the C++ engine BootstrapSampling returns as many rows as the data has, each position holding a row of x and the label of the same row, and every row is equally likely; arrays of different lengths raise ValueError", "quantifier": "every data set, every sequence of raw random numbers", "why_tests_cant": "uniformity is a statement about all raw values of the generator; the exceptional raw value occurs once in four billion draws", "anchors": ["classicML/backend/cc/ops/ops.cc::BootstrapSampling1", "classicML/backend/cc/ops/ops.cc::BootstrapSampling2"]}
{"id": "C133", "title": "K-means gives the same result with both engines", "statement": "training KMeans from the same initial centroids gives the same centroids, the same clusters and stops in the same way with the Python and the C++ engine", "quantifier": "every training set with at least one feature, tolerance, number of epochs and initial centroids", "why_tests_cant": "the engines agree on ordinary data and differ only on runs in which a cluster loses all its samples", "anchors": ["classicML/backend/cc/ops/ops.cc::CalculateCentroids", "classicML/backend/cc/ops/ops.cc::GetCluster", "classicML/backend/cc/ops/ops.cc::CompareDifferences1", "classicML/backend/cc/matrix_op.cc::ArgMin", "classicML/api/models/cluster/k_means.py::KMeans.fit"]}
{"id": "C134", "title": "init_centroids means the same with both engines", "statement": "with the C++ engine init='random' picks one sample for each cluster, a matrix with one row for each cluster and one column for each feature is used as it is, a list of indices selects these samples, everything else is refused, with the same exceptions as the Python engine", "quantifier": "every data set, number of clusters and init argument", "why_tests_cant": "the interpretation depends on the shapes of two arguments", "anchors": ["classicML/backend/cc/ops/ops.cc::InitCentroids1", "classicML/backend/cc/ops/ops.cc::InitCentroids2", "classicML/backend/cc/matrix_op.cc::Reshape"]}
{"id": "C135", "title": "The mixture and SVM kernels of the C++ engine compute what the Python ones compute", "statement": "CalculateMeans and CalculateError of the C++ engine give, in exact arithmetic, the numbers of the Python functions", "quantifier": "every data matrix, responsibilities, multipliers, labels, kernel and offset", "why_tests_cant": "equality of two programs on all inputs", "anchors": ["classicML/backend/cc/ops/ops.cc::CalculateMeans", "classicML/backend/cc/ops/ops.cc::CalculateError", "classicML/backend/cc/matrix_op.cc::GetNonZeroSubMatrix"]}
{"id": "C136", "title": "BroadcastSub subtracts like numpy or raises ValueError", "statement": "BroadcastSub(a, b) is numpy's a - b for matrices of equal width when the numbers of rows are equal or one of them is 1; other shapes raise ValueError", "quantifier": "all pairs of matrices", "why_tests_cant": "all shapes", "anchors": ["classicML/backend/cc/matrix_op.cc::BroadcastSub"]}
{"id": "C137", "title": "Initialisers produce the documented shapes and scales", "statement": "for a network structure [n0, n1, ...] an initialiser returns exactly the parameters w1, b1, w2, b2, ...; w_l has shape (n_l, n_{l-1}) and consists of standard normal numbers times 1, sqrt(2/N_in) or sqrt(2/(N_in+N_out)), b_l is a row of zeros; for a logistic regression with d attributes it returns d+1 numbers; the RBF initialiser returns zero weights and bias, uniform centres and normal widths", "quantifier": "every initialiser, every network structure, every state of the random generator", "why_tests_cant": "all depths and layer sizes; the numbers are random", "anchors": ["classicML/backend/python/initializers.py::RandomNormal", "classicML/backend/python/initializers.py::HeNormal", "classicML/backend/python/initializers.py::XavierNormal", "classicML/backend/python/initializers.py::RBFNormal"]}
{"id": "C138", "title": "XavierNormal uses the Glorot scale", "statement": "the weights made by XavierNormal are standard normal numbers times sqrt(2/(N_in+N_out))", "quantifier": "every network structure and every number of attributes of a logistic regression", "why_tests_cant": "a statement about the distribution of random numbers for all sizes", "anchors": ["classicML/backend/python/initializers.py::XavierNormal"]}
{"id": "C139", "title": "The seed of a model determines its initial parameters", "statement": "a model compiled with a seed starts its training with parameters that depend on the seed only", "quantifier": "every interleaving of compiling and training several models in one process", "why_tests_cant": "all histories of the process", "anchors": ["classicML/backend/python/initializers.py::Initializer", "classicML/backend/training.py::get_initializer"]}
{"id": "C140", "title": "The seed determines the initial parameters (C++ engine)", "statement": "with the C++ engine two calls of an initialiser with the same seed and the same structure return the same parameters", "quantifier": "every history of the process, every structure and seed", "why_tests_cant": "depends on hidden state kept from previous calls", "anchors": ["classicML/backend/cc/matrix_op.cc::GenerateRandomStandardNormalDistributionMatrix", "classicML/backend/cc/initializers/initializers.cc::RandomNormal", "classicML/backend/cc/initializers/initializers.cc::HeNormal", "classicML/backend/cc/initializers/initializers.cc::XavierNormal"]}
{"id": "C141", "title": "Different weights are different random numbers", "statement": "the weights of a freshly initialised network are pairwise different draws of the random generator, in both engines", "quantifier": "every initialiser and network structure", "why_tests_cant": "all structures; equality of random numbers", "anchors": ["classicML/backend/python/initializers.py::RandomNormal", "classicML/backend/cc/initializers/initializers.cc::RandomNormal", "classicML/backend/cc/matrix_op.cc::GenerateRandomStandardNormalDistributionMatrix"]}
{"id": "C142", "title": "The losses of both engines return the same number", "statement": "the Python and the C++ engine return the same loss for the same predictions and labels, given as matrices or as label vectors", "quantifier": "all numbers of samples and columns, all entries, labels as vectors or matrices", "why_tests_cant": "all shapes and values; two independent implementations", "anchors": ["classicML/backend/python/losses.py::BinaryCrossentropy", "classicML/backend/python/losses.py::CategoricalCrossentropy", "classicML/backend/python/losses.py::Crossentropy", "classicML/backend/python/losses.py::LogLikelihood", "classicML/backend/python/losses.py::MeanSquaredError", "classicML/backend/cc/losses/losses.cc::BinaryCrossentropy", "classicML/backend/cc/losses/losses.cc::MeanSquaredError"]}
{"id": "C143", "title": "The cross-entropy of correct, certain predictions is zero", "statement": "if every prediction equals its label the cross-entropy is 0, and it is a finite number whenever no certain prediction is wrong", "quantifier": "all label arrays and predictions in [0,1]", "why_tests_cant": "values at the border of the domain for all sizes; depends on infinities and NaN", "anchors": ["classicML/backend/python/losses.py::BinaryCrossentropy", "classicML/backend/python/losses.py::CategoricalCrossentropy", "classicML/backend/cc/losses/losses.cc::BinaryCrossentropy", "classicML/backend/cc/losses/losses.cc::CategoricalCrossentropy"]}
{"id": "C144", "title": "The kernels of both engines return the same values", "statement": "calling a kernel on rows of features returns the kernel value of every pair of rows, the same in both engines, for any number of rows and features", "quantifier": "every kernel, every shape of the two arguments, all entries", "why_tests_cant": "all shapes and values; two implementations with different memory layouts", "anchors": ["classicML/backend/python/kernels.py::Linear", "classicML/backend/python/kernels.py::Polynomial", "classicML/backend/python/kernels.py::RBF", "classicML/backend/python/kernels.py::Sigmoid", "classicML/backend/cc/kernels/kernels.cc::Linear", "classicML/backend/cc/kernels/kernels.cc::RBF", "classicML/backend/cc/matrix_op.cc::Reshape", "classicML/backend/cc/matrix_op.cc::BroadcastSub"]}
{"id": "C145", "title": "The activations of both engines return the same array", "statement": "relu, sigmoid and softmax and their diff methods return the same array in both engines or refuse the same arguments", "quantifier": "vectors and matrices of every shape, all entries", "why_tests_cant": "all shapes and values", "anchors": ["classicML/backend/python/activations.py::Relu", "classicML/backend/python/activations.py::Sigmoid", "classicML/backend/python/activations.py::Softmax", "classicML/backend/cc/activations/activations.cc::Relu", "classicML/backend/cc/activations/activations.cc::Sigmoid", "classicML/backend/cc/activations/activations.cc::Softmax"]}
{"id": "C146", "title": "The configured precision is used", "statement": "CLASSICML_PRECISION='64-bit' makes the library compute in 64 bits, any other value in 32 bits; unknown values are reported", "quantifier": "every value of the environment variable and every call of a loss, metric, kernel or activation", "why_tests_cant": "all strings and all combinations of element types", "anchors": ["classicML/framework/dtypes.py::set_precision", "classicML/backend/cc/losses/losses_wrapper.cc", "classicML/backend/cc/metrics/metrics_wrapper.cc"]}
{"id": "C147", "title": "Linear discriminant analysis with the C++ engine finds Fisher's direction", "statement": "with the C++ engine fit stores the class means and a projection vector w with S_w w = mu_0 - mu_1 (up to scale), and predicts the same labels as the textbook method", "quantifier": "all data sets, numbers of features, and all valid singular value decompositions", "why_tests_cant": "all scatter matrices and all decompositions the linear algebra library may return", "anchors": ["classicML/backend/cc/ops/ops.cc::GetW_V2", "classicML/backend/cc/ops/ops.cc::GetWithinClassScatterMatrix", "classicML/backend/cc/matrix_op.cc::BroadcastSub", "classicML/api/models/linear_model/linear_discriminant_analysis.py::LinearDiscriminantAnalysis.fit"]}
{"id": "C148", "title": "type_of_target of both engines gives the same answer", "statement": "cc_type_of_target_v2 answers what type_of_target answers, for every array of numbers or strings", "quantifier": "all arrays of every dtype kind, shape and content, all roundings to single precision", "why_tests_cant": "all values and strings; depends on float32 rounding, on the bytes of strings and on an unassigned variable", "anchors": ["classicML/backend/cc/ops/ops.cc::TypeOfTarget_V2", "classicML/backend/cc/matrix_op.cc::AnyDiscreteInteger", "classicML/backend/cc/matrix_op.cc::Unique", "classicML/backend/python/ops.py::type_of_target"]}
{"id": "C149", "title": "The convex hull of the C++ engine encloses the points", "statement": "the C++ ConvexHull returns a closed chain of input points without right turns that encloses all points, the same as the Python ConvexHull", "quantifier": "all point sets and all results of the two unstable sorts", "why_tests_cant": "all point sets; the order of equal keys is not determined", "anchors": ["classicML/backend/cc/ops/ops.cc::ConvexHull::ComputeConvexHull", "classicML/backend/cc/ops/ops.cc::ConvexHull::GetSlope", "classicML/backend/python/ops.py::ConvexHull"]}
{"id": "C150", "title": "The probability estimates and differences of both engines agree", "statement": "the C++ functions for conditional and joint prior probabilities, densities and differences of tensors return the values of the Python functions", "quantifier": "all counts, samples, means, variances, tensors and thresholds", "why_tests_cant": "all counts, including those near the range of the integer type", "anchors": ["classicML/backend/cc/ops/ops.cc::GetConditionalProbability", "classicML/backend/cc/ops/ops.cc::GetDependentPriorProbability", "classicML/backend/cc/ops/ops.cc::GetProbabilityDensity", "classicML/backend/cc/ops/ops.cc::CompareDifferences2", "classicML/backend/python/ops.py::get_conditional_probability"]}
{"id": "C151", "title": "Benchmark decorators do not change what they measure", "statement": "A function decorated with timer, memory_monitor or average_timer(repeat) returns the same value, raises the same exception and has the same effect as the undecorated function.", "quantifier": "all functions (with any effects), all states, all repeat counts, all exceptions", "why_tests_cant": "Tests decorate a few pure functions; the claim is about every function, effect, exception and repeat count.", "anchors": ["classicML/benchmarks/wrapper_utils.py::timer", "classicML/benchmarks/wrapper_utils.py::average_timer", "classicML/benchmarks/wrapper_utils.py::memory_monitor"]}
{"id": "C152", "title": "Benchmark decorators report the times that passed", "statement": "The line logged by timer states the duration of the call and average_timer states mean, standard deviation, longest and shortest duration of its calls, each in a unit that suits its size and is the unit printed.", "quantifier": "all durations, all sequences of durations", "why_tests_cant": "Durations are not under the control of a test; unit changes happen at boundaries that a run does not hit.", "anchors": ["classicML/benchmarks/wrapper_utils.py::_format_and_display_the_time_spent", "classicML/benchmarks/wrapper_utils.py::average_timer", "classicML/benchmarks/wrapper_utils.py::timer"]}
{"id": "C153", "title": "The discriminant-analysis figure shows the model's decision", "statement": "plot_linear_discriminant_analysis refuses an untrained model; otherwise it draws every sample with label 0 or 1, the line through the origin along the projection vector, and from every sample a segment to its orthogonal projection on that line, inside the visible window, so that a sample is predicted positive exactly when its drawn projection is nearer the drawn positive centre.", "quantifier": "all trained weight vectors and class means, all data sets and labels", "why_tests_cant": "A figure is only looked at for one data set; slope and foot-point formulas must hold for every weight vector, including axis-parallel ones.", "anchors": ["classicML/api/plots/linear_model.py::plot_linear_discriminant_analysis", "classicML/api/plots/linear_model.py::_plot_sample_scatter", "classicML/api/plots/utils.py::_lda_plot_config"]}
{"id": "C154", "title": "The logistic-regression figure draws the probability-1/2 line", "statement": "plot_logistic_regression refuses an untrained model; otherwise the drawn line is exactly the set of points to which the model assigns probability 1/2, for every trained model on two features, and models on another number of features are refused.", "quantifier": "all weight vectors of all lengths, all data sets", "why_tests_cant": "A figure is only looked at for one model; the line formula must hold for all weights.", "anchors": ["classicML/api/plots/linear_model.py::plot_logistic_regression", "classicML/api/plots/linear_model.py::_plot_sample_scatter"]}
{"id": "C155", "title": "The k-means figure outlines every cluster", "statement": "plot_k_means refuses an untrained model; for every trained or loaded model and its training samples it draws all samples, all centroids and for every cluster a closed line around the samples of that cluster, which encloses them and the centroid if that is their mean, inside the visible window.", "quantifier": "all trained and loaded models, all cluster sizes and label vectors, all data sets, all results of the unstable sort", "why_tests_cant": "A figure is looked at for one data set; the claim is about all cluster sizes (also of one sample), all data and all instances the weights are loaded into.", "anchors": ["classicML/api/plots/cluster.py::plot_k_means", "classicML/api/plots/cluster.py::_plot_sample_scatter_and_centroids", "classicML/api/plots/utils.py::_k_means_config", "classicML/backend/python/ops.py::ConvexHull"]}
{"id": "C156", "title": "The Gaussian-mixture figure shows every sample once, in its component", "statement": "plot_gaussian_mixture refuses an untrained model; otherwise every training sample is drawn exactly once, in the group of its component, and every mean is drawn; another number of samples is an error.", "quantifier": "all models, label vectors below the number of components, and data sets", "why_tests_cant": "The partition must be right for all label vectors.", "anchors": ["classicML/api/plots/cluster.py::plot_gaussian_mixture", "classicML/api/plots/cluster.py::_plot_sample_scatter_and_centroids"]}
{"id": "C157", "title": "The support-vector figure shows the samples, the support vectors and the decision boundary", "statement": "plot_support_vector_classifier refuses an untrained model; for every trained or loaded binary classifier with at least two features and its training data it draws the negative and positive samples, a ring around every support vector, and the decision boundary: the drawn line passes between two neighbouring nodes of the grid exactly if they are predicted differently.", "quantifier": "all trained and loaded classifiers, kernels, data sets and label vectors", "why_tests_cant": "A figure is looked at for one data set; the claim is about all classifiers and data, wherever the samples lie.", "anchors": ["classicML/api/plots/support_vector_machine.py::plot_support_vector_classifier", "classicML/api/plots/support_vector_machine.py::_plot_decision_boundary", "classicML/api/plots/support_vector_machine.py::_plot_sample_and_support_scatter"]}
{"id": "C158", "title": "The ensemble figure shows the samples and the boundaries of the ensemble and of every estimator", "statement": "plot_ensemble refuses an untrained model; otherwise it draws the samples, the boundary of the ensemble and, if asked for, one boundary for each estimator from that estimator's own predictions, wherever the samples lie.", "quantifier": "all trained and loaded ensembles, estimators, data sets and label vectors", "why_tests_cant": "The claim is about all ensembles and data; a figure is looked at for one.", "anchors": ["classicML/api/plots/ensemble.py::plot_ensemble", "classicML/api/plots/ensemble.py::_plot_classification_boundary", "classicML/api/plots/ensemble.py::_plot_sample_scatter"]}
{"id": "C159", "title": "The figure of a Bayesian classifier shows the predicted class of every point of the window", "statement": "plot_bayes refuses an untrained model; for every trained classifier of two attributes and its training data it draws every sample labelled 0 or 1 inside the window and colours the window by the predicted class.", "quantifier": "all naive Bayes classifiers and super-parent estimators of two numeric attributes, all data sets", "why_tests_cant": "It must hold for all data, in particular for all kinds of columns; a figure is looked at for one data set.", "anchors": ["classicML/api/plots/bayes.py::plot_bayes", "classicML/api/plots/bayes.py::_plot_background", "classicML/api/plots/bayes.py::_plot_scatter"]}
{"id": "C160", "title": "predict answers with one prediction per row, in any container of rows", "statement": "For every trained model, a batch of rows gets a sequence with one prediction per row, in the order of the rows, and the same prediction whether the rows come as a list of lists, a 2-D array or a DataFrame, for any number of rows including one.", "quantifier": "all trained models, all batches of rows, all containers of rows", "why_tests_cant": "It must hold for every batch, every number of rows and every container; tests call predict with an array of several rows.", "anchors": ["classicML/api/models/tree/decision_tree_classifier.py::DecisionTreeClassifier.predict", "classicML/api/models/linear_model/logistic_regression.py::LogisticRegression.predict", "classicML/api/models/linear_model/linear_discriminant_analysis.py::LinearDiscriminantAnalysis.predict", "classicML/api/models/support_vector_machine/support_vector_classifier.py::SupportVectorClassifier.predict", "classicML/api/models/cluster/k_means.py::KMeans.predict", "classicML/api/models/bayes/naive_bayes_classifier.py::predict", "classicML/api/models/ensemble/boosting.py::predict", "classicML/api/models/ensemble/bagging.py::predict"]}
{"id": "C161", "title": "One sample given as a flat vector is one sample", "statement": "For every trained model, a single sample handed to predict as a flat list, a 1-D array or a Series gets exactly one prediction, the prediction of that sample.", "quantifier": "all trained models, all samples, all flat containers", "why_tests_cant": "It must hold for every sample of every width; broadcasting makes some wrong shapes look right for particular widths.", "anchors": ["classicML/api/models/support_vector_machine/support_vector_classifier.py::SupportVectorClassifier.predict", "classicML/api/models/neural_network/radial_basis_function_network.py::RadialBasisFunctionNetwork.predict", "classicML/api/models/linear_model/logistic_regression.py::LogisticRegression.predict", "classicML/api/models/tree/decision_tree_classifier.py::DecisionTreeClassifier.predict", "classicML/backend/python/kernels.py::RBF.__call__"]}
{"id": "C162", "title": "The attributes of a DataFrame are identified by their names", "statement": "If a model was built with attribute names, then two DataFrames with the same values under these names, in whatever order and among whatever other columns, get the same answers from fit and from predict.", "quantifier": "all models with attribute names, all pairs of DataFrames holding the same data", "why_tests_cant": "It must hold for every order of the columns; tests use the order of the training file.", "anchors": ["classicML/api/models/tree/decision_tree_classifier.py::DecisionTreeClassifier.fit", "classicML/api/models/tree/decision_tree_classifier.py::DecisionTreeClassifier.predict", "classicML/api/models/bayes/naive_bayes_classifier.py::predict", "classicML/api/models/bayes/semi_naive_bayes_classifiers.py::predict"]}
{"id": "C163", "title": "score is the fraction of correct rows, for labels in any container and any number of rows", "statement": "For every model and every labelled set of rows, score is the fraction of rows predicted correctly, whether the labels are a list, an array (flat, a column, one-hot), a Series or a DataFrame, for any number of rows including one.", "quantifier": "all models, all predictions, all label vectors and their containers", "why_tests_cant": "It must hold for all containers and sizes; tests score arrays of many rows.", "anchors": ["classicML/backend/python/metrics.py::Metric", "classicML/backend/python/metrics.py::Accuracy.__call__", "classicML/backend/python/metrics.py::BinaryAccuracy.__call__", "classicML/backend/python/metrics.py::CategoricalAccuracy.__call__", "classicML/api/models/base_model.py::score"]}
{"id": "C164", "title": "A kernel called with two sets of rows returns their kernel matrix", "statement": "For all sets of rows of the same width, each kernel returns the matrix whose entry (i, j) is the kernel value of row i of the second and row j of the first argument.", "quantifier": "all kernels, all pairs of sets of rows, all parameters", "why_tests_cant": "It must hold for all sizes; the training code only ever calls kernels with one row against many.", "anchors": ["classicML/backend/python/kernels.py::Linear.__call__", "classicML/backend/python/kernels.py::Polynomial.__call__", "classicML/backend/python/kernels.py::RBF.__call__", "classicML/backend/python/kernels.py::Sigmoid.__call__"]}
{"id": "C165", "title": "The super-parent estimator depends on the attribute that was compiled, or refuses", "statement": "After any sequence of compile and fit calls, fitting a super-parent one-dependent estimator adds the estimates with the column of the compiled name as super-parent; a name that is no column is refused and the object is left unchanged.", "quantifier": "all sequences of compile and fit calls, all tables and names", "why_tests_cant": "It is about all call histories: what an earlier fit left behind decides.", "anchors": ["classicML/api/models/bayes/semi_naive_bayes_classifiers.py::SuperParentOneDependentEstimator.compile", "classicML/api/models/bayes/semi_naive_bayes_classifiers.py::SuperParentOneDependentEstimator.fit"]}
{"id": "C166", "title": "The names of the attributes do not influence the prediction of the super-parent estimator", "statement": "For all stored estimates and all rows, the posterior of a class is the product of its prior and of the factor of each attribute at the value of the row in the same position, whatever the attributes are called.", "quantifier": "all attribute names, stored estimates and rows", "why_tests_cant": "It must hold for every choice of names, including names used inside the stored dictionary; tests use the names of one file.", "anchors": ["classicML/api/models/bayes/semi_naive_bayes_classifiers.py::SuperParentOneDependentEstimator._calculate_posterior_probability", "classicML/api/models/bayes/semi_naive_bayes_classifiers.py::SuperParentOneDependentEstimator.fit"]}
{"id": "C167", "title": "Training in two calls of fit is training for the sum of the epochs", "statement": "Calling fit of a neural network for e1 epochs and then for e2 epochs gives the parameters that fit for e1 + e2 epochs gives with the same random draws, for every optimiser.", "quantifier": "all networks, data sets, optimisers, numbers of epochs and random draws", "why_tests_cant": "The state an optimiser keeps between epochs is not visible; the claim is about all histories of calls.", "anchors": ["classicML/api/models/neural_network/back_propagation_neural_network.py::fit", "classicML/backend/python/optimizers.py::Adam.run", "classicML/backend/python/optimizers.py::StochasticGradientDescent.run"]}
{"id": "C168", "title": "Loading a frame leaves it alone", "statement": "Dataset.from_dataframe does not change the caller's frame; a second Dataset made from the same frame has the same y and the same class_indices.", "quantifier": "all frames with string or integer labels, all numbers of classes, all histories of two loads", "why_tests_cant": "The change is made in the caller's object, and its effect on a second load depends on how all class numbers are sorted as strings.", "anchors": ["classicML/backend/python/data/dataset.py::Dataset.from_dataframe", "classicML/backend/python/data/dataset.py::Dataset._preprocessing_binary_labels", "classicML/backend/python/data/dataset.py::Dataset._preprocessing_categorical_labels"]}
{"id": "C169", "title": "An ensemble compiled without a seed gets a seed of its own", "statement": "BaggingClassifier.compile() without seed draws a random seed for that classifier: classifiers compiled one after the other in one process are sampled independently.", "quantifier": "all processes, all sequences of calls between the compilations, all streams of random numbers, all data", "why_tests_cant": "The claim is about all histories of a process; a test sees two equal seeds as a coincidence.", "anchors": ["classicML/api/models/ensemble/bagging.py::BaggingClassifier.compile", "classicML/api/models/ensemble/bagging.py::BaggingClassifier.fit"]}
{"id": "C170", "title": "fit and predict leave the caller's frames alone", "statement": "fit and predict of NaiveBayesClassifier, SuperParentOneDependentEstimator, AveragedOneDependentEstimator and DecisionTreeClassifier do not change the frames and series passed to them: values, column names and row labels are the same afterwards.", "quantifier": "all frames and series with any row labels, all four classes, with and without attribute names and validation sets, all sequences of calls", "why_tests_cant": "The change is made through a second reference to the caller's table and only to its labels; no result of the call shows it.", "anchors": ["classicML/api/models/bayes/naive_bayes_classifier.py::NaiveBayesClassifier.fit", "classicML/api/models/bayes/naive_bayes_classifier.py::NaiveBayesClassifier.predict", "classicML/api/models/bayes/semi_naive_bayes_classifiers.py::SuperParentOneDependentEstimator.fit", "classicML/api/models/bayes/semi_naive_bayes_classifiers.py::AveragedOneDependentEstimator.fit", "classicML/api/models/tree/decision_tree_classifier.py::DecisionTreeClassifier.fit"]}
{"id": "C171", "title": "A call of fit that raises leaves the model as it was", "statement": "If fit of a trained model raises an exception, the model predicts afterwards exactly as it did before the call.", "quantifier": "all trained instances of LogisticRegression, LinearDiscriminantAnalysis, KMeans, GaussianMixture, NaiveBayesClassifier, BaggingClassifier, AdaBoostClassifier and BackPropagationNeuralNetwork, all data, all points of failure", "why_tests_cant": "The instance after an exception is a state no test of fit looks at, and every statement of the training can be the one that raises.", "anchors": ["classicML/api/models/linear_model/logistic_regression.py::LogisticRegression.fit", "classicML/api/models/linear_model/linear_discriminant_analysis.py::LinearDiscriminantAnalysis.fit", "classicML/api/models/cluster/k_means.py::KMeans.fit", "classicML/api/models/cluster/gaussian_mixture.py::GaussianMixture.fit", "classicML/api/models/bayes/naive_bayes_classifier.py::NaiveBayesClassifier.fit", "classicML/api/models/ensemble/bagging.py::BaggingClassifier.fit", "classicML/api/models/ensemble/boosting.py::AdaBoostClassifier.fit", "classicML/api/models/neural_network/back_propagation_neural_network.py::BackPropagationNeuralNetwork.fit"]}
{"id": "C172", "title": "A call of fit that raised leaves no trace in the next one", "statement": "After fit raised, a call of fit that completes gives the model that a new instance would have got from it.", "quantifier": "all histories of a failed and a completed call, all data, all points of failure, the classes of C171", "why_tests_cant": "Needs all pairs of calls and all points of failure of the first one.", "anchors": ["classicML/api/models/ensemble/bagging.py::BaggingClassifier.fit", "classicML/api/models/ensemble/boosting.py::AdaBoostClassifier.fit", "classicML/api/models/cluster/k_means.py::KMeans.fit", "classicML/api/models/linear_model/logistic_regression.py::LogisticRegression.fit", "classicML/api/models/linear_model/linear_discriminant_analysis.py::LinearDiscriminantAnalysis.fit", "classicML/api/models/bayes/naive_bayes_classifier.py::NaiveBayesClassifier.fit"]}
{"id": "C173", "title": "compile is all or nothing", "statement": "A call of compile that raises changes nothing: the instance keeps its structure, optimizer, loss and metric, and the random generator its state.", "quantifier": "all instances of LogisticRegression, BackPropagationNeuralNetwork, RadialBasisFunctionNetwork and DecisionTreeClassifier, all arguments, all states of the random generator", "why_tests_cant": "The instance after an exception is a state that tests do not look at; all argument combinations and prior states matter.", "anchors": ["classicML/api/models/linear_model/logistic_regression.py::LogisticRegression.compile", "classicML/api/models/neural_network/back_propagation_neural_network.py::BackPropagationNeuralNetwork.compile", "classicML/api/models/neural_network/radial_basis_function_network.py::RadialBasisFunctionNetwork.compile", "classicML/api/models/tree/decision_tree_classifier.py::DecisionTreeClassifier.compile", "classicML/backend/training.py::get_optimizer", "classicML/backend/training.py::get_metric"]}
{"id": "C174", "title": "Every configuration that compile accepts can be trained", "statement": "If compile succeeds, there is a data set on which fit then completes, for every number of epochs.", "quantifier": "all arguments of compile (names and instances of all six optimizers, five losses, three metrics, five initializers, all structures), all data sets, epochs and random numbers; training watched or not", "why_tests_cant": "A model is useless only if fit fails on all data, which no finite set of tests shows; and the product of all arguments is large.", "anchors": ["classicML/api/models/linear_model/logistic_regression.py::LogisticRegression.compile", "classicML/api/models/linear_model/logistic_regression.py::LogisticRegression.fit", "classicML/api/models/neural_network/back_propagation_neural_network.py::BackPropagationNeuralNetwork.compile", "classicML/api/models/neural_network/back_propagation_neural_network.py::BackPropagationNeuralNetwork.fit", "classicML/api/models/neural_network/radial_basis_function_network.py::RadialBasisFunctionNetwork.compile", "classicML/api/models/neural_network/radial_basis_function_network.py::RadialBasisFunctionNetwork.fit", "classicML/backend/python/optimizers.py::StochasticGradientDescent.run", "classicML/backend/python/optimizers.py::Adam.run", "classicML/backend/python/optimizers.py::GradientDescent.run", "classicML/backend/python/optimizers.py::NewtonMethod.run", "classicML/backend/python/optimizers.py::RadialBasisFunctionOptimizer.run"]}
{"id": "C175", "title": "fit before compile is refused", "statement": "fit of an instance that was never compiled raises an exception, and predict raises ValueError.", "quantifier": "all arguments of the constructor, all data, epochs and random numbers; the three models that take an optimizer", "why_tests_cant": "Ranges over all data and constructor arguments, including ready-made initializer objects.", "anchors": ["classicML/api/models/linear_model/logistic_regression.py::LogisticRegression.fit", "classicML/api/models/neural_network/back_propagation_neural_network.py::BackPropagationNeuralNetwork.fit", "classicML/api/models/neural_network/radial_basis_function_network.py::RadialBasisFunctionNetwork.fit"]}
{"id": "C176", "title": "Compiling a trained model again keeps its predictions", "statement": "compile configures the next training; the predictions of a trained or loaded model do not change.", "quantifier": "all trained or loaded instances, all arguments of compile (whether it raises or not), all x", "why_tests_cant": "Equality of the predictions must hold for all inputs and all pairs of configurations.", "anchors": ["classicML/api/models/linear_model/logistic_regression.py::LogisticRegression.compile", "classicML/api/models/linear_model/logistic_regression.py::LogisticRegression.predict", "classicML/api/models/neural_network/back_propagation_neural_network.py::BackPropagationNeuralNetwork.compile", "classicML/api/models/neural_network/back_propagation_neural_network.py::BackPropagationNeuralNetwork.predict", "classicML/api/models/neural_network/radial_basis_function_network.py::RadialBasisFunctionNetwork.compile", "classicML/api/models/neural_network/radial_basis_function_network.py::RadialBasisFunctionNetwork.predict", "classicML/backend/python/optimizers.py::StochasticGradientDescent.forward", "classicML/backend/python/optimizers.py::GradientDescent.forward"]}
{"id": "C177", "title": "A seeded model is trained the same way every time", "statement": "With a seed given to the constructor, compile followed by fit on the same data gives the same model, whatever random numbers were drawn before and however often it is repeated.", "quantifier": "all seeds, data, epochs, states of the random generator, and all histories of compile and fit on one instance", "why_tests_cant": "Quantifies over all prior states of the global generator and all histories.", "anchors": ["classicML/api/models/linear_model/logistic_regression.py::LogisticRegression.__init__", "classicML/api/models/linear_model/logistic_regression.py::LogisticRegression.compile", "classicML/api/models/neural_network/back_propagation_neural_network.py::BackPropagationNeuralNetwork.compile", "classicML/api/models/neural_network/radial_basis_function_network.py::RadialBasisFunctionNetwork.compile", "classicML/backend/training.py::get_initializer", "classicML/backend/python/initializers.py::Initializer.__init__"]}
{"id": "C178", "title": "np.random.seed makes the training of unseeded models repeatable", "statement": "If the user seeds numpy's generator before compile, compile and fit of a model without a seed of its own give the same result in every run of the program.", "quantifier": "all states set by the user, all states from the operating system, all data and epochs", "why_tests_cant": "The dependence on the state from the operating system cannot be observed by tests, which get one state per run.", "anchors": ["classicML/api/models/linear_model/logistic_regression.py::LogisticRegression.compile", "classicML/api/models/neural_network/back_propagation_neural_network.py::BackPropagationNeuralNetwork.compile", "classicML/api/models/neural_network/radial_basis_function_network.py::RadialBasisFunctionNetwork.compile", "classicML/backend/python/initializers.py::Initializer.__init__"]}
{"id": "C179", "title": "k-means training comes to an end by itself", "statement": "For a non-negative tolerance there is a number of epochs, depending only on the number of samples and clusters, after which fit has either raised or stopped by itself; a larger number of epochs then gives the same model.", "quantifier": "all data sets, initial centroids, non-negative tolerances and numbers of epochs", "why_tests_cant": "Termination for all inputs cannot be observed by running some of them.", "anchors": ["classicML/api/models/cluster/k_means.py::KMeans.fit", "classicML/backend/python/ops.py::calculate_centroids", "classicML/backend/python/ops.py::compare_differences", "classicML/backend/python/ops.py::get_cluster"]}
{"id": "C180", "title": "k-means does not depend on units, origin or the order of the features", "statement": "Multiplying all features by a non-zero factor (and the tolerance by its absolute value), adding an offset per feature or permuting the features gives the same labels and the same centroids in the new coordinates; fit raises and stops in the same cases.", "quantifier": "all data, initial centroids, tolerances, epochs, factors, offsets and permutations", "why_tests_cant": "A relation between two runs for all data and all changes of coordinates.", "anchors": ["classicML/api/models/cluster/k_means.py::KMeans.fit", "classicML/api/models/cluster/k_means.py::KMeans.predict", "classicML/backend/python/ops.py::calculate_euclidean_distance", "classicML/backend/python/ops.py::calculate_centroids", "classicML/backend/python/ops.py::compare_differences"]}
{"id": "C181", "title": "k-means does not depend on the order or multiplicity of the samples", "statement": "Permuting the samples permutes the labels and leaves the centroids as they are; giving every sample twice leaves the centroids as they are.", "quantifier": "all data, permutations, initial centroids, tolerances and epochs", "why_tests_cant": "A relation between two runs for all data and all permutations.", "anchors": ["classicML/api/models/cluster/k_means.py::KMeans.fit", "classicML/backend/python/ops.py::calculate_centroids", "classicML/backend/python/ops.py::get_cluster"]}
{"id": "C182", "title": "Swapping the labels of an SVC negates its decision function", "statement": "Training with the two labels swapped (same data, kernel, C, tolerance, epochs and random permutations) gives the same support vectors and multipliers and the opposite decision value for every sample; predictions are opposite except where the decision value is exactly 0.", "quantifier": "all data, kernels, parameters, epochs (limited or not), random permutations and samples", "why_tests_cant": "A relation between two runs of an iterative optimiser, for all data and schedules.", "anchors": ["classicML/api/models/support_vector_machine/support_vector_classifier.py::SupportVectorClassifier.fit", "classicML/api/models/support_vector_machine/support_vector_classifier.py::SupportVectorClassifier.predict", "classicML/backend/python/optimizers.py::SequentialMinimalOptimization.run", "classicML/backend/python/optimizers.py::SequentialMinimalOptimization._update_alpha", "classicML/backend/python/ops.py::calculate_error", "classicML/backend/python/ops.py::select_second_alpha"]}
{"id": "C183", "title": "An RBF support vector classifier does not depend on origin and units", "statement": "With the RBF kernel, moving the origin of the features changes no prediction when gamma is a number or 'auto'; with gamma='scale' measuring all features in another unit and from another origin changes no prediction.", "quantifier": "all data, offsets, units, parameters, epochs, random permutations and samples", "why_tests_cant": "A relation between two runs of an iterative optimiser, for all data and changes of coordinates.", "anchors": ["classicML/api/models/support_vector_machine/support_vector_classifier.py::SupportVectorClassifier.fit", "classicML/api/models/support_vector_machine/support_vector_classifier.py::SupportVectorClassifier.predict", "classicML/backend/python/kernels.py::RBF.__call__", "classicML/backend/python/optimizers.py::SequentialMinimalOptimization.run"]}
{"id": "C184", "title": "Logistic regression treats the two classes and all samples alike", "statement": "With the classes swapped and the initial parameters negated, training gives the negated parameters, so every predicted probability p becomes 1 - p; the order of the samples does not matter.", "quantifier": "all data, learning rates, epochs, initial parameters, permutations, both optimizers, all rows", "why_tests_cant": "A relation between two runs for all data.", "anchors": ["classicML/api/models/linear_model/logistic_regression.py::LogisticRegression.fit", "classicML/api/models/linear_model/logistic_regression.py::LogisticRegression.predict", "classicML/backend/python/optimizers.py::GradientDescent.run", "classicML/backend/python/optimizers.py::NewtonMethod.run"]}
{"id": "C185", "title": "Newton's method does not depend on the coordinates of the features", "statement": "Recoding the features by any invertible affine map and starting from parameters that predict the same probabilities, training with NewtonMethod raises in the same cases and otherwise gives a model that predicts the same probability for every row.", "quantifier": "all data, labels, invertible affine recodings, epochs, initial parameters, rows", "why_tests_cant": "A relation between two runs for all data and all recodings.", "anchors": ["classicML/api/models/linear_model/logistic_regression.py::LogisticRegression.fit", "classicML/backend/python/optimizers.py::NewtonMethod.run", "classicML/backend/python/optimizers.py::NewtonMethod.forward", "classicML/backend/python/optimizers.py::NewtonMethod.backward"]}
{"id": "C186", "title": "Stumps, two-level trees and AdaBoost do not depend on the units of the features", "statement": "Giving every feature its own new unit (a positive factor) and origin (an offset) changes the dividing points accordingly and nothing else: stumps, two-level trees and AdaBoost give every row the label they gave it before, with the same coefficients and weights, and raise in the same cases.", "quantifier": "all weighted data sets, factors, offsets, numbers of estimators and rows", "why_tests_cant": "A relation between two trainings for all data and all changes of units.", "anchors": ["classicML/backend/python/tree/generators.py::DecisionStumpGenerator", "classicML/backend/python/tree/generators.py::TwoLevelDecisionTreeGenerator", "classicML/api/models/ensemble/boosting.py::AdaBoostClassifier.fit", "classicML/api/models/ensemble/boosting.py::AdaBoostClassifier.predict"]}
{"id": "C187", "title": "Stumps, two-level trees and AdaBoost do not depend on the order of the samples", "statement": "Training on the same samples in another order gives the same stump, the same two-level tree and the same boosted ensemble (each sample carrying its own weights).", "quantifier": "all weighted data sets, permutations of the samples, numbers of estimators", "why_tests_cant": "A relation between two trainings for all data and permutations.", "anchors": ["classicML/backend/python/tree/generators.py::DecisionStumpGenerator", "classicML/backend/python/tree/generators.py::TwoLevelDecisionTreeGenerator", "classicML/api/models/ensemble/boosting.py::AdaBoostClassifier.fit"]}
{"id": "C188", "title": "The training error of AdaBoost falls exponentially", "statement": "If every tree trained has weighted error at most 1/2 - g with g > 0, then after T rounds at most the fraction exp(-2 g^2 T) of the training samples is labelled wrongly; with more than ln(n)/(2 g^2) rounds (and fewer than 10^17 samples) every training sample is labelled correctly.", "quantifier": "all data sets with labels 1 and -1, numbers of estimators, edges g > 0", "why_tests_cant": "A rate over all data and all numbers of rounds.", "anchors": ["classicML/api/models/ensemble/boosting.py::AdaBoostClassifier.fit", "classicML/api/models/ensemble/boosting.py::AdaBoostClassifier.predict"]}
{"id": "C189", "title": "Decision trees do not depend on the units of the attributes", "statement": "Giving every numerical attribute its own new unit (a positive factor) and origin (an offset), without changing which columns count as continuous, changes the dividing points accordingly and nothing else: fit raises in the same cases, the tree has the same shape, every row gets the label it had; post-pruning included.", "quantifier": "all data sets, factors, offsets, criteria (gini, entropy, gain), recursion limits and rows", "why_tests_cant": "A relation between two trainings for all data and all changes of units.", "anchors": ["classicML/backend/python/tree/generators.py::DecisionTreeGenerator.tree_generate", "classicML/backend/python/tree/criteria.py::Criterion.get_value", "classicML/backend/python/tree/criteria.py::Gain.get_value", "classicML/backend/python/tree/pruners.py::PostPruner.__call__", "classicML/api/models/tree/decision_tree_classifier.py::DecisionTreeClassifier.fit", "classicML/api/models/tree/decision_tree_classifier.py::DecisionTreeClassifier.predict"]}
{"id": "C190", "title": "Decision trees do not depend on the names of values and classes", "statement": "Renaming attribute values and classes one to one renames the tree and its predictions and changes nothing else (given that ties between equally frequent classes are broken in the same way); post-pruning included.", "quantifier": "all data sets, one-to-one renamings, criteria (gini, entropy, gain), recursion limits and rows", "why_tests_cant": "A relation between two trainings for all data and all renamings.", "anchors": ["classicML/backend/python/tree/generators.py::DecisionTreeGenerator.tree_generate", "classicML/backend/python/tree/criteria.py::Criterion.get_value", "classicML/backend/python/tree/criteria.py::Gini.__call__", "classicML/backend/python/tree/criteria.py::Entropy.__call__", "classicML/backend/python/tree/pruners.py::PostPruner.__call__", "classicML/api/models/tree/decision_tree_classifier.py::DecisionTreeClassifier.fit", "classicML/api/models/tree/decision_tree_classifier.py::DecisionTreeClassifier.predict"]}
{"id": "C191", "title": "Decision trees do not depend on the order of the samples", "statement": "Training on the same labelled rows in another order raises in the same cases and otherwise gives a tree that answers every row (or raises) as before and records the same number of leaves and height (given that ties between equally frequent classes are broken independently of the order).", "quantifier": "all data sets, permutations, criteria (gini, entropy, gain), recursion limits and rows", "why_tests_cant": "A relation between two trainings for all data and permutations.", "anchors": ["classicML/backend/python/tree/generators.py::DecisionTreeGenerator.tree_generate", "classicML/backend/python/tree/criteria.py::Criterion.get_value", "classicML/backend/python/tree/criteria.py::Criterion.optimal_division", "classicML/backend/python/tree/criteria.py::Gain.optimal_division", "classicML/api/models/tree/decision_tree_classifier.py::DecisionTreeClassifier.fit", "classicML/api/models/tree/decision_tree_classifier.py::DecisionTreeClassifier.predict"]}
{"id": "C192", "title": "Linear discriminant analysis does not depend on the coordinates", "statement": "Any invertible affine change of the features (units, origin, order or mixing of features) leaves the answers of the trained model as they were, and fit raises in the same cases.", "quantifier": "all data sets, invertible matrices, offsets and rows", "why_tests_cant": "A relation between two trainings for all data and all changes of coordinates.", "anchors": ["classicML/api/models/linear_model/linear_discriminant_analysis.py::LinearDiscriminantAnalysis.fit", "classicML/api/models/linear_model/linear_discriminant_analysis.py::LinearDiscriminantAnalysis.predict", "classicML/backend/python/ops.py::get_w", "classicML/backend/python/ops.py::get_w_v2", "classicML/backend/python/ops.py::get_within_class_scatter_matrix"]}
{"id": "C193", "title": "Linear discriminant analysis treats samples and classes alike", "statement": "The model does not depend on the order of the labelled samples, and exchanging the classes 0 and 1 exchanges the answers (only a row exactly in the middle gets class 0 either way).", "quantifier": "all data sets, permutations, backends and rows", "why_tests_cant": "A relation between two trainings for all data and permutations.", "anchors": ["classicML/api/models/linear_model/linear_discriminant_analysis.py::LinearDiscriminantAnalysis.fit", "classicML/api/models/linear_model/linear_discriminant_analysis.py::LinearDiscriminantAnalysis.predict", "classicML/backend/python/ops.py::get_w", "classicML/backend/python/ops.py::get_w_v2"]}
{"id": "C194", "title": "A Gaussian mixture does not depend on the coordinates", "statement": "With the features in another order and measured from another origin (initial parameters expressed accordingly), training gives the same mixture expressed accordingly, the same clusters, and fails in the same cases. Every step of expectation maximisation in exact arithmetic also commutes with every invertible affine change of the features.", "quantifier": "all data sets, orders of features, offsets, invertible matrices, tolerances, numbers of epochs, initial parameters and roundings of the density", "why_tests_cant": "A relation between two trainings of any length for all data and all changes of coordinates.", "anchors": ["classicML/api/models/cluster/gaussian_mixture.py::GaussianMixture.fit", "classicML/api/models/cluster/gaussian_mixture.py::GaussianMixture.predict"]}
{"id": "C195", "title": "A Gaussian mixture does not depend on the order of the samples or the numbering of the components", "statement": "Training on the samples in another order gives the same mixture and every sample its cluster; renumbering the components of the initial mixture renumbers the trained components, posterior probabilities and (where no tie) the labels.", "quantifier": "all data sets, permutations, tolerances, numbers of epochs and initial parameters", "why_tests_cant": "A relation between two trainings of any length for all data and permutations.", "anchors": ["classicML/api/models/cluster/gaussian_mixture.py::GaussianMixture.fit", "classicML/api/models/cluster/gaussian_mixture.py::GaussianMixture.predict"]}
{"id": "C196", "title": "The progress bar shows the remaining and the elapsed time", "statement": "The bar shows the remaining time (duration of the last epoch times the number of epochs left) as seconds below a minute and as minutes with two digits of seconds below 60 from a minute on, near the end the elapsed time and the average time of an epoch so far.", "quantifier": "all numbers of epochs, epochs, clock readings, roundings; both engines", "why_tests_cant": "Holds for all clock readings; tests cannot control the clock.", "anchors": ["classicML/backend/python/_utils.py::ProgressBar._draw_detail", "classicML/backend/cc/_utils/_utils.cc::ProgressBar::_draw_detail"]}
{"id": "C197", "title": "The terminal shows the progress line of the current epoch", "statement": "After every epoch the last line on the terminal is exactly the line of that epoch, and training leaves one finished line.", "quantifier": "all numbers of epochs, reports (times, values, names without control characters) and states of the terminal", "why_tests_cant": "Depends on all lines written before.", "anchors": ["classicML/backend/python/_utils.py::ProgressBar._dynamic_display", "classicML/backend/python/_utils.py::ProgressBar._update_info", "classicML/backend/python/_utils.py::ProgressBar._draw_detail", "classicML/backend/python/_utils.py::ProgressBar.__call__"]}
{"id": "C198", "title": "The progress bar shows loss and metric to half a unit of the fourth decimal", "statement": "The numbers shown are the loss and the metric rounded to four decimals.", "quantifier": "all values; both engines", "why_tests_cant": "For all numbers; boundaries of rounding.", "anchors": ["classicML/backend/python/_utils.py::ProgressBar._draw_detail", "classicML/backend/cc/_utils/_utils.cc::ProgressBar::_draw_detail"]}
{"id": "C199", "title": "A CSV file with missing entries can be loaded", "statement": "With fillna=True (the default) from_csv loads every table of numbers and texts with missing entries, and no entry of the result is missing.", "quantifier": "all tables of whole numbers, decimal numbers and texts, with any missing entries", "why_tests_cant": "Over all tables and positions of the missing entries.", "anchors": ["classicML/backend/python/data/dataset.py::Dataset.from_csv", "classicML/backend/python/data/dataset.py::Dataset._convert_dtype", "classicML/backend/python/data/dataset.py::Dataset._preprocessing_features", "classicML/backend/python/data/preprocessing.py::Imputer._fillna"]}
{"id": "C200", "title": "from_csv keeps the whole numbers of the file", "statement": "A whole number in the file is the same number in the loaded column.", "quantifier": "all columns and integer widths", "why_tests_cant": "For all numbers, in particular outside of the range of the working precision.", "anchors": ["classicML/backend/python/data/dataset.py::Dataset.from_csv", "classicML/backend/python/data/dataset.py::Dataset._convert_dtype"]}
{"id": "C201", "title": "from_csv with normalization=True scales every column to [0, 1]", "statement": "Every column that is not constant is replaced by (v - min)/(max - min).", "quantifier": "all tables", "why_tests_cant": "The type of the array depends on the values of all columns.", "anchors": ["classicML/backend/python/data/dataset.py::Dataset.from_csv", "classicML/backend/python/data/dataset.py::Dataset._convert_dtype", "classicML/backend/python/data/dataset.py::Dataset._preprocessing_features"]}
{"id": "C202", "title": "fit runs the compiled optimizer from the initializer's draw, and predict evaluates the result", "statement": "After compile, fit performs exactly the given number of optimizer epochs (all samples, or the one sample drawn from the generator, per epoch), from the parameters that the compiled initializer draws at that moment (documented scale, no biases), or from the loaded weights; watching the training changes nothing; predict is the model function at the trained parameters.", "quantifier": "all instances of LogisticRegression, BackPropagationNeuralNetwork and RadialBasisFunctionNetwork compiled with the optimizers made for them, all data, labels in any shape, all epochs, all states of the random generator", "why_tests_cant": "The composition of initializer, optimizer loop and forward pass must be exact for every number of epochs, structure and random stream.", "anchors": ["classicML/api/models/linear_model/logistic_regression.py::LogisticRegression.fit", "classicML/api/models/linear_model/logistic_regression.py::LogisticRegression.predict", "classicML/api/models/neural_network/back_propagation_neural_network.py::BackPropagationNeuralNetwork.fit", "classicML/api/models/neural_network/radial_basis_function_network.py::RadialBasisFunctionNetwork.fit", "classicML/backend/python/optimizers.py::StochasticGradientDescent.run", "classicML/backend/python/optimizers.py::NewtonMethod.run"]}
{"id": "C203", "title": "MinMaxScaler does not depend on the unit or on the order of the samples", "statement": "Scaling a·x+b with a > 0 gives the same values as scaling x (for a < 0 the mirrored values 1 - z); with axis=0 every feature may have its own unit; samples in another order get the same values.", "quantifier": "all one-dimensional arrays and tables, all factors and offsets, all orders", "why_tests_cant": "Quantifies over all data, all affine changes of units and all permutations.", "anchors": ["classicML/backend/python/data/preprocessing.py::MinMaxScaler.__call__"]}
{"id": "C204", "title": "StandardScaler does not depend on the unit", "statement": "Standardised data do not depend on the unit and the origin in which the data were measured.", "quantifier": "all data with positive variance, all factors a ≠ 0 and offsets", "why_tests_cant": "Quantifies over all data and all affine changes of units.", "anchors": ["classicML/backend/python/data/preprocessing.py::StandardScaler.__call__"]}
{"id": "C205", "title": "Encoders depend only on the order of the class labels", "statement": "Renaming the classes by a strictly increasing function does not change the encoded rows, and samples in another order get the same rows, whatever was encoded before.", "quantifier": "all label lists of any ordered type, all strictly increasing renamings, all permutations, all earlier uses of the encoder", "why_tests_cant": "Ranges over all renamings, permutations and histories.", "anchors": ["classicML/backend/python/data/preprocessing.py::OneHotEncoder.__call__", "classicML/backend/python/data/preprocessing.py::DummyEncoder.__call__", "classicML/backend/python/data/preprocessing.py::MaxMarginEncoder.__call__"]}
{"id": "C206", "title": "Metrics and losses do not depend on the order of the samples", "statement": "Permuting predictions and labels together changes no accuracy and no loss; permuting the classes does not change the categorical cross entropy.", "quantifier": "all predictions and labels, all permutations, both engines for the accuracies", "why_tests_cant": "Quantifies over all permutations of samples of any number.", "anchors": ["classicML/backend/python/metrics.py::BinaryAccuracy.__call__", "classicML/backend/python/metrics.py::CategoricalAccuracy.__call__", "classicML/backend/python/losses.py::BinaryCrossentropy.__call__", "classicML/backend/python/losses.py::MeanSquaredError.__call__"]}
{"id": "C207", "title": "Naive Bayes does not depend on the order of the training samples", "statement": "Fitting the same samples in another order gives the same prediction for every row.", "quantifier": "all tables of discrete and continuous columns, all labels, all permutations of the samples, all rows, with and without smoothing", "why_tests_cant": "Quantifies over all data sets of any size and all permutations.", "anchors": ["classicML/api/models/bayes/naive_bayes_classifier.py::NaiveBayesClassifier.fit", "classicML/api/models/bayes/naive_bayes_classifier.py::NaiveBayesClassifier.predict"]}
{"id": "C208", "title": "Naive Bayes and one-dependent estimators do not depend on the order of the attributes", "statement": "Giving the columns and the cells of a row in another (common) order gives the same label, or both calls raise.", "quantifier": "all tables, labels, rows and permutations of the attributes", "why_tests_cant": "Quantifies over all data sets and all permutations.", "anchors": ["classicML/api/models/bayes/naive_bayes_classifier.py::NaiveBayesClassifier.fit", "classicML/api/models/bayes/naive_bayes_classifier.py::NaiveBayesClassifier.predict", "classicML/api/models/bayes/semi_naive_bayes_classifiers.py::SuperParentOneDependentEstimator.fit", "classicML/api/models/bayes/semi_naive_bayes_classifiers.py::SuperParentOneDependentEstimator.predict"]}
{"id": "C209", "title": "One-dependent estimators do not depend on the order of the training samples", "statement": "SuperParentOneDependentEstimator and AveragedOneDependentEstimator fitted on the same samples in another order give every row the same label or the same exception.", "quantifier": "all tables of discrete and continuous columns, labels, super-parents, rows and permutations of the samples", "why_tests_cant": "Quantifies over all data sets of any size and all permutations.", "anchors": ["classicML/api/models/bayes/semi_naive_bayes_classifiers.py::SuperParentOneDependentEstimator.fit", "classicML/api/models/bayes/semi_naive_bayes_classifiers.py::AveragedOneDependentEstimator.fit", "classicML/api/models/bayes/semi_naive_bayes_classifiers.py::AveragedOneDependentEstimator.predict"]}
{"id": "C210", "title": "AveragedOneDependentEstimator does not depend on the order of the attributes", "statement": "Giving the columns and the cells of a row in another (common) order gives the same label.", "quantifier": "all tables, labels, rows and permutations of the attributes", "why_tests_cant": "Quantifies over all data sets and all permutations.", "anchors": ["classicML/api/models/bayes/semi_naive_bayes_classifiers.py::AveragedOneDependentEstimator.fit", "classicML/api/models/bayes/semi_naive_bayes_classifiers.py::AveragedOneDependentEstimator.predict"]}
{"id": "C211", "title": "A network does not depend on how samples, features, hidden units and classes are numbered", "statement": "Renumbering the features, the hidden units, the classes and the samples (with the drawn indices) of the training data and of the initial network renumbers the trained network and its predictions and changes nothing else; in particular the numbering of the hidden units changes no prediction.", "quantifier": "all depths and widths, data, initial weights, renumberings, learning rates, numbers of epochs and sequences of draws, for SGD and Adam", "why_tests_cant": "Quantifies over all architectures, data, training lengths and permutations.", "anchors": ["classicML/api/models/neural_network/back_propagation_neural_network.py::BackPropagationNeuralNetwork.fit", "classicML/api/models/neural_network/back_propagation_neural_network.py::BackPropagationNeuralNetwork.predict", "classicML/backend/python/optimizers.py::StochasticGradientDescent.run", "classicML/backend/python/optimizers.py::Adam.run"]}
{"id": "C212", "title": "Hidden units that start alike stay alike", "statement": "Two units of a hidden layer with equal incoming weights, bias and outgoing weights are still equal after any training: a constant initialisation never uses more than one unit per layer.", "quantifier": "all depths and widths, data, learning rates, numbers of epochs and draws, for SGD and Adam", "why_tests_cant": "An invariant of every training run of any length.", "anchors": ["classicML/api/models/neural_network/back_propagation_neural_network.py::BackPropagationNeuralNetwork.fit", "classicML/backend/python/optimizers.py::StochasticGradientDescent.run", "classicML/backend/python/optimizers.py::Adam.run"]}
{"id": "C213", "title": "An RBF network moves with the plane and does not depend on the order of samples or hidden units", "statement": "Applying a rotation, reflection or translation to samples, centres and queries, reordering samples and renumbering hidden units changes no prediction of the trained network.", "quantifier": "all motions of the plane, numbers of hidden units, samples, epochs, learning rates and initial parameters", "why_tests_cant": "Quantifies over all data, motions and training lengths.", "anchors": ["classicML/api/models/neural_network/radial_basis_function_network.py::RadialBasisFunctionNetwork.fit", "classicML/api/models/neural_network/radial_basis_function_network.py::RadialBasisFunctionNetwork.predict", "classicML/backend/python/optimizers.py::RadialBasisFunctionOptimizer.run"]}
{"id": "C214", "title": "The configured precision is the one the C++ engine computes in", "statement": "with CLASSICML_ENGINE=CC, every call a trainer makes into the C++ functions runs the overload of the precision configured by CLASSICML_PRECISION: double precision for '64-bit', single precision otherwise", "quantifier": "every call site of the trainers, all sizes and shapes, every Python version", "why_tests_cant": "which overload runs is decided from the dynamic types of all arguments together, in two passes; a test that compares results with a tolerance cannot see it", "anchors": ["classicML/backend/cc/ops/ops_wrapper.cc::cc_calculate_error", "classicML/backend/cc/ops/ops_wrapper.cc::cc_clip_alpha", "classicML/backend/cc/ops/ops_wrapper.cc::cc_compare_differences", "classicML/framework/dtypes.py::set_precision", "classicML/backend/python/optimizers.py::SequentialMinimalOptimization.optimize", "classicML/api/models/cluster/k_means.py::KMeans.fit", "classicML/api/models/cluster/gaussian_mixture.py::GaussianMixture.fit", "classicML/backend/cc/numpy_patch.h::type_caster"]}
{"id": "C215", "title": "The overload a C++ function runs is determined by the types of its arguments", "statement": "a C++ function of matrices runs in double precision exactly when all arguments are float64 arrays with one or two axes, in single precision for every other combination of numeric arrays and lists with one or two axes, and raises TypeError otherwise; a function of numbers runs in double precision exactly when all are np.float64 (np.uint64 for counts)", "quantifier": "every tuple of arguments of every type, shape and value, any number of matrix parameters", "why_tests_cant": "all combinations of argument types", "anchors": ["classicML/backend/cc/ops/ops_wrapper.cc::cc_calculate_euclidean_distance", "classicML/backend/cc/ops/ops_wrapper.cc::cc_get_w_v2", "classicML/backend/cc/ops/ops_wrapper.cc::cc_get_probability_density", "classicML/backend/cc/ops/ops_wrapper.cc::cc_get_conditional_probability", "classicML/backend/cc/losses/losses_wrapper.cc::PYBIND11_MODULE", "classicML/backend/cc/kernels/kernels_wrapper.cc::PYBIND11_MODULE"]}
{"id": "C216", "title": "Clipping a multiplier keeps it in the box on the C++ engine", "statement": "the multiplier clip_alpha returns lies between low and high", "quantifier": "all multipliers and bounds, every monotone rounding to the number type of the overload", "why_tests_cant": "depends on the rounding of bounds that are arbitrary reals (C = 0.1)", "anchors": ["classicML/backend/cc/ops/ops_wrapper.cc::cc_clip_alpha", "classicML/backend/cc/ops/ops.cc::ClipAlpha", "classicML/backend/python/optimizers.py::SequentialMinimalOptimization._update_alpha"]}
{"id": "C217", "title": "A bootstrap sample of the C++ engine contains the labels it was given", "statement": "bootstrap_sampling(x, y, seed) with labels returns the sampled rows of both, in the precision of the data", "quantifier": "float data of either width, labels of any type, every documented seed", "why_tests_cant": "all combinations of argument types", "anchors": ["classicML/backend/cc/ops/ops_wrapper.cc::cc_bootstrap_sampling", "classicML/backend/cc/ops/ops.h::BootstrapSampling1", "classicML/backend/cc/ops/ops.h::BootstrapSampling2", "classicML/api/models/ensemble/bagging.py::BaggingClassifier.fit"]}
{"id": "C218", "title": "A Bayes classifier with discrete attributes predicts on the C++ engine", "statement": "the call that scores a discrete attribute is accepted by the C++ engine in both precisions", "quantifier": "all counts below 2^32, both precisions, every Python version", "why_tests_cant": "the argument types depend on the configuration and on what training stored", "anchors": ["classicML/api/models/bayes/naive_bayes_classifier.py::NaiveBayesClassifier._predict", "classicML/backend/cc/ops/ops_wrapper.cc::cc_get_conditional_probability", "classicML/api/models/bayes/semi_naive_bayes_classifiers.py::SuperParentOneDependentEstimator._calculate_posterior_probability"]}
{"id": "C219", "title": "The C++ engine treats equal integers alike", "statement": "a count, seed or size selects the same overload whether it is a Python integer or a NumPy integer of the same value, on every Python version", "quantifier": "all functions and arguments, all values, Python 3.7 and later", "why_tests_cant": "depends on the interpreter version and on the dynamic type of each integer", "anchors": ["classicML/backend/cc/ops/ops_wrapper.cc::cc_init_centroids", "classicML/backend/cc/ops/ops_wrapper.cc::cc_bootstrap_sampling", "classicML/backend/cc/initializers/initializers_wrapper.cc::PYBIND11_MODULE"]}
{"id": "C220", "title": "The overload that a C++ binding with mixed kinds of parameters runs is determined exactly by the types of the arguments", "statement": "For `select_second_alpha`, `compare_differences`, `init_centroids`, `calculate_centroids`, `calculate_error`, `get_prior_probability`, `convex_hull`, `get_w_v1` and the initialisers on the C++ engine: which arguments run in double precision, which in single precision and which raise TypeError is the exact classification stated (e.g. `compare_differences` is in double precision exactly when the tolerance is an np.float64 and the arrays are not both float32).", "quantifier": "every combination of argument types (NumPy scalars, arrays of any element type and shape, lists, Python numbers, None, strings, other objects) and both index rules of Python 3.7 and later", "why_tests_cant": "the classification ranges over unboundedly many shapes and values; a test tries a few combinations", "anchors": ["classicML/backend/cc/ops/ops_wrapper.cc", "classicML/backend/cc/initializers/initializers_wrapper.cc", "classicML/backend/cc/numpy_patch.h"]}
{"id": "C221", "title": "With a seed, the C++ engine gives every RBF network of the same size the same initial parameters", "statement": "`RBFNormal(seed=s)(hidden_units)` on the C++ engine returns w = 0 (1 x h), b = 0 (1 x 1), the uniform numbers of the seed as centres (h x 2) and the normal numbers of the seed as beta (1 x h), whatever the process did before.", "quantifier": "every seed, number of hidden units, random engine and history of the process", "why_tests_cant": "depends on the hidden state of a function-local static distribution, i.e. on the whole history of the process", "anchors": ["classicML/backend/cc/initializers/initializers.cc::RBFNormal::PyCall", "classicML/backend/cc/matrix_op.cc::GenerateRandomUniformDistributionMatrix", "classicML/backend/cc/matrix_op.cc::GenerateRandomStandardNormalDistributionMatrix"]}
{"id": "C222", "title": "The centres and the widths of a fresh RBF network are unrelated", "statement": "The initial centres and beta of a radial basis function network are drawn independently: no choice of the centres restricts the possible beta.", "quantifier": "every random engine, seed and number of hidden units", "why_tests_cant": "independence is a statement about all outcomes of the generator; one draw shows nothing", "anchors": ["classicML/backend/python/initializers.py::RBFNormal.__call__", "classicML/backend/cc/initializers/initializers.cc::RBFNormal::PyCall", "classicML/backend/cc/matrix_op.cc"]}
{"id": "C223", "title": "A History holds exactly the values of the training steps", "statement": "After any sequence of calls, reads of `loss`/`metric` and manipulations of the lists so read, `history.loss` and `history.metric` are the values passed to the calls, in order, and nothing else.", "quantifier": "every program of calls, reads, appends and assignments, on both engines", "why_tests_cant": "ranges over all programs, including ones that alias the lists", "anchors": ["classicML/backend/python/callbacks.py::History", "classicML/backend/cc/callbacks/callbacks.cc::History::PyCall", "classicML/backend/cc/callbacks/callbacks_wrapper.cc"]}
{"id": "C224", "title": "A list read from a History is a record of that moment", "statement": "`losses = history.loss` is not changed by training that happens afterwards.", "quantifier": "every program before and after the read, on both engines", "why_tests_cant": "aliasing shows only in programs that keep the list and go on training", "anchors": ["classicML/backend/python/callbacks.py::History", "classicML/backend/cc/callbacks/callbacks_wrapper.cc"]}
{"id": "C225", "title": "History objects of the two engines are interchangeable", "statement": "The same sequence of operations on a History gives the same exceptions and the same recorded values on the Python and on the C++ engine.", "quantifier": "every program of operations with numeric values", "why_tests_cant": "ranges over all programs and both engines", "anchors": ["classicML/backend/python/callbacks.py::History.__call__", "classicML/backend/cc/callbacks/callbacks_wrapper.cc"]}
{"id": "C226", "title": "Linear discriminant analysis projects on the best direction of Fisher's criterion", "statement": "After fit, no direction separates the projected class centres better, relative to the spread of the projected rows within the classes, than the direction w of the model; w is the only one up to its length and sign.", "quantifier": "every training set with different class centres and non-singular scatter, and every competing direction", "why_tests_cant": "an optimality claim compares with all directions of the space, for all real data", "anchors": ["classicML/api/models/linear_model/linear_discriminant_analysis.py::LinearDiscriminantAnalysis.fit", "classicML/backend/python/ops.py::get_w", "classicML/backend/python/ops.py::get_w_v2", "classicML/backend/python/ops.py::get_within_class_scatter_matrix", "classicML/backend/cc/ops/ops.cc::GetW_V2"]}
{"id": "C227", "title": "A support vector machine whose training stops by itself is optimal up to its tolerance", "statement": "When SMO returns before its limit of passes, no feasible multipliers have a dual objective that is larger by more than tol times their distance (sum of absolute differences) from the returned ones; hence the gap is at most n*C*tol, and with tol = 0 the result is the optimum.", "quantifier": "every positive semidefinite kernel, data set, C, tolerance, sequence of permutations and competing feasible multipliers", "why_tests_cant": "global optimality over a polytope, for all data and all random choices", "anchors": ["classicML/backend/python/optimizers.py::SequentialMinimalOptimization.run", "classicML/backend/python/optimizers.py::SequentialMinimalOptimization._update_parameters", "classicML/backend/python/optimizers.py::SequentialMinimalOptimization._update_alpha"]}
{"id": "C228", "title": "A support vector machine trained on both classes learns something", "statement": "If the training data contain both labels, C > 0 and tol < 1, training changes at least one multiplier, so that the classifier has support vectors and does not answer the same label to every row by default.", "quantifier": "every data set with both labels, kernel, C, tolerance, number of epochs and sequence of permutations", "why_tests_cant": "depends on all pairwise kernel distances and on all schedules", "anchors": ["classicML/backend/python/optimizers.py::SequentialMinimalOptimization._update_alpha", "classicML/backend/python/optimizers.py::SequentialMinimalOptimization.run", "classicML/api/models/support_vector_machine/support_vector_classifier.py::SupportVectorClassifier.fit"]}
{"id": "C229", "title": "Training a support vector machine without a limit on the epochs comes to an end", "statement": "SVC.fit(..., epochs=-1) - train until no pair can be improved - returns.", "quantifier": "every data set, symmetric kernel, C, tolerance and sequence of permutations", "why_tests_cant": "termination of an unbounded loop under all random choices", "anchors": ["classicML/backend/python/optimizers.py::SequentialMinimalOptimization.run", "classicML/backend/python/optimizers.py::SequentialMinimalOptimization._update_parameters", "classicML/backend/python/optimizers.py::SequentialMinimalOptimization._update_error_cache", "classicML/api/models/support_vector_machine/support_vector_classifier.py::SupportVectorClassifier.fit"]}
{"id": "C230", "title": "The depth of a decision tree is bounded by the data", "statement": "On every path of a tree fitted without pruning, an attribute is tested by value at most once, and there are fewer comparisons with dividing points than training samples; so the depth is less than the number of attributes plus the number of samples, and at most the number of attributes if no dividing point is used.", "quantifier": "all frames, labels, criteria (Gini, entropy, gain), tie-breaking rules and roundings of the dividing points for which fit returns, and all paths from the root to a leaf", "why_tests_cant": "the recursion depends on the choices of the criterion on every subset; tests build a few trees", "anchors": ["classicML/backend/python/tree/generators.py::DecisionTreeGenerator.tree_generate", "classicML/api/models/tree/decision_tree_classifier.py::DecisionTreeClassifier.fit"]}
{"id": "C231", "title": "A decision tree has at most as many leaves as training samples", "statement": "The number of leaves of a tree fitted without pruning does not exceed the number of training samples.", "quantifier": "all frames, labels, criteria, tie-breaking rules and roundings for which fit returns", "why_tests_cant": "must hold for every data set; small example trees satisfy it by accident", "anchors": ["classicML/backend/python/tree/generators.py::DecisionTreeGenerator.tree_generate", "classicML/api/models/tree/decision_tree_classifier.py::DecisionTreeClassifier.fit"]}
{"id": "C232", "title": "Pruning never enlarges a tree", "statement": "A post-pruned or pre-pruned tree has at most as many leaves and is at most as deep as the fitted tree it comes from.", "quantifier": "all non-empty training frames, labels, oracles and validation sets for which fit and the pruning return", "why_tests_cant": "the pruner rewrites nodes bottom up depending on the validation rows that reach them; tests cover a handful of trees", "anchors": ["classicML/backend/python/tree/pruners.py::PostPruner", "classicML/backend/python/tree/pruners.py::PrePruner"]}
{"id": "C233", "title": "An epoch of Newton's method never increases the loss", "statement": "Training a logistic regression with the 'newton' optimizer, the negative log-likelihood of the training data does not increase from one epoch to the next.", "quantifier": "all data sets, labels 0/1, initial parameters and epochs", "why_tests_cant": "holds for benign data and initial values; overshooting needs a particular region of the parameter space", "anchors": ["classicML/backend/python/optimizers.py::NewtonMethod.run", "classicML/backend/python/optimizers.py::NewtonMethod._update_parameters", "classicML/backend/python/optimizers.py::NewtonMethod._get_hessian_matrix", "classicML/api/models/linear_model/logistic_regression.py::LogisticRegression.fit"]}
{"id": "C234", "title": "Newton's method trains on every data set", "statement": "Training a logistic regression with the 'newton' optimizer does not raise for any numerical training set with labels 0/1.", "quantifier": "all data sets, labels, initial parameters and numbers of epochs", "why_tests_cant": "whether the Hessian is singular depends on the rank of the data", "anchors": ["classicML/backend/python/optimizers.py::NewtonMethod.run", "classicML/backend/python/optimizers.py::NewtonMethod._update_parameters", "classicML/backend/python/optimizers.py::NewtonMethod._get_hessian_matrix", "classicML/api/models/linear_model/logistic_regression.py::LogisticRegression.fit"]}
{"id": "C235", "title": "Newton's method converges quadratically near the optimum", "statement": "If the first Newton step is short compared with the curvature of the loss, training never fails, a best parameter vector exists, and the error of every score is (squared, up to a constant) at most the previous one: after e epochs at most (4/3)(1/4)^(2^e).", "quantifier": "all data sets, labels 0/1, initial parameters in the stated region and numbers of epochs", "why_tests_cant": "an asymptotic statement about unboundedly many epochs", "anchors": ["classicML/backend/python/optimizers.py::NewtonMethod.run", "classicML/backend/python/optimizers.py::NewtonMethod._update_parameters", "classicML/backend/python/optimizers.py::NewtonMethod._get_hessian_matrix", "classicML/api/models/linear_model/logistic_regression.py::LogisticRegression.fit"]}
{"id": "C236", "title": "Adam's steps are bounded whatever the data", "statement": "Training a back-propagation network with the Adam optimizer (0 <= beta_1 <= beta_2 < 1, learning_rate >= 0, epsilon > 0), no epoch changes a weight or a bias by more than learning_rate * sqrt((1 - beta_1)/(1 - beta_2)) (ten times the learning rate for the defaults), and n epochs by more than n times that, however large the attributes, labels and gradients.", "quantifier": "all network sizes, data sets, initial parameters, sequences of drawn samples and epochs", "why_tests_cant": "a bound over all gradient histories; tests see gradients of ordinary size only", "anchors": ["classicML/backend/python/optimizers.py::Adam.run", "classicML/api/models/neural_network/back_propagation_neural_network.py::BackPropagationNeuralNetwork.fit"]}
{"id": "C237", "title": "On separable data gradient descent learns every training sample", "statement": "If some parameter vector separates the two classes of the training set and the learning rate is at most 4 / sum(|x_i|^2 + 1), training a logistic regression by gradient descent drives the loss to 0 and, after an explicit number of epochs given by the margin, every training row is given its own class, from any initial parameters. The parameters grow beyond every bound.", "quantifier": "all separable data sets, numbers of features, initial parameters and all sufficiently large numbers of epochs", "why_tests_cant": "a statement about the limit of unboundedly many epochs", "anchors": ["classicML/backend/python/optimizers.py::GradientDescent.run", "classicML/backend/python/optimizers.py::GradientDescent.backward", "classicML/api/models/linear_model/logistic_regression.py::LogisticRegression.fit"]}
{"id": "C238", "title": "Gradient descent with the default learning rate approaches the best parameters", "statement": "Training a logistic regression by gradient descent with the default learning rate, the loss approaches the smallest possible loss as the number of epochs grows.", "quantifier": "all data sets, labels 0/1 and initial parameters", "why_tests_cant": "needs the limit of the training, and data of unusual scale", "anchors": ["classicML/backend/python/optimizers.py::GradientDescent.run", "classicML/backend/python/optimizers.py::GradientDescent.backward", "classicML/api/models/linear_model/logistic_regression.py::LogisticRegression.fit"]}
{"id": "C239", "title": "A Gaussian mixture can be trained on every data set", "statement": "GaussianMixture.fit with the default initial covariances and coefficients ends with a model for every non-empty numerical data set, every number of components and epochs.", "quantifier": "all data sets, initial means, numbers of components, attributes and epochs", "why_tests_cant": "whether a covariance becomes singular depends on the rank of the data", "anchors": ["classicML/api/models/cluster/gaussian_mixture.py::GaussianMixture.fit", "classicML/backend/python/ops.py::calculate_covariances", "classicML/backend/python/ops.py::get_normal_distribution_probability_density"]}
{"id": "C240", "title": "Only samples at the bound C are misclassified in training", "statement": "When SVC training stops by itself (tol < 1), every training sample whose multiplier is below C gets its own label, with a margin of at least 1 - tol; so the number of training errors is at most (sum of the multipliers) / C.", "quantifier": "all data sets, kernels, C, tolerances and sequences of permutations", "why_tests_cant": "relates the stopping state of an unbounded iteration to the predictions on every training sample", "anchors": ["classicML/api/models/support_vector_machine/support_vector_classifier.py::SupportVectorClassifier.fit", "classicML/api/models/support_vector_machine/support_vector_classifier.py::SupportVectorClassifier.predict", "classicML/backend/python/optimizers.py::SequentialMinimalOptimization.run"]}
{"id": "C241", "title": "With the linear kernel the SVC is a linear classifier", "statement": "A classifier trained with the linear kernel answers by the sign of w*row + b, where w is the combination of the training rows with coefficients alpha_i*y_i, 0 <= alpha_i <= C; a row on the segment between two rows of one label gets that label.", "quantifier": "all data sets, numbers of features, C, epochs, permutations and rows", "why_tests_cant": "an identity over all rows of the feature space", "anchors": ["classicML/api/models/support_vector_machine/support_vector_classifier.py::SupportVectorClassifier.fit", "classicML/api/models/support_vector_machine/support_vector_classifier.py::SupportVectorClassifier.predict", "classicML/backend/python/kernels.py::Linear.__call__"]}
{"id": "C242", "title": "Far from the support vectors an RBF classifier answers by its bias", "statement": "For every trained or loaded SVC with the RBF or Gaussian kernel and non-zero bias b there is a distance beyond which every row gets the label of the sign of b.", "quantifier": "all trained or loaded RBF classifiers and all rows", "why_tests_cant": "a statement about an unbounded region of the feature space", "anchors": ["classicML/api/models/support_vector_machine/support_vector_classifier.py::SupportVectorClassifier.predict", "classicML/backend/python/kernels.py::RBF.__call__"]}
{"id": "C243", "title": "A constant attribute does not influence the model", "statement": "Adding to all training samples and all later rows one more attribute with one and the same value does not change what a model answers.", "quantifier": "all data sets, values of the additional attribute, models and rows", "why_tests_cant": "a relation between two trainings, for all data", "anchors": ["classicML/api/models/cluster/k_means.py::KMeans.fit", "classicML/api/models/support_vector_machine/support_vector_classifier.py::SupportVectorClassifier.fit", "classicML/backend/python/optimizers.py::NewtonMethod.run", "classicML/api/models/cluster/gaussian_mixture.py::GaussianMixture.fit"]}
{"id": "C244", "title": "Pre-processing is idempotent", "statement": "Passing data that a scaler or an imputer has already processed through the same kind of pre-processor once more returns them unchanged.", "quantifier": "all data", "why_tests_cant": "a relation between two calls, for all data", "anchors": ["classicML/backend/python/data/preprocessing.py::MinMaxScaler.__call__", "classicML/backend/python/data/preprocessing.py::StandardScaler.__call__", "classicML/backend/python/data/preprocessing.py::Imputer.__call__", "classicML/backend/python/data/preprocessing.py::Imputer._fillna"]}
{"id": "C245", "title": "Bayes classifiers do not depend on the names of the values of discrete attributes", "statement": "Giving the values of the discrete attributes other names (different names for different values), in the training data and in the rows, changes no answer of a Bayes classifier.", "quantifier": "all data sets, rows and injective renamings, one for each attribute", "why_tests_cant": "a relation between two trainings, for all data and renamings", "anchors": ["classicML/api/models/bayes/naive_bayes_classifier.py::NaiveBayesClassifier.fit", "classicML/api/models/bayes/semi_naive_bayes_classifiers.py::SuperParentOneDependentEstimator.fit", "classicML/api/models/bayes/semi_naive_bayes_classifiers.py::AveragedOneDependentEstimator.predict"]}
{"id": "C246", "title": "Bayes classifiers do not depend on the unit and the origin of continuous attributes", "statement": "Measuring a continuous attribute in another unit or from another zero point, in the training data and in the rows, changes no answer of a Bayes classifier.", "quantifier": "all data sets, rows, units and origins", "why_tests_cant": "a relation between two trainings, for all data and units", "anchors": ["classicML/backend/python/ops.py::get_probability_density", "classicML/api/models/bayes/naive_bayes_classifier.py::NaiveBayesClassifier.predict", "classicML/api/models/bayes/semi_naive_bayes_classifiers.py::SuperParentOneDependentEstimator.predict"]}
{"id": "C247", "title": "An epoch of clustering reproduces the moments of the data", "statement": "After an epoch that moves the parameters, the mean and the matrix of second moments of a Gaussian mixture are those of the training data, and for k-means the centroids of the samples add up to the samples and, about every point, the scatter of the data is the scatter within clusters plus that of the centroids. A training that moves nothing returns its start.", "quantifier": "all data, densities, starting points, tolerances and numbers of epochs", "why_tests_cant": "an identity over all real data, after every number of epochs", "anchors": ["classicML/api/models/cluster/gaussian_mixture.py::GaussianMixture.fit", "classicML/api/models/cluster/k_means.py::KMeans.fit", "classicML/backend/python/ops.py::calculate_means", "classicML/backend/python/ops.py::calculate_covariances", "classicML/backend/python/ops.py::calculate_centroids"]}
{"id": "C248", "title": "Random initialisation of k-means starts the training", "statement": "KMeans with init='random' trains on every data set with at least as many different samples as clusters, whatever the generator draws.", "quantifier": "all data sets, tolerances, numbers of clusters and draws", "why_tests_cant": "all draws of the random generator; tests see a few of them", "anchors": ["classicML/backend/python/ops.py::init_centroids", "classicML/backend/python/ops.py::compare_differences", "classicML/api/models/cluster/k_means.py::KMeans.fit"]}
{"id": "C249", "title": "The convex hull does not depend on the order of the points", "statement": "Giving the points to ConvexHull in another order changes neither the vertices, nor their order, nor the exception raised, although the sort by x is not stable.", "quantifier": "all lists of points, all their permutations and all results of the unstable sort", "why_tests_cant": "all permutations and all arrangements an unstable sort may choose", "anchors": ["classicML/backend/python/ops.py::ConvexHull.compute_convex_hull"]}
{"id": "C250", "title": "The convex hull moves with the coordinates", "statement": "Moving the points, stretching the axes by positive factors and shearing along y does the same to the hull and nothing else.", "quantifier": "all lists of points, translations, positive factors and shears", "why_tests_cant": "a relation between two computations, for all points and coordinates", "anchors": ["classicML/backend/python/ops.py::ConvexHull.compute_convex_hull", "classicML/backend/python/ops.py::ConvexHull._get_slope", "classicML/backend/python/ops.py::ConvexHull._get_cross_product"]}
{"id": "C251", "title": "The vertices of the convex hull span the points", "statement": "Whenever ConvexHull returns, the smallest convex set that contains the vertices is the smallest that contains the points; a point that is not in the convex set spanned by the others is a vertex.", "quantifier": "all lists of points (with duplicates) for which the constructor returns", "why_tests_cant": "an equality of infinite sets, for all lists of points", "anchors": ["classicML/backend/python/ops.py::ConvexHull.compute_convex_hull"]}
{"id": "C252", "title": "Logistic regression becomes calibrated on its training set", "statement": "An epoch of training leaves the parameters unchanged exactly if the predicted probabilities add up to the number of positive samples, also when weighted by any feature; with a learning rate of at most 4 / sum(|x_i|^2 + 1) gradient descent approaches that state on every training set, and the squared errors of all epochs together are at most twice the initial loss divided by the learning rate.", "quantifier": "all data sets, labels 0/1, initial parameters and numbers of epochs", "why_tests_cant": "a limit over the epochs, for all real data", "anchors": ["classicML/backend/python/optimizers.py::GradientDescent.run", "classicML/backend/python/optimizers.py::NewtonMethod.run", "classicML/api/models/linear_model/logistic_regression.py::LogisticRegression.fit"]}
{"id": "C253", "title": "A hidden unit that is inactive on the training set never learns", "statement": "A unit of the first hidden layer whose input is at most 0 on every training row keeps its incoming weights, bias and outgoing weights during the whole training, with SGD and with Adam, and stays inactive; if all units of that layer are so, the trained network gives every training row the same answer. With features that are not negative this happens to every unit whose initial weights are not positive.", "quantifier": "all networks with a hidden layer, data, labels, learning rates, draws and numbers of epochs", "why_tests_cant": "all sequences of drawn samples and all numbers of epochs", "anchors": ["classicML/backend/python/activations.py::Relu.diff", "classicML/backend/python/optimizers.py::StochasticGradientDescent.run", "classicML/backend/python/optimizers.py::Adam.run", "classicML/api/models/neural_network/back_propagation_neural_network.py::BackPropagationNeuralNetwork.fit"]}
{"id": "C254", "title": "Logistic regression on several copies of the data", "statement": "Training a logistic regression on a training set given r >= 1 times over yields the same parameters as training on it once.", "quantifier": "all data, labels, initial parameters, learning rates, numbers of epochs and of copies", "why_tests_cant": "all data sets, all numbers of copies", "anchors": ["classicML/backend/python/optimizers.py::GradientDescent.run", "classicML/backend/python/optimizers.py::NewtonMethod.run"]}
{"id": "C255", "title": "Linear discriminant analysis on several copies of the data", "statement": "Training an LDA model on a training set given r >= 1 times over yields the same class centres and the same predictions as training on it once; the projection vector is only rescaled.", "quantifier": "all data, labels, numbers of copies", "why_tests_cant": "all data sets, all numbers of copies, three projection functions", "anchors": ["classicML/api/models/linear_model/linear_discriminant_analysis.py::LinearDiscriminantAnalysis.fit", "classicML/backend/python/ops.py::get_w", "classicML/backend/python/ops.py::get_w_v2", "classicML/backend/python/ops.py::get_within_class_scatter_matrix"]}
{"id": "C256", "title": "Clustering several copies of the data", "statement": "From the same start, k-means and the Gaussian mixture end with the same centroids (parameters) after the same number of epochs when the data are given r >= 1 times over, and every copy of a sample gets the cluster of the sample.", "quantifier": "all data, initial parameters, tolerances, numbers of epochs and of copies", "why_tests_cant": "all data sets, all numbers of copies and epochs", "anchors": ["classicML/api/models/cluster/k_means.py::KMeans.fit", "classicML/api/models/cluster/gaussian_mixture.py::GaussianMixture.fit", "classicML/backend/python/ops.py::calculate_centroids", "classicML/backend/python/ops.py::calculate_covariances"]}
{"id": "C257", "title": "Decision tree from several copies of the data", "statement": "A training set given r >= 1 times over generates exactly the tree that it generates given once, with every criterion.", "quantifier": "all training sets, criteria, column types, numbers of copies", "why_tests_cant": "all data sets, all numbers of copies", "anchors": ["classicML/backend/python/tree/generators.py::DecisionTreeGenerator.tree_generate", "classicML/backend/python/tree/criteria.py::Gini.__call__", "classicML/backend/python/tree/criteria.py::Entropy.__call__"]}
{"id": "C258", "title": "Decision stump from several copies of the data", "statement": "A training set given r >= 1 times over trains the decision stump that it trains given once.", "quantifier": "all training sets with labels -1/+1, numbers of copies", "why_tests_cant": "all data sets, all numbers of copies", "anchors": ["classicML/backend/python/tree/generators.py::DecisionStumpGenerator.tree_generate"]}
{"id": "C259", "title": "Naive Bayes from several copies of the data", "statement": "A training set given r >= 1 times over trains a naive Bayes classifier that predicts the same class for every row as the one trained on it once.", "quantifier": "all training sets, rows, with and without smoothing, numbers of copies", "why_tests_cant": "all data sets, all rows, all numbers of copies", "anchors": ["classicML/api/models/bayes/naive_bayes_classifier.py::NaiveBayesClassifier.fit", "classicML/backend/python/ops.py::get_conditional_probability", "classicML/backend/python/ops.py::get_prior_probability"]}
{"id": "C260", "title": "Metrics and scalers on several copies of the data", "statement": "The accuracies of r >= 1 copies of predictions and labels are those of one copy; a scaler applied to r copies of a column stores the same statistics and returns r copies of the scaled column.", "quantifier": "all predictions, labels, columns and numbers of copies", "why_tests_cant": "all arrays, all numbers of copies", "anchors": ["classicML/backend/python/metrics.py::BinaryAccuracy.__call__", "classicML/backend/python/metrics.py::CategoricalAccuracy.__call__", "classicML/backend/python/data/preprocessing.py::StandardScaler.__call__", "classicML/backend/python/data/preprocessing.py::MinMaxScaler.__call__"]}
{"id": "C261", "title": "Increasing transformations of the attributes of a decision tree", "statement": "Replacing every attribute by an increasing function of it (logarithm, square root, change of unit) changes neither whether training fails, nor the size and height of the tree, nor the class it predicts for any training row, with the Gini index, the entropy and the information gain.", "quantifier": "all training sets, all transformations that increase on the values in the table and keep whether a column counts as numerical", "why_tests_cant": "all data sets and all increasing functions; a table can only show a few", "anchors": ["classicML/backend/python/tree/generators.py::DecisionTreeGenerator.tree_generate", "classicML/backend/python/tree/criteria.py::Criterion.get_value", "classicML/backend/python/tree/criteria.py::Criterion.optimal_division", "classicML/backend/python/tree/criteria.py::Gain.get_value", "classicML/backend/python/tree/criteria.py::Gain.optimal_division"]}
{"id": "C262", "title": "Convex decision regions", "statement": "If a trained k-means model, a linear discriminant analysis, a linear support vector classifier or a decision stump gives two rows the same class, it gives that class to every row on the segment between them; the probability predicted by logistic regression on the segment lies between the two end values.", "quantifier": "all trained models, all pairs of rows, all points of the segment", "why_tests_cant": "infinitely many points on infinitely many segments, including points on the borders", "anchors": ["classicML/api/models/cluster/k_means.py::KMeans.predict", "classicML/backend/python/ops.py::get_cluster", "classicML/api/models/linear_model/linear_discriminant_analysis.py::LinearDiscriminantAnalysis.predict", "classicML/api/models/linear_model/logistic_regression.py::LogisticRegression.predict", "classicML/api/models/support_vector_machine/support_vector_classifier.py::SupportVectorClassifier.predict", "classicML/backend/python/kernels.py::Linear.__call__", "classicML/api/models/tree/decision_tree_classifier.py::DecisionStumpClassifier.predict"]}
{"id": "C263", "title": "A larger ensemble begins with the smaller one", "statement": "Training with k + j estimators yields exactly the first k estimators (for AdaBoost with their coefficients and sample distributions) of training with k; a training that fails with k estimators fails likewise with more, and an AdaBoost training that stopped by itself before k estimators yields the same ensemble for every larger limit.", "quantifier": "all training sets, learners, seeds and numbers of estimators", "why_tests_cant": "all data sets, base learners, k and j", "anchors": ["classicML/api/models/ensemble/boosting.py::AdaBoostClassifier.fit", "classicML/api/models/ensemble/bagging.py::BaggingClassifier.fit"]}
{"id": "C264", "title": "One cluster, one component", "statement": "k-means with one cluster ends with the mean of the samples, a Gaussian mixture with one component with their mean, covariance matrix and weight 1, whatever the start (unless it starts within the tolerance) and whatever the number of epochs >= 1; all samples get cluster 0. The mixture fails exactly when the covariance matrix of the sample cannot be inverted.", "quantifier": "all non-empty data sets, starts with invertible covariance, tolerances, numbers of epochs", "why_tests_cant": "all data sets and starts, any number of epochs", "anchors": ["classicML/api/models/cluster/k_means.py::KMeans.fit", "classicML/api/models/cluster/gaussian_mixture.py::GaussianMixture.fit", "classicML/backend/python/ops.py::calculate_means", "classicML/backend/python/ops.py::calculate_covariances", "classicML/backend/python/ops.py::calculate_centroids"]}
{"id": "C265", "title": "predict over every history of fit and load calls", "statement": "However fit and load_weights are called on one instance, and whichever of these calls raise, predict refuses (ValueError) exactly until the first of them completes; afterwards it never fails for want of an attribute, whatever failed later, but only for data of the wrong width (or, for k-means, without any centroid).", "quantifier": "all finite histories of completed and failed calls, all data", "why_tests_cant": "histories of any length in any order with failures at any point", "anchors": ["classicML/api/models/linear_model/linear_discriminant_analysis.py::LinearDiscriminantAnalysis.predict", "classicML/api/models/linear_model/logistic_regression.py::LogisticRegression.predict", "classicML/api/models/cluster/k_means.py::KMeans.predict", "classicML/api/models/ensemble/bagging.py::BaggingClassifier.predict", "classicML/api/models/ensemble/boosting.py::AdaBoostClassifier.predict"]}
{"id": "C266", "title": "Only the last completed call matters", "statement": "If the last call made on an instance (fit or load_weights) completed, the instance answers every question like a new instance on which that call alone was made.", "quantifier": "all finite histories of completed and failed calls followed by a completed one, all questions", "why_tests_cant": "histories of any length in any order", "anchors": ["classicML/api/models/linear_model/linear_discriminant_analysis.py::LinearDiscriminantAnalysis.fit", "classicML/api/models/linear_model/logistic_regression.py::LogisticRegression.fit", "classicML/api/models/cluster/k_means.py::KMeans.fit", "classicML/api/models/ensemble/bagging.py::BaggingClassifier.fit", "classicML/api/models/ensemble/boosting.py::AdaBoostClassifier.fit"]}
{"id": "C267", "title": "A linear support vector classifier does not depend on the coordinate system", "statement": "Rotating or reflecting the features, or measuring them from another origin, in the training rows and the questions alike, changes no prediction of a linear support vector classifier.", "quantifier": "all data sets, all rotations and reflections, all offsets", "why_tests_cant": "all data sets and all changes of coordinates", "anchors": ["classicML/api/models/support_vector_machine/support_vector_classifier.py::SupportVectorClassifier.fit", "classicML/api/models/support_vector_machine/support_vector_classifier.py::SupportVectorClassifier.predict", "classicML/backend/python/optimizers.py::SequentialMinimalOptimization._update_error_cache", "classicML/backend/python/kernels.py::Linear.__call__"]}
{"id": "C268", "title": "A polynomial kernel gives all boundaries up to its degree", "statement": "With the polynomial kernel of degree p a support vector classifier can represent every boundary that a polynomial of degree at most p describes, in particular the straight lines of the linear kernel and, for p at least 2, intervals on one feature.", "quantifier": "all data sets, all degrees", "why_tests_cant": "all data sets and degrees; that a training run fails on one data set does not show that no run can succeed", "anchors": ["classicML/backend/python/kernels.py::Polynomial.__call__", "classicML/api/models/support_vector_machine/support_vector_classifier.py::SupportVectorClassifier.predict"]}
{"id": "C269", "title": "A support vector classifier does not depend on the order of the training samples", "statement": "Re-ordering the training samples with their labels changes no prediction of a support vector classifier whose training ends by itself.", "quantifier": "all data sets, all orders", "why_tests_cant": "all data sets and all n! orders", "anchors": ["classicML/api/models/support_vector_machine/support_vector_classifier.py::SupportVectorClassifier.fit", "classicML/backend/python/optimizers.py::SequentialMinimalOptimization.run", "classicML/backend/python/optimizers.py::SequentialMinimalOptimization._update_parameters"]}
{"id": "C270", "title": "Both optimisers of logistic regression find the same model", "statement": "Whatever the learning rates and the initial parameters, two runs of gradient descent on the same data that came to rest give every training row the same probability; if one of two runs that came to rest used Newton's method, the parameters themselves are equal.", "quantifier": "all data sets, learning rates, initial parameters and numbers of epochs", "why_tests_cant": "all data sets, all starting points and both optimisers", "anchors": ["classicML/api/models/linear_model/logistic_regression.py::LogisticRegression.fit", "classicML/backend/python/optimizers.py::GradientDescent.run", "classicML/backend/python/optimizers.py::NewtonMethod.run"]}
{"id": "C271", "title": "The cross-entropies reward the true probabilities", "statement": "Among all predicted probabilities the binary and the categorical cross-entropy are smallest at the true probabilities of the classes and only there; for a hard label the loss is smaller exactly when the true class is given a higher probability.", "quantifier": "all numbers of samples and classes, all true probabilities, all predictions", "why_tests_cant": "an inequality over all pairs of probability tables", "anchors": ["classicML/backend/python/losses.py::BinaryCrossentropy.__call__", "classicML/backend/python/losses.py::CategoricalCrossentropy.__call__"]}
{"id": "C272", "title": "Ensembles compiled with different seeds are trained on different bootstrap samples", "statement": "Two bagging ensembles of the same base learner trained on the same data with different seeds draw the bootstrap samples of their members from different seeds.", "quantifier": "all data sets, base learners, generators, pairs of seeds and sizes", "why_tests_cant": "all generators, seeds and sizes", "anchors": ["classicML/api/models/ensemble/bagging.py::BaggingClassifier.fit", "classicML/backend/python/ops.py::bootstrap_sampling"]}
{"id": "C273", "title": "The votes of an ensemble", "statement": "The prediction of an ensemble does not depend on the order of its members; one more member changes an answer only to the label it votes for; two bagging ensembles that agree on a row agree when they are merged.", "quantifier": "all ensembles, all orders, all rows", "why_tests_cant": "all ensembles and all orders of their members", "anchors": ["classicML/api/models/ensemble/bagging.py::BaggingClassifier.predict", "classicML/api/models/ensemble/boosting.py::AdaBoostClassifier.predict"]}
{"id": "C274", "title": "The RBF kernel separates all distinct rows", "statement": "For positive gamma and distinct rows the matrix of RBF kernel values is positive definite; hence every labelling of distinct training rows can be represented by an RBF classifier, and the training problem of the RBF support vector classifier has at most one solution.", "quantifier": "all numbers of distinct rows, all dimensions, all positive gamma, all labels", "why_tests_cant": "all matrices of all sizes", "anchors": ["classicML/backend/python/kernels.py::RBF.__call__", "classicML/api/models/support_vector_machine/support_vector_classifier.py::SupportVectorClassifier.fit"]}
{"id": "C275", "title": "Min-max scaling in floating point stays between 0 and 1", "statement": "With the roundings of the machine, in single or double precision, MinMaxScaler maps numbers that are not all equal into the interval from 0 to 1, ends included; the minimum becomes exactly 0 and the maximum exactly 1, and a larger value does not become smaller. Equal values give NaN.", "quantifier": "all arrays of numbers of the format, all monotone roundings with gradual underflow, in particular IEEE round to nearest", "why_tests_cant": "all arrays of floating point numbers: rounding errors occur only for particular values", "anchors": ["classicML/backend/python/data/preprocessing.py::MinMaxScaler.__call__"]}
{"id": "C276", "title": "The inverse of min-max scaling gives the numbers back", "statement": "Applying inverse to the result of MinMaxScaler returns the original array, in single precision as well.", "quantifier": "all arrays of numbers of the format", "why_tests_cant": "all arrays; the loss depends on the magnitudes", "anchors": ["classicML/backend/python/data/preprocessing.py::MinMaxScaler.__call__", "classicML/backend/python/data/preprocessing.py::MinMaxScaler.inverse"]}
{"id": "C277", "title": "Softmax rows are probabilities in floating point", "statement": "Every row of the result of Softmax consists of numbers between 0 and 1 in the order of the inputs with total 1 up to rounding, in single precision, for every matrix of finite inputs; the largest result is where the largest input is.", "quantifier": "all matrices, all orders of summation, all roundings", "why_tests_cant": "all matrices: underflow occurs only for particular differences between rows", "anchors": ["classicML/backend/python/activations.py::Softmax.__call__"]}
{"id": "C278", "title": "Sample weights and posterior probabilities in floating point", "statement": "The sample weights of AdaBoost and the posterior probabilities of a Gaussian mixture are numbers between 0 and 1 with total 1, in single precision as well.", "quantifier": "all weights, densities and mixing coefficients, all orders of summation", "why_tests_cant": "all values; the failures need particular magnitudes", "anchors": ["classicML/api/models/ensemble/boosting.py::AdaBoostClassifier.fit", "classicML/backend/python/ops.py::get_gaussian_mixture_distribution_posterior_probability", "classicML/backend/python/ops.py::get_gaussian_mixture_distribution_probability_density"]}
{"id": "C279", "title": "Mixing coefficients with sum 1 are accepted", "statement": "A list of mixing coefficients is accepted exactly if its sum is 1, whatever the order of the coefficients.", "quantifier": "all lists of coefficients of double precision", "why_tests_cant": "all lists; whether the rounded sum is exactly 1 depends on every digit", "anchors": ["classicML/backend/python/ops.py::init_mixture_coefficient"]}
{"id": "C280", "title": "Different values are separated by their dividing point in floating point", "statement": "The dividing point stored for two neighbouring values of a numerical attribute lies above the smaller and not above the larger one, so that training on data in which equal rows have equal labels ends and reproduces all labels, in 32-bit precision as well.", "quantifier": "all training sets, all impurities, all roundings", "why_tests_cant": "all data sets; needs values that are close relative to the precision", "anchors": ["classicML/backend/python/tree/criteria.py::Criterion.get_value", "classicML/backend/python/tree/generators.py::DecisionTreeGenerator.tree_generate"]}
{"id": "C281", "title": "The sigmoid in floating point", "statement": "The sigmoid of a finite number is strictly between 0 and 1, increases, and is below 1/2 exactly for negative arguments, in single precision as well.", "quantifier": "all numbers, all roundings", "why_tests_cant": "all numbers; saturation and ties depend on the precision", "anchors": ["classicML/backend/python/activations.py::Sigmoid.__call__"]}
{"id": "C282", "title": "Multipliers stay in the box in floating point", "statement": "A step of sequential minimal optimization keeps both multipliers between 0 and C and does not change the sum of the multipliers times the labels, in 32-bit precision as well.", "quantifier": "all multipliers, all values of C, all roundings", "why_tests_cant": "all states of the optimizer; the errors need particular magnitudes", "anchors": ["classicML/backend/python/optimizers.py::SequentialMinimalOptimization._update_alpha", "classicML/backend/python/ops.py::clip_alpha"]}
{"id": "C283", "title": "Accuracies compare as exact fractions", "statement": "The accuracy is between 0 and 1, equals 1 exactly if all answers are correct and 0 exactly if none is, and two accuracies on the same number of samples compare as the numbers of correct answers; so does the error by which decision stumps are chosen, in double precision, for up to 2^50 samples.", "quantifier": "all numbers of samples and of correct answers, all roundings with small errors", "why_tests_cant": "all pairs of counts: rounding could make different fractions equal", "anchors": ["classicML/backend/python/metrics.py::BinaryAccuracy.__call__", "classicML/backend/python/metrics.py::CategoricalAccuracy.__call__", "classicML/backend/python/tree/generators.py::DecisionStumpGenerator.evaluate"]}
{"id": "C284", "title": "Standardizing equal values in floating point", "statement": "StandardScaler keeps the order of the values, and equal values (which have no spread) give the same result in floating point as in exact arithmetic: no number.", "quantifier": "all arrays of numbers of the format, all lengths, all roundings", "why_tests_cant": "all arrays; the computed mean of equal numbers differs from them only for particular values and lengths", "anchors": ["classicML/backend/python/data/preprocessing.py::StandardScaler.__call__"]}
{"id": "C285", "title": "The convex hull in floating point", "statement": "Computed in floating point, the convex hull of a set of distinct points, with a unique leftmost one, is a closed chain of input points without right turns that has all points on or to the left of its edges; for points with small integer coordinates it is the exact hull.", "quantifier": "all finite sets of points, all formats, all results of the unstable sort", "why_tests_cant": "all sets of points: the sign of a cross product is wrong only for nearly collinear triples", "anchors": ["classicML/backend/python/ops.py::ConvexHull.compute_convex_hull", "classicML/backend/python/ops.py::ConvexHull._get_cross_product", "classicML/backend/python/ops.py::ConvexHull._get_slope"]}
{"id": "C286", "title": "K-means labels in floating point", "statement": "Computed in floating point, the label of a sample is that of a nearest centroid; a sample that is a centroid gets a label of distance zero.", "quantifier": "all samples, all lists of centroids, all orders of summation, all formats", "why_tests_cant": "all samples: near ties and underflow need particular values", "anchors": ["classicML/backend/python/ops.py::calculate_euclidean_distance", "classicML/backend/python/ops.py::get_cluster", "classicML/api/models/cluster/k_means.py::KMeans.predict"]}
{"id": "C287", "title": "K-means centroids in floating point", "statement": "Every coordinate of a centroid computed in floating point lies between the smallest and the largest coordinate of the samples of its cluster; the centroid of equal samples is that sample.", "quantifier": "all clusters of numbers of the format, all sizes, all orders of summation", "why_tests_cant": "all clusters: rounding leaves the range only for particular values", "anchors": ["classicML/backend/python/ops.py::calculate_centroids", "classicML/api/models/cluster/k_means.py::KMeans.fit"]}
{"id": "C288", "title": "AdaBoost's sample weights stay usable through a whole training", "statement": "In every round of a training of AdaBoost, with any base learners, the sample weights that the learner is given are numbers between 0 and 1 whose total is between 0.9 and 1.1, in single precision, for up to a million samples: repeated rounding and normalization never turn them into NaN.", "quantifier": "all numbers of rounds, all sequences of misclassified samples, all orders of summation, all numbers of samples up to 2^20", "why_tests_cant": "all histories of rounds: errors accumulate over rounds and underflow depends on the sequence", "anchors": ["classicML/api/models/ensemble/boosting.py::AdaBoostClassifier.fit"]}
{"id": "C289", "title": "A perfect test is found in floating point", "statement": "With gini, entropy or gain computed in double precision on up to 2^20 samples: if some attribute has a test (a candidate dividing point or a branch per value) after which every group has a single label, the criterion chooses the first such attribute with such a test; the reported value of gini and entropy is 0 exactly in this case, and the reported gain is then the whole entropy.", "quantifier": "all data sets of up to 2^20 samples, all mixtures of continuous and discrete attributes, all orders of summation, all formats of the columns, every log2 that is increasing and exact at powers of two", "why_tests_cant": "all data sets: rounding errors of frequencies, squares, logarithms and sums could make an impure split look pure or a pure one impure", "anchors": ["classicML/backend/python/tree/criteria.py::Criterion.get_value", "classicML/backend/python/tree/criteria.py::Criterion.optimal_division", "classicML/backend/python/tree/criteria.py::Gain.optimal_division", "classicML/backend/python/tree/criteria.py::Gini", "classicML/backend/python/tree/criteria.py::Entropy"]}
{"id": "C290", "title": "Data that one attribute separates give a tree with one question", "statement": "If one attribute has a test that separates the classes, the fitted decision tree asks a single question and predicts every training sample correctly, with every criterion and in floating point.", "quantifier": "all data sets of up to 2^20 samples with such an attribute, all criteria, all roundings of the stored dividing point", "why_tests_cant": "all data sets; depends on the rounding of the stored dividing point", "anchors": ["classicML/backend/python/tree/criteria.py::Criterion.get_value", "classicML/backend/python/tree/generators.py::DecisionTreeGenerator.tree_generate"]}
{"id": "C291", "title": "A value nearer to the mean has at least the density", "statement": "get_probability_density never returns, for a value nearer to the mean, a smaller density than for a value farther away (same mean and variance).", "quantifier": "all means, positive variances and pairs of values, in single and double precision", "why_tests_cant": "all pairs of values; the failing region starts about 13 variances from the mean, where densities are subnormal", "anchors": ["classicML/backend/python/ops.py::get_probability_density", "classicML/backend/cc/ops/ops.cc::GetProbabilityDensity"]}
{"id": "C292", "title": "Naive Bayes predicts the class with the nearer mean", "statement": "With one continuous attribute and two classes of the same size and variance, NaiveBayesClassifier predicts class 0 for the values nearer to the mean of class 0 and class 1 for the others.", "quantifier": "all training data of this kind, all values, in exact arithmetic and in single precision", "why_tests_cant": "all values: outliers far from both means are rarely tested", "anchors": ["classicML/backend/python/ops.py::get_probability_density", "classicML/api/models/bayes/naive_bayes_classifier.py::NaiveBayesClassifier.fit", "classicML/api/models/bayes/naive_bayes_classifier.py::NaiveBayesClassifier._predict"]}
{"id": "C293", "title": "A network's training step lowers the loss of the drawn sample", "statement": "For every back-propagation network, every epoch of SGD, and the first epoch of Adam, with a small enough learning rate lowers the cross-entropy of the sample drawn in that epoch.", "quantifier": "all depths and widths, all parameters with no hidden unit exactly at the kink of ReLU on that sample, all samples with one-hot (or 0/1) labels, all learning rates below a bound that depends on them", "why_tests_cant": "all networks and samples and all small learning rates; a test sees single steps", "anchors": ["classicML/backend/python/optimizers.py::StochasticGradientDescent.run", "classicML/backend/python/optimizers.py::Adam.run"]}
{"id": "C294", "title": "An epoch of the RBF network does not raise the error", "statement": "With a small enough learning rate an epoch of RadialBasisFunctionOptimizer lowers the squared error of the network or leaves it alone; in particular a network that computes all labels stays as it is.", "quantifier": "all numbers of hidden units, parameters, samples, label columns and small learning rates", "why_tests_cant": "all parameters and data; the wrong gradient of the widths only shows after the output weights have left zero", "anchors": ["classicML/backend/python/optimizers.py::RadialBasisFunctionOptimizer.run", "classicML/backend/python/optimizers.py::RadialBasisFunctionOptimizer.backward", "classicML/backend/python/optimizers.py::RadialBasisFunctionOptimizer._update_parameters"]}
{"id": "C295", "title": "The binary loss of a trained network is a finite number", "statement": "The binary cross-entropy reported for the single-precision sigmoid outputs of a network is a finite number, as it is for exact sigmoid outputs, which are never 0 or 1.", "quantifier": "all numbers of samples, all logits, labels 0 and 1 as vector or column, both engines", "why_tests_cant": "all logits; tests use small ones, where the rounded sigmoid is strictly between 0 and 1", "anchors": ["classicML/backend/python/losses.py::BinaryCrossentropy.__call__", "classicML/backend/python/activations.py::Sigmoid.__call__", "classicML/backend/cc/losses/losses.cc::BinaryCrossentropy::PyCall"]}
{"id": "C296", "title": "Compiling or loading makes a support vector classifier as good as new", "statement": "Whatever compile, fit and load_weights calls were made on an SVC instance, completed or not: it refuses to predict (ValueError) exactly until the first fit or load_weights completes; after compile and a fit that completes, or after a load_weights that completes, it answers every table, with a label 1 or -1 per row, as a new instance after the same calls would.", "quantifier": "all histories of compile, fit and load_weights calls with any arguments, files with any missing attributes and exceptions, all tables", "why_tests_cant": "all histories of one instance; tests make one call of each kind on a new instance", "anchors": ["classicML/api/models/support_vector_machine/support_vector_classifier.py::SupportVectorClassifier.compile", "classicML/api/models/support_vector_machine/support_vector_classifier.py::SupportVectorClassifier.fit", "classicML/api/models/support_vector_machine/support_vector_classifier.py::SupportVectorClassifier.load_weights"]}
{"id": "C297", "title": "fit of a support vector classifier uses the compiled parameters", "statement": "Every SVC.fit trains with the C, kernel, gamma and tol of the last call of compile.", "quantifier": "all histories of compile, fit and load_weights calls, all data, permutations and numbers of passes", "why_tests_cant": "all histories; a test that trains a loaded classifier again with other parameters is needed to notice", "anchors": ["classicML/api/models/support_vector_machine/support_vector_classifier.py::SupportVectorClassifier.compile", "classicML/api/models/support_vector_machine/support_vector_classifier.py::SupportVectorClassifier.fit", "classicML/api/models/support_vector_machine/support_vector_classifier.py::SupportVectorClassifier.load_weights"]}
{"id": "C298", "title": "Attributes a decision tree does not ask about do not influence it", "statement": "If the tree DecisionTreeClassifier builds from a table asks no question about some columns, then fit on the table without these columns completes too, builds the same tree (with the columns renumbered), and answers every row as the tree of the whole table does.", "quantifier": "all tables with discrete and continuous columns, labels, sets of left out columns, impurity functions (gini, entropy, gain) and recursion limits", "why_tests_cant": "all tables and all sets of columns; a test compares one table with one column left out", "anchors": ["classicML/backend/python/tree/generators.py", "classicML/backend/python/tree/criteria.py"]}
{"id": "C299", "title": "A sample that is learned keeps its answer", "statement": "If NaiveBayesClassifier answers a row of continuous attributes with label c, then after this very row has been added to the training data with the label c and the classifier is trained again, it still answers the row with c.", "quantifier": "all training sets of continuous attributes that vary in both classes, all rows, both labels, with and without smoothing (exact arithmetic)", "why_tests_cant": "all data sets and rows; a test adds one row to one data set", "anchors": ["classicML/api/models/bayes/naive_bayes_classifier.py::NaiveBayesClassifier.fit", "classicML/api/models/bayes/naive_bayes_classifier.py::NaiveBayesClassifier._predict", "classicML/backend/python/ops.py::get_probability_density"]}
{"id": "C300", "title": "Bootstrap samples represent the data on average", "statement": "Over all n^n index arrays that bootstrap_sampling can draw for n rows, each as likely as the others: the average total of any quantity of the sampled rows and labels is its total over the data (every row occurs once on average, class shares are kept on average); exactly k^n arrays give samples without any row of a given kind when k rows are not of that kind; a row that occurs once in the data is left out by the fraction (1-1/n)^n of the arrays, which is at most 1/e and tends to 1/e.", "quantifier": "all data sets of any size, all quantities of rows and labels, all kinds of rows, sums over all index arrays", "why_tests_cant": "the statement is about all n^n draws at once; a test sees one seed", "anchors": ["classicML/backend/python/ops.py::bootstrap_sampling", "classicML/api/models/ensemble/bagging.py::BaggingClassifier"]}
{"id": "C301", "title": "No classifier makes fewer training errors than an unpruned decision tree", "statement": "Whenever DecisionTreeClassifier.fit without pruning completes, the tree answers every row of the training set with a label that is most frequent among the training samples equal to that row; so no function from rows to labels, in particular no constant answer, is right on more training samples. With discrete attributes training completes on every table.", "quantifier": "all tables with discrete and continuous columns, also with contradictory samples, all criteria, all rules for ties, all functions from rows to labels", "why_tests_cant": "all tables and all competing classifiers; tests check training accuracy on a sample table without contradictions", "anchors": ["classicML/backend/python/tree/generators.py", "classicML/api/models/tree/decision_tree_classifier.py::DecisionTreeClassifier.fit"]}
{"id": "C302", "title": "Post-pruning finds the best pruned tree", "statement": "Among all trees that arise from the fitted tree by replacing inner nodes by leaves with the majority label of the training rows that reach them, none classifies more validation rows correctly than the tree that post-pruning returns.", "quantifier": "all trees, training and validation sets, all sets of nodes to be replaced", "why_tests_cant": "all subsets of the nodes; a test compares the accuracy before and after", "anchors": ["classicML/backend/python/tree/pruners.py::PostPruner.__call__"]}
{"id": "C303", "title": "Linear decisions survive rounding", "statement": "Computed in floating point - in whatever order the matrix product adds, with or without fused multiply-add - the class that SupportVectorClassifier and LogisticRegression answer is the class of the exact decision value of the stored parameters.", "quantifier": "all parameters and samples of the format, all orders of summation, all numbers of features and support vectors", "why_tests_cant": "all values and all orders of summation; a test uses a few samples far from the boundary", "anchors": ["classicML/api/models/support_vector_machine/support_vector_classifier.py::SupportVectorClassifier.predict", "classicML/backend/python/kernels.py::Linear", "classicML/backend/python/optimizers.py::GradientDescent.forward", "classicML/backend/python/optimizers.py::NewtonMethod.forward"]}
{"id": "C304", "title": "Discriminant analysis survives rounding", "statement": "Computed in floating point, LinearDiscriminantAnalysis.predict names the class whose projected mean is nearest to the projected sample.", "quantifier": "all projections, means and samples of the format, all orders of summation", "why_tests_cant": "all values and all orders of summation; a test uses a few samples far from the boundary", "anchors": ["classicML/api/models/linear_model/linear_discriminant_analysis.py::LinearDiscriminantAnalysis.predict"]}
{"id": "C305", "title": "The margins of AdaBoost grow with training", "statement": "The fraction of training samples on which the trained AdaBoostClassifier is right by a margin (share of coefficients for the label minus share against it) of at most theta is bounded by the product over the rounds of 2 e^((1-theta)/2) (1-e)^((1+theta)/2), e being the weighted error of the round; it falls exponentially with the number of rounds when all errors are at most 1/2 - g and theta is small against g, so with enough rounds all samples have a margin above theta.", "quantifier": "all data sets with labels -1/+1, numbers of rounds, margins theta and edges g", "why_tests_cant": "all data sets and numbers of rounds; a test sees one training", "anchors": ["classicML/api/models/ensemble/boosting.py::AdaBoostClassifier.fit"]}
{"id": "C306", "title": "An ensemble is at most twice as bad as its members", "statement": "On every set of rows labelled -1 and +1, BaggingClassifier makes at most twice as many mistakes as its estimators on average, and AdaBoostClassifier at most twice as many as its estimators on average weighted by their coefficients; where all estimators are right the ensemble is right.", "quantifier": "all ensembles, all labelled sets of rows", "why_tests_cant": "all ensembles and all rows; a test sees one ensemble", "anchors": ["classicML/api/models/ensemble/bagging.py::BaggingClassifier.predict", "classicML/api/models/ensemble/boosting.py::AdaBoostClassifier.predict"]}
{"id": "C307", "title": "A decision tree on continuous attributes cuts the space into boxes", "statement": "A decision tree that asks about continuous attributes only - fitted, pruned or loaded - divides the rows into axis-parallel boxes, one per leaf and so at most one per training sample: every row is in exactly one box and gets the label of the box, and all rows between two rows of a box get the same answer.", "quantifier": "all trees without discrete tests, all rows", "why_tests_cant": "all rows of the space; a test asks for a few", "anchors": ["classicML/api/models/tree/decision_tree_classifier.py::DecisionTreeClassifier.predict"]}
{"id": "C308", "title": "Only the support vectors matter", "statement": "Multipliers of a SupportVectorClassifier that are optimal up to the tolerance stay so, with the same decision function, when samples that are not support vectors are left out of the training set, and when samples beyond the margin are added to it; a support vector cannot be left out.", "quantifier": "all training sets, labels -1/+1, penalties, tolerances, kernels (positive semidefinite for the second part), all subsets of the samples", "why_tests_cant": "all training sets and subsets; a test retrains on one", "anchors": ["classicML/backend/python/optimizers.py::SequentialMinimalOptimization.run", "classicML/api/models/support_vector_machine/support_vector_classifier.py::SupportVectorClassifier.fit"]}
{"id": "C309", "title": "Decision trees and contradictory samples", "statement": "DecisionTreeClassifier.fit on attributes that are not integers grows a tree exactly if equal rows have equal labels; two equal rows with different labels anywhere in the training set make it raise, a ValueError if all rows are equal. (With attributes tested by value contradictions are harmless, C301.)", "quantifier": "all training sets, criteria, recursion limits, tie-breaking rules; the converse for recursion limits at least the number of samples and exact midpoints", "why_tests_cant": "all training sets; a test has consistent data", "anchors": ["classicML/backend/python/tree/generators.py::DecisionTreeGenerator.tree_generate", "classicML/backend/python/tree/criteria.py::Criterion.optimal_division", "classicML/api/models/tree/decision_tree_classifier.py::DecisionTreeClassifier.fit"]}
{"id": "C310", "title": "The centroids of k-means stay in the convex hull of the data", "statement": "After KMeans.fit the centroids are the initial ones or each of them is the mean of at least one sample; every half-space, and every range of a coordinate, that contains the samples and the initial centroids contains the centroids.", "quantifier": "all data sets, numbers of epochs, tolerances, initial centroids", "why_tests_cant": "all data sets and histories of epochs", "anchors": ["classicML/api/models/cluster/k_means.py::KMeans.fit", "classicML/backend/python/ops.py::calculate_centroids"]}
{"id": "C311", "title": "RBF networks far from the data", "statement": "The output of RadialBasisFunctionNetwork.predict is bounded over all inputs, and far from all centres it is the output bias.", "quantifier": "all parameters the network can hold, all inputs", "why_tests_cant": "all inputs, arbitrarily far from the training data; a test evaluates a few rows", "anchors": ["classicML/api/models/neural_network/radial_basis_function_network.py::RadialBasisFunctionNetwork.predict", "classicML/backend/python/initializers.py::RBFNormal", "classicML/backend/python/optimizers.py::RadialBasisFunctionOptimizer"]}
{"id": "C312", "title": "Histories of a BP network: predict refuses until trained", "statement": "After any history of compile, fit, load_weights (completed or failed) on a new BackPropagationNeuralNetwork, predict raises ValueError exactly if no fit and no load_weights has completed; afterwards it always is the forward pass of the current parameters.", "quantifier": "all histories of calls, network structures, data, files, random draws", "why_tests_cant": "all histories of calls, including failed ones", "anchors": ["classicML/api/models/neural_network/back_propagation_neural_network.py::BackPropagationNeuralNetwork.fit", "classicML/api/models/neural_network/back_propagation_neural_network.py::BackPropagationNeuralNetwork.load_weights", "classicML/api/models/neural_network/back_propagation_neural_network.py::BackPropagationNeuralNetwork.predict"]}
{"id": "C313", "title": "Histories of a BP network: compile and fit, or load, start anew", "statement": "Calling compile and fit, or load_weights, on a used BackPropagationNeuralNetwork makes it answer as a new instance on which only those calls were made.", "quantifier": "all histories of calls, network structures, data, files, random draws", "why_tests_cant": "all histories of calls before the last; tests use new instances", "anchors": ["classicML/api/models/neural_network/back_propagation_neural_network.py::BackPropagationNeuralNetwork.compile", "classicML/api/models/neural_network/back_propagation_neural_network.py::BackPropagationNeuralNetwork.fit", "classicML/api/models/neural_network/back_propagation_neural_network.py::BackPropagationNeuralNetwork.load_weights"]}
{"id": "C314", "title": "Histories of a naive Bayes classifier: predict refuses until trained", "statement": "After any history of compile, fit, load_weights (completed or failed) on a new NaiveBayesClassifier, predict raises ValueError exactly if no fit and no load_weights has completed; afterwards the class probabilities are always present and the answer is computed from them and the stored entries.", "quantifier": "all histories of calls, data, files, rows", "why_tests_cant": "all histories of calls, including failed ones", "anchors": ["classicML/api/models/bayes/naive_bayes_classifier.py::NaiveBayesClassifier.fit", "classicML/api/models/bayes/naive_bayes_classifier.py::NaiveBayesClassifier.load_weights", "classicML/api/models/bayes/naive_bayes_classifier.py::NaiveBayesClassifier.predict"]}
{"id": "C315", "title": "Histories of a naive Bayes classifier: the last compile, fit or load decides", "statement": "The answers of a NaiveBayesClassifier are those of a new instance with the last compile and the last completed fit or load: compile and fit on a used instance, or load_weights, give the classifier of a new instance, and compiling a fitted classifier again gives the classifier compiled that way and fitted.", "quantifier": "all histories of calls, data, files, rows", "why_tests_cant": "all histories of calls before the last; tests use new instances", "anchors": ["classicML/api/models/bayes/naive_bayes_classifier.py::NaiveBayesClassifier.compile", "classicML/api/models/bayes/naive_bayes_classifier.py::NaiveBayesClassifier.fit", "classicML/api/models/bayes/naive_bayes_classifier.py::NaiveBayesClassifier.load_weights"]}
{"id": "C316", "title": "Histories of a decision tree classifier: predict refuses until trained", "statement": "After any history of compile, fit, load_weights (completed or failed) on a new DecisionTreeClassifier, predict raises ValueError exactly if no fit and no load_weights has completed; afterwards there always is a tree, and it is asked.", "quantifier": "all histories of calls, generators, pruners, data, files", "why_tests_cant": "all histories of calls, including failed ones", "anchors": ["classicML/api/models/tree/decision_tree_classifier.py::DecisionTreeClassifier.fit", "classicML/api/models/tree/decision_tree_classifier.py::DecisionTreeClassifier.load_weights", "classicML/api/models/tree/decision_tree_classifier.py::DecisionTreeClassifier.predict"]}
{"id": "C317", "title": "Histories of a decision tree classifier: compile and fit, or load, start anew", "statement": "Calling compile and fit, or load_weights, on a used DecisionTreeClassifier does what it does on a new instance: it completes in the same cases and gives the same answers.", "quantifier": "all histories of calls, generators, pruners, data, files", "why_tests_cant": "all histories of calls before the last; tests use new instances", "anchors": ["classicML/api/models/tree/decision_tree_classifier.py::DecisionTreeClassifier.compile", "classicML/api/models/tree/decision_tree_classifier.py::DecisionTreeClassifier.fit", "classicML/api/models/tree/decision_tree_classifier.py::DecisionTreeClassifier.load_weights"]}
{"id": "C318", "title": "Histories of Gaussian mixtures and RBF networks: predict refuses until trained", "statement": "After any history of compile, fit, load_weights (completed or failed) on a new GaussianMixture or RadialBasisFunctionNetwork, predict raises ValueError exactly if no fit and no load_weights has completed; afterwards all parameters are present.", "quantifier": "all histories of calls, data, files, random draws", "why_tests_cant": "all histories of calls, including failed ones", "anchors": ["classicML/api/models/cluster/gaussian_mixture.py::GaussianMixture.fit", "classicML/api/models/cluster/gaussian_mixture.py::GaussianMixture.predict", "classicML/api/models/neural_network/radial_basis_function_network.py::RadialBasisFunctionNetwork.fit", "classicML/api/models/neural_network/radial_basis_function_network.py::RadialBasisFunctionNetwork.predict"]}
{"id": "C319", "title": "Histories of Gaussian mixtures and RBF networks: compile and fit, or load, start anew", "statement": "Calling compile and fit, or load_weights, on a used GaussianMixture or RadialBasisFunctionNetwork does what it does on a new instance: it completes in the same cases and gives the same answers.", "quantifier": "all histories of calls, data, files, random draws", "why_tests_cant": "all histories of calls before the last; tests use new instances", "anchors": ["classicML/api/models/cluster/gaussian_mixture.py::GaussianMixture.fit", "classicML/api/models/cluster/gaussian_mixture.py::GaussianMixture.load_weights", "classicML/api/models/neural_network/radial_basis_function_network.py::RadialBasisFunctionNetwork.fit", "classicML/api/models/neural_network/radial_basis_function_network.py::RadialBasisFunctionNetwork.load_weights"]}
{"id": "C320", "title": "An interrupted save is noticed", "statement": "If save_weights is interrupted at any point, the path afterwards holds the old model or the new one, or at least a file that load_weights refuses; never a file that loads as another model.", "quantifier": "all models, instances, contents of the file system, and all points of interruption between two writes", "why_tests_cant": "every crash point; tests do not interrupt a save", "anchors": ["classicML/backend/io.py::initialize_weights_file", "classicML/api/models/neural_network/back_propagation_neural_network.py::BackPropagationNeuralNetwork.save_weights", "classicML/api/models/neural_network/back_propagation_neural_network.py::BackPropagationNeuralNetwork.load_weights", "classicML/api/models/neural_network/radial_basis_function_network.py::RadialBasisFunctionNetwork.load_weights"]}
{"id": "C321", "title": "A repeated attribute of a decision tree", "statement": "If an attribute of the training table repeats an earlier one, DecisionTreeClassifier answers every row that repeats the attribute as if the repetition were not in the table: the repetition is not asked about, or only where it is constant.", "quantifier": "all tables with a repeated column (discrete, continuous, or mixed), impurities, choices among ties of the majority, recursion limits, and query rows", "why_tests_cant": "all tables and trees; tests contain no repeated columns", "anchors": ["classicML/backend/python/tree/generators.py::DecisionTreeGenerator.tree_generate", "classicML/backend/python/tree/criteria.py::Criterion.optimal_division", "classicML/api/models/tree/decision_tree_classifier.py::DecisionTreeClassifier.fit"]}
{"id": "C322", "title": "A repeated attribute of stumps, two-level trees and AdaBoost", "statement": "If an attribute repeats an earlier one on the training rows, a DecisionStumpClassifier, a two-level tree and AdaBoost are the same, with the same coefficients and predictions for all rows, as without the repetition.", "quantifier": "all training sets with a repeated column, weights, numbers of estimators and query rows", "why_tests_cant": "all data sets and rounds", "anchors": ["classicML/backend/python/tree/generators.py::DecisionStumpGenerator.tree_generate", "classicML/backend/python/tree/generators.py::TwoLevelDecisionTreeGenerator.tree_generate", "classicML/api/models/ensemble/boosting.py::AdaBoostClassifier.fit"]}
{"id": "C323", "title": "An attribute given twice counts the square root of two times", "statement": "For a support vector classifier (linear, polynomial or RBF kernel, numeric gamma) and for logistic regression by gradient descent, giving an attribute twice has exactly the effect of multiplying it by the square root of two.", "quantifier": "all data sets, attributes, penalties, tolerances, permutations, learning rates, numbers of epochs, initial parameters and query rows", "why_tests_cant": "all data sets and numbers of epochs; the relation is between two whole trainings", "anchors": ["classicML/backend/python/kernels.py::Linear.__call__", "classicML/backend/python/kernels.py::RBF.__call__", "classicML/api/models/support_vector_machine/support_vector_classifier.py::SupportVectorClassifier.fit", "classicML/backend/python/optimizers.py::GradientDescent.run"]}
{"id": "C324", "title": "A repeated attribute does not stop the training", "statement": "Every model that can be trained on a table can be trained on the table with one of its attributes given twice.", "quantifier": "all data sets and repeated attributes, all numbers of epochs and initial parameters", "why_tests_cant": "all data sets; tests contain no repeated columns", "anchors": ["classicML/backend/python/optimizers.py::NewtonMethod.run", "classicML/backend/python/ops.py::get_w_v2", "classicML/api/models/cluster/gaussian_mixture.py::GaussianMixture.fit", "classicML/api/models/linear_model/linear_discriminant_analysis.py::LinearDiscriminantAnalysis.fit"]}
{"id": "C325", "title": "Histories of one-dependent estimators: predict refuses until trained", "statement": "After any history of compile, fit, load_weights (completed or failed) on a new SuperParentOneDependentEstimator or AveragedOneDependentEstimator, predict raises ValueError for every row exactly if no fit and no load_weights has completed; otherwise it answers from what is stored. fit with a compiled super-parent among the attribute names completes.", "quantifier": "all histories of calls, tables, labels, files, rows", "why_tests_cant": "all histories of calls, including failed ones", "anchors": ["classicML/api/models/bayes/semi_naive_bayes_classifiers.py::SuperParentOneDependentEstimator.fit", "classicML/api/models/bayes/semi_naive_bayes_classifiers.py::SuperParentOneDependentEstimator.load_weights", "classicML/api/models/bayes/semi_naive_bayes_classifiers.py::SuperParentOneDependentEstimator.predict", "classicML/api/models/bayes/semi_naive_bayes_classifiers.py::AveragedOneDependentEstimator.fit", "classicML/api/models/bayes/semi_naive_bayes_classifiers.py::AveragedOneDependentEstimator.load_weights", "classicML/api/models/bayes/semi_naive_bayes_classifiers.py::AveragedOneDependentEstimator.predict"]}
{"id": "C326", "title": "Histories of one-dependent estimators: the last compile and fit, or load, decides", "statement": "Calling compile and fit, or load_weights, on a used one-dependent estimator gives the answers of a new instance; a fit that raises does not change the answers; compile alone does not either.", "quantifier": "all histories of calls, tables, labels, files, rows", "why_tests_cant": "all histories of calls before the last; tests use new instances", "anchors": ["classicML/api/models/bayes/semi_naive_bayes_classifiers.py::SuperParentOneDependentEstimator.compile", "classicML/api/models/bayes/semi_naive_bayes_classifiers.py::SuperParentOneDependentEstimator.fit", "classicML/api/models/bayes/semi_naive_bayes_classifiers.py::SuperParentOneDependentEstimator.load_weights", "classicML/api/models/bayes/semi_naive_bayes_classifiers.py::AveragedOneDependentEstimator.compile", "classicML/api/models/bayes/semi_naive_bayes_classifiers.py::AveragedOneDependentEstimator.fit", "classicML/api/models/bayes/semi_naive_bayes_classifiers.py::AveragedOneDependentEstimator.load_weights", "classicML/api/models/bayes/semi_naive_bayes_classifiers.py::AveragedOneDependentEstimator.predict"]}
{"id": "C327", "title": "Evaluation in batches", "statement": "The accuracy (binary, categorical), the score and the cross-entropies over two batches of samples put together are the means of those of the batches, weighted with their sizes; the log-likelihoods add up.", "quantifier": "all pairs of batches of predictions and labels, of all sizes", "why_tests_cant": "ranges over all predictions, labels and sizes of the batches", "anchors": ["classicML/backend/python/metrics.py::BinaryAccuracy", "classicML/backend/python/metrics.py::CategoricalAccuracy", "classicML/backend/python/losses.py::BinaryCrossentropy", "classicML/backend/python/losses.py::CategoricalCrossentropy", "classicML/backend/python/losses.py::Crossentropy", "classicML/backend/python/losses.py::LogLikelihood", "classicML/api/models/base_model.py::BaseModel.score"]}
{"id": "C328", "title": "Mean squared error in batches", "statement": "The mean squared error over two batches of samples put together is the mean of the errors of the batches, weighted with their sizes.", "quantifier": "all pairs of batches of predictions and labels, of all sizes", "why_tests_cant": "ranges over all predictions, labels and sizes of the batches", "anchors": ["classicML/backend/python/losses.py::MeanSquaredError"]}
{"id": "C329", "title": "A repeated attribute of a naive Bayes classifier", "statement": "Giving an attribute twice does not change the answers of a NaiveBayesClassifier.", "quantifier": "all tables, labels, attributes, rows", "why_tests_cant": "ranges over all training tables and rows", "anchors": ["classicML/api/models/bayes/naive_bayes_classifier.py::NaiveBayesClassifier.fit", "classicML/api/models/bayes/naive_bayes_classifier.py::NaiveBayesClassifier._predict"]}
{"id": "C330", "title": "An incomplete weights file is reported as KeyError", "statement": "After any history, load_weights completes exactly if the file has all the attributes the model reads; otherwise it raises KeyError (AttributeError for an unknown kernel or pruning), having replaced exactly the attributes that are read before the first missing one, and the marks of training and loading are as before.", "quantifier": "all states of the instances, all subsets of attributes in the file, all values", "why_tests_cant": "ranges over all states of an instance and all incomplete files", "anchors": ["classicML/api/models/bayes/naive_bayes_classifier.py::NaiveBayesClassifier.load_weights", "classicML/api/models/bayes/semi_naive_bayes_classifiers.py::SuperParentOneDependentEstimator.load_weights", "classicML/api/models/bayes/semi_naive_bayes_classifiers.py::AveragedOneDependentEstimator.load_weights", "classicML/api/models/tree/decision_tree_classifier.py::DecisionTreeClassifier.load_weights", "classicML/api/models/cluster/gaussian_mixture.py::GaussianMixture.load_weights", "classicML/api/models/neural_network/radial_basis_function_network.py::RadialBasisFunctionNetwork.load_weights", "classicML/api/models/support_vector_machine/support_vector_classifier.py::SupportVectorClassifier.load_weights"]}
{"id": "C331", "title": "Misuse is refused without side effects", "statement": "After any history: a table with the wrong number of columns is refused by the fit of naive Bayes and super-parent estimators with ValueError; an unknown criterion or pruning, a pruner without validation set and a fit before compile are refused by decision trees with AttributeError; networks refuse fit before compile. Nothing has changed then.", "quantifier": "all states of the instances, all arguments", "why_tests_cant": "ranges over all states and arguments", "anchors": ["classicML/api/models/tree/decision_tree_classifier.py::DecisionTreeClassifier.compile", "classicML/api/models/tree/decision_tree_classifier.py::DecisionTreeClassifier.fit", "classicML/api/models/bayes/naive_bayes_classifier.py::NaiveBayesClassifier.fit", "classicML/api/models/neural_network/radial_basis_function_network.py::RadialBasisFunctionNetwork.fit"]}
{"id": "C332", "title": "The convex hull of a convex hull", "statement": "Passing the vertices of a computed hull to ConvexHull again gives the same hull; points inside do not change the convex set.", "quantifier": "all point sets for which a hull is returned, all results of the unstable sort", "why_tests_cant": "ranges over all point sets", "anchors": ["classicML/backend/python/ops.py::ConvexHull"]}
{"id": "C333", "title": "Two classes: softmax and sigmoid, and the logarithmic losses", "statement": "With two classes, softmax is the sigmoid of the difference of the inputs; the categorical cross-entropy of the one is the binary cross-entropy of the other and the mean of the loss of logistic regression; both decide alike.", "quantifier": "all inputs, all labels (also soft ones), all numbers of samples", "why_tests_cant": "ranges over all real inputs", "anchors": ["classicML/backend/python/activations.py::Softmax", "classicML/backend/python/activations.py::Sigmoid", "classicML/backend/python/losses.py::CategoricalCrossentropy", "classicML/backend/python/losses.py::BinaryCrossentropy", "classicML/backend/python/losses.py::LogLikelihood"]}
{"id": "C334", "title": "Small disturbances do not change a clear answer", "statement": "A trained model gives the same answer to a disturbed sample if the disturbance is smaller than a radius that follows from the model and the sample: half the lead of the nearest centroid, the distance from the boundary of a linear model, the value of the decision function over its steepest slope for the RBF kernel, the distance from the dividing points of a tree; training samples of a decision tree may move by half the smallest gap of each attribute.", "quantifier": "all trained models, all samples, all disturbances", "why_tests_cant": "ranges over all models, samples and disturbances", "anchors": ["classicML/backend/python/ops.py::get_cluster", "classicML/api/models/linear_model/logistic_regression.py::LogisticRegression", "classicML/api/models/linear_model/linear_discriminant_analysis.py::LinearDiscriminantAnalysis", "classicML/api/models/support_vector_machine/support_vector_classifier.py::SupportVectorClassifier", "classicML/api/models/tree/decision_tree_classifier.py::DecisionTreeClassifier", "classicML/backend/python/tree/generators.py::DecisionTreeGenerator"]}
{"id": "C335", "title": "One-dependent estimator with a constant super-parent", "statement": "If all samples have the same value of the super-parent, the one-dependent estimator answers every row like naive Bayes fitted on the other attributes; naive Bayes itself refuses the constant attribute.", "quantifier": "all tables with a constant first column, all labels with both classes, all rows, with and without smoothing", "why_tests_cant": "ranges over all tables and rows", "anchors": ["classicML/api/models/bayes/semi_naive_bayes_classifiers.py::SuperParentOneDependentEstimator", "classicML/api/models/bayes/naive_bayes_classifier.py::NaiveBayesClassifier"]}
{"id": "C336", "title": "k-means finds well separated clusters", "statement": "If the samples fall into groups such that samples of one group are at most D apart and samples of different groups more than 2D apart, and the initial centroids are one sample of each group, then training stops within two epochs, the labels are the groups, every centroid is the mean of its group up to the tolerance, and a new row within D of a group and more than 2D from the others is given that group. The condition on the start is needed.", "quantifier": "all samples, all groupings, all initial centroids taken one from each group, all tolerances", "why_tests_cant": "ranges over all separated data sets", "anchors": ["classicML/api/models/cluster/k_means.py::KMeans", "classicML/backend/python/ops.py::get_cluster", "classicML/backend/python/ops.py::calculate_centroids"]}
{"id": "C337", "title": "A naive Bayes classifier that is right on a sample and is trained on it too", "statement": "If a naive Bayes classifier answers a row by class c, then a classifier trained on the same data and on this row with label c answers it by c as well.", "quantifier": "all data sets, all rows of known values, with and without smoothing", "why_tests_cant": "ranges over all data sets and rows", "anchors": ["classicML/api/models/bayes/naive_bayes_classifier.py::NaiveBayesClassifier", "classicML/backend/python/ops.py::get_conditional_probability", "classicML/backend/python/ops.py::get_probability_density", "classicML/backend/python/ops.py::get_prior_probability"]}
{"id": "C338", "title": "The influence of Laplace smoothing fades", "statement": "Smoothing moves the estimate of a conditional probability towards the uniform probability by at most (number of values)/(samples of the class + number of values); a naive Bayes classifier without smoothing that answers a row without a tie is agreed with by the smoothed classifier trained on sufficiently many copies of the same data.", "quantifier": "all data sets, all rows with a clear answer, all sufficiently large numbers of copies", "why_tests_cant": "ranges over all data sets and states a limit", "anchors": ["classicML/api/models/bayes/naive_bayes_classifier.py::NaiveBayesClassifier", "classicML/backend/python/ops.py::get_conditional_probability", "classicML/backend/python/ops.py::get_prior_probability"]}
{"id": "C339", "title": "The regions of a Gaussian mixture", "statement": "If all components of a Gaussian mixture have the same covariance, the rows of every component form a convex set, and with equal coefficients every row belongs to the component whose mean is nearest in the Mahalanobis distance; with different covariances the region of a component need not be convex.", "quantifier": "all numbers of components and features, all positive coefficients, all invertible covariances, all rows", "why_tests_cant": "ranges over all parameters and rows", "anchors": ["classicML/api/models/cluster/gaussian_mixture.py::GaussianMixture", "classicML/backend/python/ops.py::get_gaussian_mixture_distribution_posterior_probability", "classicML/backend/python/ops.py::get_normal_distribution_probability_density", "classicML/backend/python/ops.py::get_cluster"]}
{"id": "C340", "title": "Linear discriminant analysis and the Mahalanobis distance", "statement": "A fitted linear discriminant analysis answers every row by the class whose centre is nearer to it in the Mahalanobis distance of the pooled within-class scatter (a tie is answered by 0), so it agrees with a two-component Gaussian mixture that has the class centres as means, equal coefficients and that scatter, up to a factor, as common covariance.", "quantifier": "all data sets with both classes and an invertible scatter, all rows, all positive factors, all decompositions an SVD may return", "why_tests_cant": "ranges over all data sets, rows and decompositions", "anchors": ["classicML/api/models/linear_model/linear_discriminant_analysis.py::LinearDiscriminantAnalysis", "classicML/backend/python/ops.py::get_w", "classicML/backend/python/ops.py::get_w_v2", "classicML/backend/python/ops.py::get_within_class_scatter_matrix", "classicML/api/models/cluster/gaussian_mixture.py::GaussianMixture"]}
{"id": "C341", "title": "The best constant forecast", "statement": "Among forecasts that give every sample the same answer, the cross-entropies are smallest exactly for the class frequencies, the mean squared error exactly for the mean label and binary accuracy is the frequency of the class that is forecast; if only one class occurs, no constant is best. Logistic regression trained by gradient descent with a small learning rate ends up at least as good as every constant forecast.", "quantifier": "all non-empty label arrays, all constants, all feature matrices, all learning rates below the stated bound, all positive tolerances", "why_tests_cant": "ranges over all labels, constants and features", "anchors": ["classicML/backend/python/losses.py::BinaryCrossentropy", "classicML/backend/python/losses.py::CategoricalCrossentropy", "classicML/backend/python/losses.py::MeanSquaredError", "classicML/backend/python/metrics.py::BinaryAccuracy", "classicML/api/models/linear_model/logistic_regression.py::LogisticRegression"]}
{"id": "C342", "title": "Decision trees and the order of the attributes", "statement": "Fitting a decision tree on the same data with the columns in another order gives the same tree with the attributes renumbered - the same questions, answers, leaf count and height - and therefore the same prediction for every row.", "quantifier": "all data sets, discrete and continuous attributes, all impurity measures and both criteria, all permutations of the columns, all rows to predict", "why_tests_cant": "ranges over all data sets, permutations and rows", "anchors": ["classicML/api/models/tree/decision_tree_classifier.py::DecisionTreeClassifier", "classicML/backend/python/tree/criteria.py::Gini", "classicML/backend/python/tree/criteria.py::Gain", "classicML/backend/python/tree/generators.py::DecisionTreeGenerator"]}
{"id": "C343", "title": "Decision stumps, two-level trees, AdaBoost and the order of the attributes", "statement": "Fitting a decision stump, a two-level tree or AdaBoost on the same samples with the columns in another order gives the same model with the attributes renumbered, and therefore the same prediction for every row.", "quantifier": "all data sets with labels plus and minus one, all weights, all permutations of the columns, all rows to predict", "why_tests_cant": "ranges over all data sets, permutations and rows", "anchors": ["classicML/api/models/tree/decision_tree_classifier.py::DecisionStumpClassifier", "classicML/api/models/tree/decision_tree_classifier.py::TwoLevelDecisionTreeClassifier", "classicML/backend/python/tree/generators.py::DecisionStumpGenerator", "classicML/backend/python/tree/generators.py::TwoLevelDecisionTreeGenerator", "classicML/backend/python/tree/criteria.py::WeightedGini"]}
