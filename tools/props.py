import json
P=[]
def p(title, statement, quantifier, why, anchors):
    P.append(dict(id="C%02d"%(len(P)+1), title=title, statement=statement, quantifier=quantifier, why_tests_cant=why, anchors=anchors))
O="classicML/backend/python/ops.py"; OPT="classicML/backend/python/optimizers.py"
GEN="classicML/backend/python/tree/generators.py"; CRI="classicML/backend/python/tree/criteria.py"; PRU="classicML/backend/python/tree/pruners.py"
DS="classicML/backend/python/data/dataset.py"; PRE="classicML/backend/python/data/preprocessing.py"
# --- sampling / hull / small ops
p("Bootstrap samples are rows of the input with labels kept attached",
  "ops.bootstrap_sampling(x, y) returns exactly as many rows as x has; every returned (row, label) pair is an (x[i], y[i]) pair of the input; if y has a different length it raises ValueError and returns nothing.",
  "every x, y and every sequence of indices the random generator can draw",
  "the draw is random: tests see a handful of index sequences, the claim is about all of them and about all row contents.",
  [O+"::bootstrap_sampling"])
p("A computed convex hull is a closed, left-turning chain of input points",
  "ops.ConvexHull(points).hull starts and ends at the same point, consists only of input points, starts at a point of minimal x, and no three consecutive vertices of the open chain make a right turn.",
  "every finite non-empty set of planar points (at least two), any order, duplicates and collinear points included",
  "the scan is a loop over an unbounded list with an inner popping loop; convexity is an invariant of every prefix.",
  [O+"::ConvexHull.compute_convex_hull", O+"::ConvexHull._get_cross_product", O+"::ConvexHull._get_slope"])
p("The convex hull encloses every input point",
  "every input point lies on or to the left of every edge of the closed polygon returned by ops.ConvexHull.",
  "every finite set of planar points",
  "containment quantifies over all points and all edges for all inputs; it depends on tie-breaking in two sorts.",
  [O+"::ConvexHull.compute_convex_hull"])
p("clip_alpha is the projection onto [low, high]",
  "with low <= high, ops.clip_alpha(alpha, low, high) lies in [low, high], equals alpha when alpha already does, is the closest point of the interval to alpha, is idempotent and monotone; the C++ implementation returns the same value.",
  "every alpha, low <= high in a linearly ordered domain",
  "real-valued interval endpoints and ties at the boundary form an unbounded domain.",
  [O+"::clip_alpha", "classicML/backend/cc/ops/ops.cc::ClipAlpha"])
p("type_of_target classifies every target array by the documented rule",
  "ops.type_of_target returns 'unknown' for object or more-than-2-D arrays, 'continuous' iff some float entry is not an integer, 'binary'/'multiclass' for column targets with exactly two / more than two distinct values, 'multilabel' for wider 2-D targets with at least two distinct values, and 'unknown' otherwise.",
  "every target array: any dtype kind, any number of dimensions, any number of rows and values",
  "the rule depends on the number of distinct values of arrays of any length and on overlapping branch conditions.",
  [O+"::type_of_target"])
# --- SMO / SVC
p("SVC training always stays in the dual feasible set",
  "during and after SVC/SMO training every Lagrange multiplier lies in [0, C] and the multipliers weighted by the +-1 labels sum to zero.",
  "every dataset, every kernel function (even asymmetric), every C >= 0, tolerance, number of epochs and every outcome of the random partner permutations",
  "it is an invariant of an unbounded, randomised optimisation history.",
  [OPT+"::SequentialMinimalOptimization.run", OPT+"::SequentialMinimalOptimization._update_alpha"])
p("The support vectors reported by SVC are exactly the samples with positive multiplier",
  "the index list returned by SMO is the strictly increasing list of the indices whose final multiplier is > 0, and the multipliers, labels and rows returned beside it are those of these indices, in that order.",
  "every dataset, kernel, C, tolerance, epochs and random history",
  "the masks are maintained incrementally beside the multipliers; agreement is an invariant over all histories.",
  [OPT+"::SequentialMinimalOptimization.run", OPT+"::SequentialMinimalOptimization._update_alpha_cache"])
p("SMO stops after at most `epochs` passes, and stops early only when no pair can be improved",
  "with epochs >= 0 at most that many passes are executed; an early stop happens only right after a pass over all samples in which no multiplier changed, and then each sample either satisfies its KKT test within tol or admits no partner j for which the two-variable update makes progress.",
  "every dataset, kernel, C, tol, epochs and every family of permutations",
  "it is a statement about the final state of an arbitrarily long run with interleaved full and partial passes.",
  [OPT+"::SequentialMinimalOptimization.run", OPT+"::SequentialMinimalOptimization._update_parameters"])
p("The second SMO multiplier maximises the error gap among non-bound samples",
  "ops.select_second_alpha returns a non-bound index whose cached error differs most from the given error (the first such index on ties) together with its cached error; the C++ implementation returns the same index.",
  "every error value, error cache and non-empty non-bound mask",
  "caches of every length and all tie patterns.",
  [O+"::select_second_alpha", "classicML/backend/cc/ops/ops.cc::SelectSecondAlpha"])
p("Each accepted SMO update increases the dual objective",
  "a successful two-variable update never decreases the SVM dual objective sum(alpha) - 1/2 sum alpha_i alpha_j y_i y_j k(x_i,x_j), and strictly increases it by at least eta/2 * (change)^2 >= eta/2 * 1e-10.",
  "every symmetric kernel, dataset, state reachable in training",
  "the claim is about a quadratic form of any size and about cached values that may be stale.",
  [OPT+"::SequentialMinimalOptimization._update_alpha", O+"::calculate_error"])
p("The SMO error cache holds the true prediction errors of the non-bound samples",
  "between updates, for every sample whose multiplier is strictly between 0 and C, the cached error equals decision_function(x_i) - y_i under the current multipliers and bias.",
  "every reachable training state",
  "cache coherence is a history invariant.",
  [OPT+"::SequentialMinimalOptimization._update_error_cache", OPT+"::SequentialMinimalOptimization._update_alpha", O+"::calculate_error"])
# --- kmeans
p("KMeans.predict assigns every sample to a nearest centroid",
  "for each row KMeans.predict returns the smallest index of a centroid at minimal Euclidean distance.",
  "every set of samples and every non-empty list of centroids, ties included",
  "real-valued data of any size and dimension.",
  [O+"::get_cluster", O+"::calculate_euclidean_distance", "classicML/api/models/cluster/k_means.py::KMeans.predict"])
p("When KMeans stops early its labels and centroids are mutually consistent",
  "if fit leaves the loop before the epoch limit, the stored labels are the nearest-centroid labels of the stored centroids (so predict on the training data reproduces them) and recomputing the cluster means moves no coordinate by more than tol.",
  "every dataset, initial centroids, tol and epoch limit",
  "fixpoint condition of a loop of any length.",
  ["classicML/api/models/cluster/k_means.py::KMeans.fit", O+"::compare_differences", O+"::calculate_centroids"])
p("A KMeans iteration never increases the within-cluster sum of squares",
  "replacing labels by nearest centroids and then centroids by cluster means does not increase the sum of squared distances of samples to their centroid.",
  "every dataset, every set of centroids for which no cluster becomes empty",
  "Lloyd monotonicity is an inequality over all real data sets.",
  ["classicML/api/models/cluster/k_means.py::KMeans.fit", O+"::calculate_centroids", O+"::get_cluster"])
p("KMeans.fit always yields n_clusters centroids",
  "after fit the model holds exactly n_clusters finite centroids.",
  "every dataset with at least n_clusters rows and every initial centroid choice fit can make",
  "an empty cluster can appear at any iteration for particular real data.",
  [O+"::calculate_centroids", O+"::init_centroids", "classicML/api/models/cluster/k_means.py::KMeans.fit"])
p("Initial centroids are rows of the data, the requested rows, or exactly the given matrix; anything else is refused",
  "ops.init_centroids returns n_clusters rows of x when no init is given, x[init] for a valid index list, the given (n_clusters, n_features) matrix verbatim, raises ValueError for wrong length / out-of-range / wrong shape and TypeError for a non-array.",
  "every x, n_clusters, init argument and random draw",
  "shape- and value-dependent dispatch over unbounded inputs.",
  [O+"::init_centroids"])
# --- GMM
p("Gaussian-mixture posteriors are probability distributions",
  "each row of the posterior matrix is non-negative and sums to 1 whenever the total density of the sample is non-zero.",
  "every sample set, positive component densities and non-negative mixture weights",
  "sums over any number of components and real values.",
  [O+"::get_gaussian_mixture_distribution_posterior_probability"])
p("Gaussian-mixture weights stay a probability vector through training",
  "after any number of EM steps the mixture coefficients are non-negative and sum to 1.",
  "every dataset, number of components, positive density function and number of epochs, from any initial probability vector",
  "invariant over an unbounded training history.",
  [O+"::calculate_mixture_coefficient", "classicML/api/models/cluster/gaussian_mixture.py"])
p("Gaussian-mixture means are convex combinations of the samples",
  "after an EM step each component mean is a convex combination of the samples, hence each coordinate lies between the minimum and maximum of that coordinate over the data.",
  "every dataset and non-negative posterior with positive column sums",
  "inequality over all real matrices.",
  [O+"::calculate_means"])
p("Gaussian-mixture covariances are symmetric positive semidefinite",
  "after an EM step every component covariance matrix is symmetric and positive semidefinite.",
  "every dataset, means and non-negative posterior with positive column sums",
  "definiteness quantifies over every vector.",
  [O+"::calculate_covariances"])
# --- decision tree
p("A fitted decision tree predicts without failure on values seen in training",
  "predict returns a label for every row whose discrete attribute values all occur in the corresponding training column; the only failure is a KeyError for an unseen discrete value on the path.",
  "every tree the generator can build, every row",
  "trees of any shape and depth.",
  [GEN+"::DecisionTreeGenerator.tree_generate", "classicML/api/models/tree/decision_tree_classifier.py"])
p("Decision-tree predictions are labels from the training data",
  "every leaf category, hence every prediction, is one of the labels in the training target.",
  "every training set, criterion and row",
  "trees of any shape.",
  [GEN+"::DecisionTreeGenerator.tree_generate"])
p("An unpruned decision tree classifies a consistent discrete training set perfectly",
  "if all attributes are discrete and no two training rows with equal attributes have different labels, the unpruned fitted tree predicts the training label of every training row, whatever split attribute the criterion prefers.",
  "every consistent discrete training set, every criterion",
  "induction over unbounded trees and data.",
  [GEN+"::DecisionTreeGenerator.tree_generate"])
p("The chosen split is optimal for the criterion",
  "optimal_division returns an attribute whose criterion value is minimal (gini, entropy) or maximal (information gain) over all candidate attributes, the first one on ties, together with the dividing point of that attribute; for a continuous attribute the dividing point is a best midpoint of adjacent distinct values.",
  "every dataset and attribute order",
  "an optimum over data-dependent candidate sets of any size.",
  [CRI+"::Criterion.optimal_division", CRI+"::Criterion.get_value", CRI+"::Gain.optimal_division"])
p("Recorded tree statistics are the true leaf count and height",
  "after tree generation num_of_leaves equals the number of leaves of the tree and height equals its depth.",
  "every generated tree",
  "structural induction over all tree shapes.",
  [GEN+"::DecisionTreeGenerator.tree_generate"])
p("Post-pruning never lowers validation accuracy",
  "the number of validation rows classified correctly by the post-pruned tree is at least that of the original tree.",
  "every tree and validation set",
  "bottom-up rewriting of trees of any shape; local decisions must compose globally.",
  [PRU+"::PostPruner.__call__", PRU+"::PostPruner.calculation_accuracy"])
p("Post-pruning keeps the leaf count and height correct",
  "after post-pruning num_of_leaves and height again equal the number of leaves and depth of the pruned tree.",
  "every tree and validation set",
  "structural induction over all trees.",
  [PRU+"::PostPruner.__call__"])
p("Pre-pruning works on trees with continuous attributes and keeps statistics correct",
  "pre-pruning completes on every generated tree and leaves num_of_leaves and height equal to the number of leaves and depth of the pruned tree.",
  "every tree and validation set",
  "structural induction over all trees; the failing branch depends on the run-time value of a dividing point.",
  [PRU+"::PrePruner.__call__"])
# --- ensembles
p("The decision stump minimises training error over all its candidates",
  "the stump returned by the stump generator has the least number of training errors among all (feature, threshold at a midpoint of consecutive sorted distinct values, direction) candidates, and its training accuracy is at least 1/2 on +-1 labels.",
  "every data set with at least two distinct values in some column",
  "optimum over an unbounded data-dependent search.",
  [GEN+"::DecisionStumpGenerator.tree_generate", GEN+"::DecisionStumpGenerator.evaluate"])
p("Two-level AdaBoost trees have depth at most two and predict +-1",
  "a two-level tree has at most four leaves and depth at most two, predicts only +1 or -1, and each leaf is the weighted majority of the samples reaching it (ties give -1).",
  "every weighted sample set",
  "weights and data are real-valued and unbounded.",
  [GEN+"::TwoLevelDecisionTreeGenerator.tree_generate", GEN+"::TwoLevelDecisionTreeGenerator.choose_feature_to_divide"])
p("A two-level tree's weighted training error is at most one half",
  "the total weight of training samples misclassified by the two-level tree is at most half the total weight, so AdaBoost's error > 0.5 stop never fires with this learner.",
  "every weighted sample set with non-negative weights",
  "inequality over all real weights and all tree outcomes.",
  [GEN+"::TwoLevelDecisionTreeGenerator.tree_generate", "classicML/api/models/ensemble/boosting.py"])
p("AdaBoost keeps a positive, normalised sample distribution",
  "after any number of boosting rounds the sample weights are positive and sum to 1, and the numbers of stored coefficients and estimators are equal and at most n_estimators.",
  "every data set, every behaviour of the base learner, any number of rounds",
  "invariant over an unbounded history.",
  ["classicML/api/models/ensemble/boosting.py::AdaBoostClassifier.fit"])
p("AdaBoost reweighting makes the last learner exactly uninformative",
  "after every round that does not end training (its weighted error lies between 1e-36 and 1/2), the weighted error of that round's learner under the new distribution is exactly 1/2 (in exact arithmetic).",
  "every distribution, labels and predictions in {-1,+1}",
  "an identity over the reals involving exp and log.",
  ["classicML/api/models/ensemble/boosting.py::AdaBoostClassifier.fit"])
p("AdaBoost training error is bounded by the product of the normalisers",
  "the fraction of training samples misclassified by the weighted vote is at most the product over rounds of 2*sqrt(max(eps, 1e-36)*(1-eps)).",
  "every data set, base learner and number of rounds, labels and learners +-1, coefficients of positive sum",
  "exponential bound proved by induction over rounds.",
  ["classicML/api/models/ensemble/boosting.py"])
p("AdaBoost predicts the sign of the weighted vote",
  "predict returns +1 or -1 for every row, equal to the sign of the coefficient-weighted vote of the estimators.",
  "every set of estimators and coefficients with positive sum, every row",
  "real-valued votes and ties.",
  ["classicML/api/models/ensemble/boosting.py::AdaBoostClassifier.predict"])
p("Bagging predicts the majority of its estimators",
  "predict returns +1 iff at least as many estimators vote +1 as -1 and -1 otherwise; fit adds exactly n estimators, trained with seeds s, s+1, ....",
  "every number of estimators and every row",
  "any number of voters and all tie patterns.",
  ["classicML/api/models/ensemble/bagging.py::BaggingClassifier"])
# --- bayes
p("Class priors form a probability distribution",
  "get_prior_probability returns two values in [0,1] summing to 1, equal to the class frequencies, or to the Laplace-corrected frequencies when smoothing is on; the C++ implementation returns the same values.",
  "every non-empty 0/1 label vector",
  "label vectors of any length.",
  [O+"::get_prior_probability", "classicML/backend/cc/ops/ops.cc::GetPriorProbability"])
p("Smoothed conditional probabilities are positive and sum to one",
  "for a fixed class the Laplace-smoothed conditional probabilities of the values of an attribute are positive and sum to 1.",
  "every column, every class, any number of values",
  "sums over value sets of any size.",
  [O+"::get_conditional_probability"])
p("One-dependent joint priors sum to one",
  "the (class, super-parent value) priors of get_dependent_prior_probability are positive and sum to 1 over the two classes and all values.",
  "every data set, attribute with any number of values",
  "sums over value sets of any size.",
  [O+"::get_dependent_prior_probability"])
p("Density estimates are strictly positive",
  "get_probability_density never returns 0 or a negative number for non-degenerate variance, so taking its logarithm is always possible.",
  "every sample value, mean and variance > 0",
  "underflow behaviour over all reals.",
  [O+"::get_probability_density", O+"::get_normal_distribution_probability_density"])
p("Naive Bayes attributes each conditional count to the right attribute value",
  "after NaiveBayes.fit the conditional probability stored for a value of a discrete attribute is computed from the number of class samples having that value.",
  "every training column",
  "depends on the order of first occurrence versus frequency in arbitrarily long columns.",
  ["classicML/api/models/bayes/naive_bayes_classifier.py"])
p("Naive Bayes predicts the more probable class",
  "predict returns the class with the larger posterior score, and with probability=True the larger of the two returned numbers belongs to that class.",
  "every fitted parameter set and every row",
  "real-valued scores and ties.",
  ["classicML/api/models/bayes/naive_bayes_classifier.py::NaiveBayesClassifier.predict"])
p("Refitting a one-dependent estimator forgets the previous data",
  "after fit on data B, the predictions of a SuperParentOneDependentEstimator do not depend on a data set A it was fitted on before.",
  "every pair of data sets",
  "state left over from an earlier call; histories are unbounded.",
  ["classicML/api/models/bayes/semi_naive_bayes_classifiers.py::SuperParentOneDependentEstimator"])
# --- LDA / linear
p("The within-class scatter matrix is symmetric positive semidefinite",
  "get_within_class_scatter_matrix returns a symmetric positive semidefinite matrix, equal to the sum over both classes of the outer products of the deviations from the class mean.",
  "every two-class data set",
  "definiteness quantifies over every vector.",
  [O+"::get_within_class_scatter_matrix"])
p("The LDA direction is S_w^-1 (mu0 - mu1)",
  "the projection vector computed for linear discriminant analysis solves S_w w = mu0 - mu1 when S_w is invertible.",
  "every invertible S_w and means",
  "identity over all real matrices.",
  [O+"::get_w_v2", O+"::get_w"])
p("LDA predicts the class with the nearer projected centre",
  "predict returns 1 iff the projection of the row is strictly nearer to the projected centre of class 1 than to that of class 0; rescaling w does not change any prediction.",
  "every row, projection and centres",
  "real-valued data, ties.",
  ["classicML/api/models/linear_model/linear_discriminant_analysis.py::LinearDiscriminantAnalysis.predict"])
p("Logistic-regression updates follow the true gradient and Hessian",
  "the backward step of the gradient-descent and Newton optimisers equals the derivative of the negative log-likelihood with respect to the parameters, and the Newton Hessian equals the second derivative.",
  "every data set, labels in {0,1}, every parameter vector",
  "derivative identities over real vectors of any dimension.",
  [OPT+"::GradientDescent.backward", OPT+"::NewtonMethod.backward"])
p("The logistic-regression Hessian is positive semidefinite",
  "the Hessian used by the Newton optimiser is symmetric positive semidefinite, so the loss is convex.",
  "every data set and parameter vector",
  "definiteness quantifies over every direction.",
  [OPT+"::NewtonMethod"])
# --- NN
p("Network parameter shapes are always compatible",
  "for every layer list the initialisers produce W_l with shape (n_l, n_{l-1}) and b_l with shape (1, n_l), and forward propagation never meets incompatible shapes and outputs one row of n_L values per sample.",
  "every list of at least two layer sizes and every batch size",
  "layer lists of any length.",
  ["classicML/backend/python/initializers.py", OPT+"::StochasticGradientDescent.forward"])
p("Softmax outputs are probability vectors",
  "every row of the softmax activation is positive, sums to 1, and is invariant under adding a constant to the row.",
  "every non-empty real row",
  "real-valued identities over rows of any length.",
  ["classicML/backend/python/activations.py::Softmax"])
p("Softmax cross-entropy back-propagation uses the true gradient",
  "the output-layer error used for multi-class networks, prediction - one-hot label, is the gradient of the categorical cross-entropy of the softmax with respect to the logits.",
  "every logit row and one-hot label",
  "derivative identity over real vectors of any length.",
  [OPT+"::StochasticGradientDescent.backward"])
p("Adam's second moments stay non-negative and its bias-corrected first moment is a weighted mean of past gradients",
  "at every step v >= 0 so the denominator sqrt(v)+eps is positive, and m divided by (1 - beta1^t) is a convex combination of the gradients seen so far.",
  "every gradient history and 0 <= beta < 1",
  "histories of any length.",
  [OPT+"::Adam"])
p("RBF-network updates follow the true gradient",
  "the updates of the RBF-network optimiser are the partial derivatives of the squared-error loss with respect to w, b and beta.",
  "every data set and parameter set",
  "derivative identities over the reals.",
  [OPT+"::RadialBasisFunctionOptimizer.backward"])
# --- callbacks, progress bar
p("History holds exactly one record per trained epoch",
  "after any sequence of fits with epochs e1..ek the History callback holds e1+...+ek loss and metric records in training order.",
  "every sequence of fit calls",
  "histories of any length.",
  ["classicML/backend/python/callbacks.py::History", OPT+"::_record_callbacks"])
p("The progress bar has constant width",
  "the progress bar drawn for epoch e of n has exactly 25 cells for every 1 <= e <= n, fills monotonically and is full exactly at the last epoch.",
  "every n >= 1 and 1 <= e <= n",
  "integer rounding over all pairs (e, n).",
  ["classicML/backend/python/_utils.py::ProgressBar"])
# --- metrics, losses
p("Binary accuracy is the fraction of correct predictions",
  "BinaryAccuracy lies in [0,1] and equals the fraction of rows where the thresholded prediction equals the label.",
  "every prediction and label vector",
  "vectors of any length and arbitrary reals.",
  ["classicML/backend/python/metrics.py::BinaryAccuracy"])
p("Categorical accuracy is the fraction of rows with matching argmax",
  "CategoricalAccuracy lies in [0,1], equals the fraction of rows whose predicted argmax equals the label argmax, and is 1 iff all rows match.",
  "every prediction and one-hot label matrix",
  "matrices of any size.",
  ["classicML/backend/python/metrics.py::CategoricalAccuracy"])
p("Cross-entropy losses are non-negative and vanish only for certain predictions",
  "BinaryCrossentropy, CategoricalCrossentropy and LogLikelihood are >= 0 for probabilities in (0,1) / any logits, and LogLikelihood equals n times the binary cross-entropy of the sigmoid outputs.",
  "every label and prediction matrix",
  "real inequalities over any number of samples.",
  ["classicML/backend/python/losses.py"])
p("Mean squared error is zero only for perfect predictions",
  "MeanSquaredError(y_pred, y_true) is non-negative, is zero iff y_pred = y_true, and equals half the mean of squared differences.",
  "every pair of equal-length vectors",
  "real identities over any number of samples.",
  ["classicML/backend/python/losses.py::MeanSquaredError"])
p("Kernels are symmetric and yield positive semidefinite Gram matrices",
  "every built-in kernel is symmetric; linear Gram matrices are positive semidefinite; RBF/Gaussian values lie in (0,1], are 1 on equal rows and, for gamma > 0, only there; the curvature eta used by SMO is non-negative for linear and RBF kernels.",
  "every pair of vectors, every dimension, every gamma > 0",
  "real inequalities over all vectors.",
  ["classicML/backend/python/kernels.py"])
# --- preprocessing
p("Min-max scaling maps onto [0,1] and is invertible",
  "for one-dimensional data with at least two distinct values MinMaxScaler outputs lie in [0,1], attain both ends, preserve order, and inverse(call(x)) = x.",
  "every non-constant finite vector",
  "real vectors of any length.",
  [PRE+"::MinMaxScaler"])
p("Standard scaling centres the data and is invertible",
  "StandardScaler outputs have mean 0 and variance 1, and inverse(call(x)) = x, for data with positive variance.",
  "every non-constant finite vector",
  "real vectors of any length.",
  [PRE+"::StandardScaler"])
p("One-hot encoding is faithful",
  "OneHotEncoder outputs exactly one 1 per row, in the column that class_indices assigns to the label; equal labels get equal rows and different labels different rows; the labels can be recovered.",
  "every label list",
  "label lists of any length and content.",
  [PRE+"::OneHotEncoder", PRE+"::DummyEncoder"])
p("Max-margin encoding maps the two classes to -1 and +1",
  "MaxMarginEncoder outputs only -1 and +1, consistently with class_indices, and is injective on classes for two-class data.",
  "every label list with at most two classes",
  "label lists of any length.",
  [PRE+"::MaxMarginEncoder"])
p("The imputer fills every missing entry and changes nothing else",
  "after Imputer every entry is present, entries that were present are unchanged, numeric columns are filled with the column mean and other columns with a most frequent value.",
  "every table in which each column has at least one present value",
  "tables of any size.",
  [PRE+"::Imputer"])
p("Dataset label encodings agree with class_indices",
  "for binary data sets the encoded label of each sample equals class_indices[original label].",
  "every label column",
  "label contents of any kind.",
  [DS+"::Dataset"])
p("Categorical relabelling is injective",
  "replacing class labels by their class index never merges two classes.",
  "every list of integer labels",
  "sequential in-place replacement can collide for particular values.",
  [DS+"::Dataset._encoder_label", DS+"::Dataset._preprocessing_categorical_labels"])
# --- IO, factories
p("Weights files are accepted exactly for the same model and supported versions",
  "loading succeeds the header check iff the stored model name equals the loading model's and both versions are at least the minimum; in particular a file written by this version is accepted by the same model and rejected by any other.",
  "every model name and version string",
  "string parsing over all version numbers.",
  ["classicML/backend/io.py::initialize_weights_file", "classicML/backend/io.py::_parse"])
p("Getter functions accept exactly the documented names",
  "get_optimizer, get_kernel, get_loss, get_metric, get_initializer, get_criterion and get_pruner return an object of the class documented for each accepted name, and raise AttributeError for any other string.",
  "every string",
  "the set of strings is infinite.",
  ["classicML/backend/training.py"])
p("Untrained models refuse to predict",
  "calling predict before fit or load_weights raises ValueError; after a successful fit or load it does not.",
  "every sequence of compile / fit / load / predict calls",
  "call histories are unbounded.",
  ["classicML/api/models/base_model.py", "classicML/api/models"])
def add_more():
    pass
try:
    exec(open('/tmp/gen/more.py').read())
except FileNotFoundError:
    pass
with open('/verif/properties.jsonl','w') as f:
    for q in P: f.write(json.dumps(q,ensure_ascii=False)+"\n")
print(len(P))
for q in P: print(q['id'],q['title'])
