PROPS=[
("Logistic regression on several copies of the data",
 "Training a logistic regression on a training set given r >= 1 times over yields the same parameters as training on it once.",
 "all data, labels, initial parameters, learning rates, numbers of epochs and of copies",
 "all data sets, all numbers of copies",
 ['classicML/backend/python/optimizers.py::GradientDescent.run','classicML/backend/python/optimizers.py::NewtonMethod.run']),
("Linear discriminant analysis on several copies of the data",
 "Training an LDA model on a training set given r >= 1 times over yields the same class centres and the same predictions as training on it once; the projection vector is only rescaled.",
 "all data, labels, numbers of copies",
 "all data sets, all numbers of copies, three projection functions",
 ['classicML/api/models/linear_model/linear_discriminant_analysis.py::LinearDiscriminantAnalysis.fit','classicML/backend/python/ops.py::get_w','classicML/backend/python/ops.py::get_w_v2','classicML/backend/python/ops.py::get_within_class_scatter_matrix']),
("Clustering several copies of the data",
 "From the same start, k-means and the Gaussian mixture end with the same centroids (parameters) after the same number of epochs when the data are given r >= 1 times over, and every copy of a sample gets the cluster of the sample.",
 "all data, initial parameters, tolerances, numbers of epochs and of copies",
 "all data sets, all numbers of copies and epochs",
 ['classicML/api/models/cluster/k_means.py::KMeans.fit','classicML/api/models/cluster/gaussian_mixture.py::GaussianMixture.fit','classicML/backend/python/ops.py::calculate_centroids','classicML/backend/python/ops.py::calculate_covariances']),
("Decision tree from several copies of the data",
 "A training set given r >= 1 times over generates exactly the tree that it generates given once, with every criterion.",
 "all training sets, criteria, column types, numbers of copies",
 "all data sets, all numbers of copies",
 ['classicML/backend/python/tree/generators.py::DecisionTreeGenerator.tree_generate','classicML/backend/python/tree/criteria.py::Gini.__call__','classicML/backend/python/tree/criteria.py::Entropy.__call__']),
("Decision stump from several copies of the data",
 "A training set given r >= 1 times over trains the decision stump that it trains given once.",
 "all training sets with labels -1/+1, numbers of copies",
 "all data sets, all numbers of copies",
 ['classicML/backend/python/tree/generators.py::DecisionStumpGenerator.tree_generate']),
("Naive Bayes from several copies of the data",
 "A training set given r >= 1 times over trains a naive Bayes classifier that predicts the same class for every row as the one trained on it once.",
 "all training sets, rows, with and without smoothing, numbers of copies",
 "all data sets, all rows, all numbers of copies",
 ['classicML/api/models/bayes/naive_bayes_classifier.py::NaiveBayesClassifier.fit','classicML/backend/python/ops.py::get_conditional_probability','classicML/backend/python/ops.py::get_prior_probability']),
("Metrics and scalers on several copies of the data",
 "The accuracies of r >= 1 copies of predictions and labels are those of one copy; a scaler applied to r copies of a column stores the same statistics and returns r copies of the scaled column.",
 "all predictions, labels, columns and numbers of copies",
 "all arrays, all numbers of copies",
 ['classicML/backend/python/metrics.py::BinaryAccuracy.__call__','classicML/backend/python/metrics.py::CategoricalAccuracy.__call__','classicML/backend/python/data/preprocessing.py::StandardScaler.__call__','classicML/backend/python/data/preprocessing.py::MinMaxScaler.__call__']),
]
PLAN={"C254":"Gradient and Hessian of r copies are r times those of one; induction over the epochs. Gradient descent: exact equivalence with a learning rate r times as large.",
"C255":"The scatter matrix is multiplied by r, the projection vector by 1/r (C++: r); predictions are invariant under positive factors.",
"C256":"Means, covariances, coefficients and centroids are quotients of sums that are all multiplied by r; induction over the epochs.",
"C257":"Frequencies, sets of values and midpoints do not change; induction over the recursion of the generator.",
"C258":"Counter-example by evaluation; every value becomes a candidate point, hence minimality over all threshold rules.",
"C259":"Counts are multiplied by r; unsmoothed quotients are unchanged, smoothed ones exactly when uniform; a data set where the prediction flips.",
"C260":"Counting and sums of copies."}
STATUS={"C254":("partial","True with Newton's method (C254_newton). False with gradient descent: r copies act as a learning rate r times as large (C254_gradient_descent_partial), so one epoch agrees only if it does not move (C254_gradient_descent_false)."),
"C255":("proved","C255_inverse, C255_python, C255_cc, C255_predictions. For the two SVD versions the decomposition of a multiple is assumed to have the same singular vectors."),
"C256":("proved","C256_kmeans, C256_mixture."),
"C257":("proved","C257_gini, C257_entropy_gain; the majority label and the type of a column are assumed not to depend on the copies."),
"C258":("partial","False (C258_stump_false). Proved: copies never make it worse (C258_never_worse_partial); with two or more copies it is the best of all threshold rules (C258_copies_beat_every_rule_partial)."),
"C259":("partial","True without smoothing (C259_unsmoothed_partial). False with smoothing (C259_smoothed_false; the estimates agree iff C259_smoothed_iff)."),
"C260":("proved","C260_binary_accuracy, C260_categorical_accuracy, C260_standard, C260_min_max.")}
VIOL={"C254":"The gradient is a sum, not a mean, over the samples, so duplicating the data multiplies the effective learning rate.",
"C258":"The candidate points of a stump are midpoints of consecutive sorted values with repetitions, so that a rule which puts all samples on one side is only tried if the smallest value is repeated.",
"C259":"Laplace smoothing adds the same amount however many samples there are (expected of smoothing)."}
