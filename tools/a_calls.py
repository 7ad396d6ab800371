PROPS=[
("predict answers with one prediction per row, in any container of rows",
 "For every trained model, a batch of rows gets a sequence with one prediction per row, in the order of the rows, and the same prediction whether the rows come as a list of lists, a 2-D array or a DataFrame, for any number of rows including one.",
 "all trained models, all batches of rows, all containers of rows",
 "It must hold for every batch, every number of rows and every container; tests call predict with an array of several rows.",
 ["classicML/api/models/decision_tree_classifier.py::predict","classicML/api/models/logistic_regression.py::predict","classicML/api/models/linear_discriminant_analysis.py::predict","classicML/api/models/support_vector_classifier.py::predict","classicML/api/models/cluster/clusters.py::predict","classicML/api/models/bayes/naive_bayes_classifier.py::predict","classicML/api/models/ensemble/boosting.py::predict","classicML/api/models/ensemble/bagging.py::predict"]),
("One sample given as a flat vector is one sample",
 "For every trained model, a single sample handed to predict as a flat list, a 1-D array or a Series gets exactly one prediction, the prediction of that sample.",
 "all trained models, all samples, all flat containers",
 "It must hold for every sample of every width; broadcasting makes some wrong shapes look right for particular widths.",
 ["classicML/api/models/support_vector_classifier.py::predict","classicML/api/models/neural_network/rbf.py::predict","classicML/api/models/logistic_regression.py::predict","classicML/api/models/decision_tree_classifier.py::predict","classicML/backend/python/kernels.py::RBF.__call__"]),
("The attributes of a DataFrame are identified by their names",
 "If a model was built with attribute names, then two DataFrames with the same values under these names, in whatever order and among whatever other columns, get the same answers from fit and from predict.",
 "all models with attribute names, all pairs of DataFrames holding the same data",
 "It must hold for every order of the columns; tests use the order of the training file.",
 ["classicML/api/models/decision_tree_classifier.py::fit","classicML/api/models/decision_tree_classifier.py::predict","classicML/api/models/bayes/naive_bayes_classifier.py::predict","classicML/api/models/bayes/semi_naive_bayes_classifiers.py::predict"]),
("score is the fraction of correct rows, for labels in any container and any number of rows",
 "For every model and every labelled set of rows, score is the fraction of rows predicted correctly, whether the labels are a list, an array (flat, a column, one-hot), a Series or a DataFrame, for any number of rows including one.",
 "all models, all predictions, all label vectors and their containers",
 "It must hold for all containers and sizes; tests score arrays of many rows.",
 ["classicML/backend/python/metrics.py::Metric","classicML/backend/python/metrics.py::Accuracy.__call__","classicML/backend/python/metrics.py::BinaryAccuracy.__call__","classicML/backend/python/metrics.py::CategoricalAccuracy.__call__","classicML/api/models/base_model.py::score"]),
("A kernel called with two sets of rows returns their kernel matrix",
 "For all sets of rows of the same width, each kernel returns the matrix whose entry (i, j) is the kernel value of row i of the second and row j of the first argument.",
 "all kernels, all pairs of sets of rows, all parameters",
 "It must hold for all sizes; the training code only ever calls kernels with one row against many.",
 ["classicML/backend/python/kernels.py::Linear.__call__","classicML/backend/python/kernels.py::Polynomial.__call__","classicML/backend/python/kernels.py::RBF.__call__","classicML/backend/python/kernels.py::Sigmoid.__call__"]),
("The super-parent estimator depends on the attribute that was compiled, or refuses",
 "After any sequence of compile and fit calls, fitting a super-parent one-dependent estimator adds the estimates with the column of the compiled name as super-parent; a name that is no column is refused and the object is left unchanged.",
 "all sequences of compile and fit calls, all tables and names",
 "It is about all call histories: what an earlier fit left behind decides.",
 ["classicML/api/models/bayes/semi_naive_bayes_classifiers.py::SuperParentOneDependentEstimator.compile","classicML/api/models/bayes/semi_naive_bayes_classifiers.py::SuperParentOneDependentEstimator.fit"]),
("The names of the attributes do not influence the prediction of the super-parent estimator",
 "For all stored estimates and all rows, the posterior of a class is the product of its prior and of the factor of each attribute at the value of the row in the same position, whatever the attributes are called.",
 "all attribute names, stored estimates and rows",
 "It must hold for every choice of names, including names used inside the stored dictionary; tests use the names of one file.",
 ["classicML/api/models/bayes/semi_naive_bayes_classifiers.py::SuperParentOneDependentEstimator._calculate_posterior_probability","classicML/api/models/bayes/semi_naive_bayes_classifiers.py::SuperParentOneDependentEstimator.fit"]),
]
PLAN={
"C160":"Model.Calls: the containers (list, lists, 1-D and 2-D array, Series, DataFrame), the conversions np.asarray / pd.DataFrame and the row loop of every predict; the value of one row is a parameter, except for trees and logistic regression; list induction.",
"C161":"Model.Calls, the branches for one-dimensional arguments and the broadcasting of the kernels and of RBF networks.",
"C162":"Model.Calls: selection of columns by name; a table as names and rows; the tree model for the witness.",
"C163":"Model.Score: Metric.__call__ by the shape of the prediction and the container of the labels, on top of the metrics of C56, C57.",
"C164":"Model.Engines (numpy broadcasting of the kernels), matrices of any size.",
"C165":"Model.Spode: the object through compile and fit; induction over the call history.",
"C166":"Model.Spode: the insertion-ordered dictionary with names as keys and the loop of predict over it; refinement to the positional model of C39, C43, C79.",
}
STATUS={
"C160":("partial","Proved for the float models with any container (C160_float_models_partial), LDA and logistic regression from two rows on, network and ensembles on arrays, trees and naive Bayes on arrays and tables. Fails for one row in LDA and logistic regression (a number comes back, C160_one_row), for lists and tables in the network and the ensembles (C160_array_models_refuse), for lists of rows in trees and naive Bayes (C160_tree_lists, C160_tree_lists_raise)."),
"C161":("partial","Proved for k-means, GMM, LDA, the network, trees and naive Bayes. Fails for logistic regression, the SVC (C161_flat_svc: with the Gaussian kernel one answer per entry), the RBF network (one copy per entry), the ensembles and SPODE (C161_flat_refused), and mixed lists (C161_flat_mixed)."),
"C162":("partial","Proved for both Bayesian classifiers and for fit of decision trees (C162_by_name_partial). Fails for predict of decision trees, which takes columns by position (C162_tree_by_position)."),
"C163":("partial","Proved for labels in arrays (C163_array_labels_partial, C163_one_hot_partial). Fails for lists and Series (C163_list_labels), tables (always 1: C163_table_labels; one-hot: KeyError), one row (C163_one_row) and integer labels of multi-output models (C163_integer_labels)."),
"C164":("partial","Proved for the linear, polynomial and sigmoid kernels, and for one row against many with the Gaussian kernel. Fails for the Gaussian kernel on two sets of rows: only the diagonal comes back (C164_gaussian_diagonal), or ValueError (C164_gaussian_sizes)."),
"C165":("partial","Proved when the name is a column, whatever the history (C165_named_super_parent_partial), and on the first fit (C165_unknown_name_partial). Fails after an earlier fit: the unknown name is accepted and the former position is used (C165_unknown_name_accepted); C165_position_has_a_reason says exactly where the position comes from."),
"C166":("partial","Proved for distinct names other than 'p_c_xi' (C166_names_do_not_matter_partial, C166_renaming_partial). Fails for an attribute called 'p_c_xi' (C166_reserved_name: TypeError) and for equal names (C166_equal_names)."),
}
VIOL={
"C160":"predict of LDA and logistic regression returns a number for a batch of one row; predict of the network and the ensembles raises for lists and DataFrames; decision trees and naive Bayes raise for a list of rows.",
"C161":"predict of a flat sample: logistic regression, ensembles and SPODE raise; the SVC with the Gaussian kernel answers once per entry of the sample, the RBF network repeats its answer.",
"C162":"predict of a decision tree takes the columns of a DataFrame by position although fit takes them by name.",
"C163":"score raises for labels in a list or Series, is always 1 for labels in a DataFrame, raises for a single row with LDA or logistic regression, and is the fraction predicted as class 0 for integer labels of a multi-output network.",
"C164":"The Gaussian kernel on two sets of rows returns the diagonal of the kernel matrix, or raises if the sizes differ.",
"C165":"SPODE: an unknown super-parent name is accepted on a second fit; the position of the former super-parent is used.",
"C166":"SPODE: an attribute called 'p_c_xi' makes every prediction raise; two attributes with the same name collapse into one, read at the wrong position.",
}
