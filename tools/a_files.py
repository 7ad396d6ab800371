B='classicML/api/models/'
PROPS=[
("An incomplete weights file is reported as KeyError",
 "After any history, load_weights completes exactly if the file has all the attributes the model reads; otherwise it raises KeyError (AttributeError for an unknown kernel or pruning), having replaced exactly the attributes that are read before the first missing one, and the marks of training and loading are as before.",
 "all states of the instances, all subsets of attributes in the file, all values",
 "ranges over all states of an instance and all incomplete files",
 [B+'bayes/naive_bayes_classifier.py::NaiveBayesClassifier.load_weights',B+'bayes/semi_naive_bayes_classifiers.py::SuperParentOneDependentEstimator.load_weights',B+'bayes/semi_naive_bayes_classifiers.py::AveragedOneDependentEstimator.load_weights',B+'tree/decision_tree_classifier.py::DecisionTreeClassifier.load_weights',B+'cluster/gaussian_mixture.py::GaussianMixture.load_weights',B+'neural_network/radial_basis_function_network.py::RadialBasisFunctionNetwork.load_weights',B+'svm/support_vector_classifier.py::SupportVectorClassifier.load_weights']),
("Misuse is refused without side effects",
 "After any history: a table with the wrong number of columns is refused by the fit of naive Bayes and super-parent estimators with ValueError; an unknown criterion or pruning, a pruner without validation set and a fit before compile are refused by decision trees with AttributeError; networks refuse fit before compile. Nothing has changed then.",
 "all states of the instances, all arguments",
 "ranges over all states and arguments",
 [B+'tree/decision_tree_classifier.py::DecisionTreeClassifier.compile',B+'tree/decision_tree_classifier.py::DecisionTreeClassifier.fit',B+'bayes/naive_bayes_classifier.py::NaiveBayesClassifier.fit',B+'neural_network/radial_basis_function_network.py::RadialBasisFunctionNetwork.fit']),
]
PLAN={"C330":"Case analysis over which attributes are present, for every state.","C331":"Case analysis over the checks at the beginning of each method."}
STATUS={"C330":("proved","C330_lda, C330_kmeans, C330_mixture, C330_rbf, C330_network, C330_nb, C330_spode, C330_aode, C330_tree, C330_svc; unknown names: C330_tree_unknown, C330_svc_unknown."),
"C331":("proved","C331_columns, C331_no_super_parent, C331_tree, C331_networks. The averaged estimator is not part of it: see C326_aode_failed_fit.")}
VIOL={}
