PROPS=[
("Histories of a decision tree classifier: predict refuses until trained",
 "After any history of compile, fit, load_weights (completed or failed) on a new DecisionTreeClassifier, predict raises ValueError exactly if no fit and no load_weights has completed; afterwards there always is a tree, and it is asked.",
 "all histories of calls, generators, pruners, data, files",
 "all histories of calls, including failed ones",
 ['classicML/api/models/tree/decision_tree_classifier.py::DecisionTreeClassifier.fit','classicML/api/models/tree/decision_tree_classifier.py::DecisionTreeClassifier.load_weights','classicML/api/models/tree/decision_tree_classifier.py::DecisionTreeClassifier.predict']),
("Histories of a decision tree classifier: compile and fit, or load, start anew",
 "Calling compile and fit, or load_weights, on a used DecisionTreeClassifier does what it does on a new instance: it completes in the same cases and gives the same answers.",
 "all histories of calls, generators, pruners, data, files",
 "all histories of calls before the last; tests use new instances",
 ['classicML/api/models/tree/decision_tree_classifier.py::DecisionTreeClassifier.compile','classicML/api/models/tree/decision_tree_classifier.py::DecisionTreeClassifier.fit','classicML/api/models/tree/decision_tree_classifier.py::DecisionTreeClassifier.load_weights']),
("Histories of Gaussian mixtures and RBF networks: predict refuses until trained",
 "After any history of compile, fit, load_weights (completed or failed) on a new GaussianMixture or RadialBasisFunctionNetwork, predict raises ValueError exactly if no fit and no load_weights has completed; afterwards all parameters are present.",
 "all histories of calls, data, files, random draws",
 "all histories of calls, including failed ones",
 ['classicML/api/models/cluster/gaussian_mixture.py::GaussianMixture.fit','classicML/api/models/cluster/gaussian_mixture.py::GaussianMixture.predict','classicML/api/models/neural_network/radial_basis_function_network.py::RadialBasisFunctionNetwork.fit','classicML/api/models/neural_network/radial_basis_function_network.py::RadialBasisFunctionNetwork.predict']),
("Histories of Gaussian mixtures and RBF networks: compile and fit, or load, start anew",
 "Calling compile and fit, or load_weights, on a used GaussianMixture or RadialBasisFunctionNetwork does what it does on a new instance: it completes in the same cases and gives the same answers.",
 "all histories of calls, data, files, random draws",
 "all histories of calls before the last; tests use new instances",
 ['classicML/api/models/cluster/gaussian_mixture.py::GaussianMixture.fit','classicML/api/models/cluster/gaussian_mixture.py::GaussianMixture.load_weights','classicML/api/models/neural_network/radial_basis_function_network.py::RadialBasisFunctionNetwork.fit','classicML/api/models/neural_network/radial_basis_function_network.py::RadialBasisFunctionNetwork.load_weights']),
]
PLAN={"C316":"Invariant over histories: an instance whose flags allow prediction has a tree.",
"C317":"Induction over histories; the flag of load_weights makes later fits skip the generator; load_weights wants the pruning of the file only if the instance has a pruner.",
"C318":"As C316; for mixtures the flag is set before the last computation of fit.",
"C319":"fit of a mixture overwrites all parameters; fit of an RBF network continues from the parameters once a file was loaded."}
STATUS={"C316":("proved","C316_ready. Tree generation, pruning and prediction are parameters (modelled in Tree); tables are assumed to fit the attribute names."),
"C317":("partial","Proved for instances that never loaded a file (C317_fresh_partial) and for loads that complete (C317_load_partial); otherwise false: C317_refused, C317_data_ignored, C317_load_then_fit."),
"C318":("partial","Proved for RBF networks (C318_rbf); for mixtures C318_mixture_partial says exactly when predict stops refusing; the property is false for them: C318_mixture_violated."),
"C319":("partial","Proved for mixtures, and for RBF networks that never loaded a file or load one; false for compile and fit of RBF networks after a load: C319_rbf_ignored, C319_rbf_violated.")}
VIOL={"C317":"a DecisionTreeClassifier compiled with pruning refuses (KeyError) every file saved from an unpruned tree (C317_refused); after load_weights every fit without pruning completes and ignores its data (C317_data_ignored); a loaded classifier cannot be fitted without compile (AttributeError) although the file holds the criterion (C317_load_then_fit).",
"C318":"GaussianMixture.fit sets is_trained before it computes the clusters of the samples; if that raises (a covariance that became singular in the last epoch) fit raises but the instance counts as trained (C318_mixture_violated).",
"C319":"after load_weights the hidden_units of a later compile are ignored and every fit of an RBF network continues from the loaded parameters (C319_rbf_ignored, C319_rbf_violated)."}
