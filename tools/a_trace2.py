PROPS=[
("RBF networks far from the data",
 "The output of RadialBasisFunctionNetwork.predict is bounded over all inputs, and far from all centres it is the output bias.",
 "all parameters the network can hold, all inputs",
 "all inputs, arbitrarily far from the training data; a test evaluates a few rows",
 ['classicML/api/models/neural_network/radial_basis_function_network.py::RadialBasisFunctionNetwork.predict','classicML/backend/python/initializers.py::RBFNormal','classicML/backend/python/optimizers.py::RadialBasisFunctionOptimizer']),
("Histories of a BP network: predict refuses until trained",
 "After any history of compile, fit, load_weights (completed or failed) on a new BackPropagationNeuralNetwork, predict raises ValueError exactly if no fit and no load_weights has completed; afterwards it always is the forward pass of the current parameters.",
 "all histories of calls, network structures, data, files, random draws",
 "all histories of calls, including failed ones",
 ['classicML/api/models/neural_network/back_propagation_neural_network.py::BackPropagationNeuralNetwork.fit','classicML/api/models/neural_network/back_propagation_neural_network.py::BackPropagationNeuralNetwork.load_weights','classicML/api/models/neural_network/back_propagation_neural_network.py::BackPropagationNeuralNetwork.predict']),
("Histories of a BP network: compile and fit, or load, start anew",
 "Calling compile and fit, or load_weights, on a used BackPropagationNeuralNetwork makes it answer as a new instance on which only those calls were made.",
 "all histories of calls, network structures, data, files, random draws",
 "all histories of calls before the last; tests use new instances",
 ['classicML/api/models/neural_network/back_propagation_neural_network.py::BackPropagationNeuralNetwork.compile','classicML/api/models/neural_network/back_propagation_neural_network.py::BackPropagationNeuralNetwork.fit','classicML/api/models/neural_network/back_propagation_neural_network.py::BackPropagationNeuralNetwork.load_weights']),
("Histories of a naive Bayes classifier: predict refuses until trained",
 "After any history of compile, fit, load_weights (completed or failed) on a new NaiveBayesClassifier, predict raises ValueError exactly if no fit and no load_weights has completed; afterwards the class probabilities are always present and the answer is computed from them and the stored entries.",
 "all histories of calls, data, files, rows",
 "all histories of calls, including failed ones",
 ['classicML/api/models/bayes/naive_bayes_classifier.py::NaiveBayesClassifier.fit','classicML/api/models/bayes/naive_bayes_classifier.py::NaiveBayesClassifier.load_weights','classicML/api/models/bayes/naive_bayes_classifier.py::NaiveBayesClassifier.predict']),
("Histories of a naive Bayes classifier: the last compile, fit or load decides",
 "The answers of a NaiveBayesClassifier are those of a new instance with the last compile and the last completed fit or load: compile and fit on a used instance, or load_weights, give the classifier of a new instance, and compiling a fitted classifier again gives the classifier compiled that way and fitted.",
 "all histories of calls, data, files, rows",
 "all histories of calls before the last; tests use new instances",
 ['classicML/api/models/bayes/naive_bayes_classifier.py::NaiveBayesClassifier.compile','classicML/api/models/bayes/naive_bayes_classifier.py::NaiveBayesClassifier.fit','classicML/api/models/bayes/naive_bayes_classifier.py::NaiveBayesClassifier.load_weights']),
]
PLAN={"C311":"The Gaussian of a non-negative width is at most one and tends to zero; for a negative width the unit dominates along an axis; the first epoch by the step equation.",
"C312":"Invariant over histories: the flags of the instance, and the parameters exist once one of them is set.",
"C313":"Induction over histories; a load sets the flag that makes later fits skip the initialisation; overwriting by key leaves the keys of deeper networks.",
"C314":"Invariant over histories, as C312.",
"C315":"The loop of fit overwrites the entries of all names; the priors are those of the compile before fit."}
STATUS={"C311":("partial","Proved for non-negative (bounded) and positive (far) widths; false in general: C311_unbounded, C311_first_epoch."),
"C312":("proved","C312_ready."),
"C313":("partial","Proved for instances that never loaded a file (C313_fresh_partial) and for files with at least as many layers (C313_load_partial); otherwise false: C313_structure_ignored, C313_continues, C313_layers_left, C313_violated."),
"C314":("proved","C314_ready. Simplification: in an incomplete file p_0 and p_1 are missing together."),
"C315":("partial","Proved for compile and fit, and for load; false for compile after fit: C315_compile_after_fit.")}
VIOL={"C311":"the initialiser of the RBF network draws widths of both signs; a hidden unit with negative width grows without bound away from its centre. One epoch on non-negative labels that are not all zero already gives a network with unbounded output (C311_unbounded, C311_first_epoch).",
"C313":"after a load_weights every later compile is ignored and every fit continues from the loaded parameters (C313_structure_ignored, C313_continues); loading a file with fewer layers than the instance has leaves the remaining layers in place, which then take part in predict (C313_layers_left, C313_violated).",
"C315":"compile after fit changes the smoothing of the conditional probabilities but not of the class probabilities (C315_compile_after_fit)."}
