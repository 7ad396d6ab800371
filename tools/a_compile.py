M="classicML/api/models/"
LR=M+"linear_model/logistic_regression.py::LogisticRegression"
NN=M+"neural_network/back_propagation_neural_network.py::BackPropagationNeuralNetwork"
RB=M+"neural_network/radial_basis_function_network.py::RadialBasisFunctionNetwork"
T="classicML/backend/training.py::"
O="classicML/backend/python/optimizers.py::"
PROPS=[
("compile is all or nothing",
 "A call of compile that raises changes nothing: the instance keeps its structure, optimizer, loss and metric, and the random generator its state.",
 "all instances of LogisticRegression, BackPropagationNeuralNetwork, RadialBasisFunctionNetwork and DecisionTreeClassifier, all arguments, all states of the random generator",
 "The instance after an exception is a state that tests do not look at; all argument combinations and prior states matter.",
 [LR+".compile",NN+".compile",RB+".compile",M+"tree/decision_tree_classifier.py::DecisionTreeClassifier.compile",T+"get_optimizer",T+"get_metric"]),
("Every configuration that compile accepts can be trained",
 "If compile succeeds, there is a data set on which fit then completes, for every number of epochs.",
 "all arguments of compile (names and instances of all six optimizers, five losses, three metrics, five initializers, all structures), all data sets, epochs and random numbers; training watched or not",
 "A model is useless only if fit fails on all data, which no finite set of tests shows; and the product of all arguments is large.",
 [LR+".compile",LR+".fit",NN+".compile",NN+".fit",RB+".compile",RB+".fit",O+"StochasticGradientDescent.run",O+"Adam.run",O+"GradientDescent.run",O+"NewtonMethod.run",O+"RadialBasisFunctionOptimizer.run"]),
("fit before compile is refused",
 "fit of an instance that was never compiled raises an exception, and predict raises ValueError.",
 "all arguments of the constructor, all data, epochs and random numbers; the three models that take an optimizer",
 "Ranges over all data and constructor arguments, including ready-made initializer objects.",
 [LR+".fit",NN+".fit",RB+".fit"]),
("Compiling a trained model again keeps its predictions",
 "compile configures the next training; the predictions of a trained or loaded model do not change.",
 "all trained or loaded instances, all arguments of compile (whether it raises or not), all x",
 "Equality of the predictions must hold for all inputs and all pairs of configurations.",
 [LR+".compile",LR+".predict",NN+".compile",NN+".predict",RB+".compile",RB+".predict",O+"StochasticGradientDescent.forward",O+"GradientDescent.forward"]),
("A seeded model is trained the same way every time",
 "With a seed given to the constructor, compile followed by fit on the same data gives the same model, whatever random numbers were drawn before and however often it is repeated.",
 "all seeds, data, epochs, states of the random generator, and all histories of compile and fit on one instance",
 "Quantifies over all prior states of the global generator and all histories.",
 [LR+".__init__",LR+".compile",NN+".compile",RB+".compile",T+"get_initializer","classicML/backend/python/initializers.py::Initializer.__init__"]),
("np.random.seed makes the training of unseeded models repeatable",
 "If the user seeds numpy's generator before compile, compile and fit of a model without a seed of its own give the same result in every run of the program.",
 "all states set by the user, all states from the operating system, all data and epochs",
 "The dependence on the state from the operating system cannot be observed by tests, which get one state per run.",
 [LR+".compile",NN+".compile",RB+".compile","classicML/backend/python/initializers.py::Initializer.__init__"]),
]
PLAN={"C173":"Model.Compile: compile as one assignment after the other on the instance and the random generator, returning the instance and the error. Case analysis on the getters of Model.Getters; run_shape (induction over the epochs) for what the next fit trains.",
"C174":"Model.Compile.run: every optimizer on every kind of parameters, with the monitoring. Exact characterisation: invariants of the training loops for the models that can be trained, the failing first epoch for all others.",
"C175":"Model.Compile.fitLR/fitNN/fitRBF on the instance that __init__ makes.",
"C176":"predict depends on the class of the optimizer and the parameters only, and compile leaves the parameters alone.",
"C177":"session = compile then fit, with the state of the global generator as an argument; independence of the state for new instances; a second session on the same instance continues the sequence (Init.stateAfter).",
"C178":"The same model; the state from the operating system is the argument `entropy` of compile."}
STATUS={"C173":("partial","False for the models with an optimizer: C173_network_half (new structure, old optimizer), C173_next_fit (the next fit trains the refused structure), C173_metric_half, C173_rbf_half, C173_violated. Proved for DecisionTreeClassifier (C173_tree_partial); for the others the parameters, marks, seed and metric survive (C173_kept_partial)."),
"C174":("partial","False: C174_violated (wrong optimizer, misspelt metric), C174_more_refused (loss 'log_likelihood', no layers, negative number of units). The exact set of configurations that can be trained is proved: C174_logistic_partial, C174_network_partial, C174_rbf_partial, with C174_exclusive. Errors from the shapes of losses and metrics are excluded by Watch.Clean."),
"C175":("proved",""),
"C176":("partial","False when the new optimizer is made for another family (C176_violated: predict then raises for every x); proved within a family (C176_kept_partial)."),
"C177":("partial","False for a second compile and fit on one instance of LogisticRegression and BackPropagationNeuralNetwork: C177_second_compile, C177_violated. Proved for new instances (C177_fresh_partial) and for RBF networks always (C177_rbf_partial)."),
"C178":("partial","False: C178_user_seed_ignored, C178_violated. Proved when an initializer object is passed (C178_object_partial).")}
VIOL={"C173":"compile assigns its attributes one after the other: a misspelt optimizer raises after network_structure (hidden_units) was replaced, and the next fit trains the refused structure with the old optimizer.",
"C174":"compile accepts every optimizer for every model (logistic regression with 'adam', a network with 'gd' or 'SMO'), any string as a metric and the loss 'log_likelihood' for networks; fit then raises on all data.",
"C176":"Compiling a trained model again with an optimizer of another family makes predict raise for every input, although the parameters are still there.",
"C177":"compile replaces self.initializer by an object which the next compile returns as it is, so that the seed is used only once: a second compile and fit of the same seeded instance gives another model.",
"C178":"Without a seed compile calls np.random.seed(None), which discards the state the user set with np.random.seed."}
