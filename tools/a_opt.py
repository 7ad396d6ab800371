PROPS=[
("Linear discriminant analysis projects on the best direction of Fisher's criterion",
 "After fit, no direction separates the projected class centres better, relative to the spread of the projected rows within the classes, than the direction w of the model; w is the only one up to its length and sign.",
 "every training set with different class centres and non-singular scatter, and every competing direction",
 "an optimality claim compares with all directions of the space, for all real data",
 ["classicML/api/models/linear_model/linear_discriminant_analysis.py::LinearDiscriminantAnalysis.fit","classicML/backend/python/ops.py::get_w","classicML/backend/python/ops.py::get_w_v2","classicML/backend/python/ops.py::get_within_class_scatter_matrix","classicML/backend/cc/ops/ops.cc::GetW_V2"]),
("A support vector machine whose training stops by itself is optimal up to its tolerance",
 "When SMO returns before its limit of passes, no feasible multipliers have a dual objective that is larger by more than tol times their distance (sum of absolute differences) from the returned ones; hence the gap is at most n*C*tol, and with tol = 0 the result is the optimum.",
 "every positive semidefinite kernel, data set, C, tolerance, sequence of permutations and competing feasible multipliers",
 "global optimality over a polytope, for all data and all random choices",
 ["classicML/backend/python/optimizers.py::SequentialMinimalOptimization.run","classicML/backend/python/optimizers.py::SequentialMinimalOptimization._update_parameters","classicML/backend/python/optimizers.py::SequentialMinimalOptimization._update_alpha"]),
("A support vector machine trained on both classes learns something",
 "If the training data contain both labels, C > 0 and tol < 1, training changes at least one multiplier, so that the classifier has support vectors and does not answer the same label to every row by default.",
 "every data set with both labels, kernel, C, tolerance, number of epochs and sequence of permutations",
 "depends on all pairwise kernel distances and on all schedules",
 ["classicML/backend/python/optimizers.py::SequentialMinimalOptimization._update_alpha","classicML/backend/python/optimizers.py::SequentialMinimalOptimization.run","classicML/api/models/support_vector_machine/support_vector_classifier.py::SupportVectorClassifier.fit"]),
]
PLAN={
'C226':"Specify Fisher's criterion on the projected rows; relate the spread to the quadratic form of the scatter matrix; Cauchy-Schwarz for a positive semidefinite form with S w = mu0 - mu1, with the case of equality for uniqueness. For the engines: contrapositive of uniqueness.",
'C227':"Concavity of the dual (tangent inequality from the positive semidefinite Gram matrix), the equality constraint removes the bias, the KKT tests bound every term; the run is connected by C08_early_stop.",
'C228':"Compute the first update from the initial state exactly (2/distance clipped to [0,C] against the step width 1e-5) and lift to the run: an exact characterisation of the data on which training is idle.",
}
STATUS={
'C226':('partial',"Proved for the exact projection function (`get_w`, `get_w_v1` of the backend), including uniqueness and at the level of fit. False of the function that `fit` uses on both engines: Python for every training set with correlated features and some distance of the classes (C226_python_violated), C++ for all data with two uncorrelated features of different spread whose centres differ in both (C226_cc_violated); proved on the Python engine for diagonal factors."),
'C227':('partial',"Proved: whenever all samples pass their KKT test with their true errors the result is optimal up to tol (C227_optimal_partial), and so at an early stop with up-to-date cache and no stuck sample. False in general: on coarse data training stops by itself with all multipliers 0, which is never near-optimal (C227_violated, for every such data set)."),
'C228':('partial',"Exact characterisation (C228_idle_exact): training is idle iff tol >= 1 or the data are coarse, i.e. all pairs of samples of different labels have squared feature-space distance 0 or above 200000, or C < 1e-5. Otherwise proved (C228_learns_partial). So the claim is false for unscaled data and for small C (C228_unscaled_violated, C228_small_C_violated)."),
}
VIOL={
'C226':"Neither engine's LDA direction maximises Fisher's criterion (consequence of the elementwise product in get_w_v2 and of the missing inversion in the C++ GetW_V2).",
'C227':"SMO stops early with multipliers that are not optimal up to tol: steps below the absolute width 1e-5 are refused (optimizers.py:1068).",
'C228':"SVC.fit finds no support vector, and the classifier answers +1 everywhere, when samples of different labels are more than 447 apart (unscaled data with the linear kernel) or C < 1e-5: the step width 1e-5 is absolute (optimizers.py:1068).",
}
