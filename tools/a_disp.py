OW="classicML/backend/cc/ops/ops_wrapper.cc::"
SM="classicML/backend/python/optimizers.py::SequentialMinimalOptimization."
PROPS=[
("The configured precision is the one the C++ engine computes in",
 "with CLASSICML_ENGINE=CC, every call a trainer makes into the C++ functions runs the overload of the precision configured by CLASSICML_PRECISION: double precision for '64-bit', single precision otherwise",
 "every call site of the trainers, all sizes and shapes, every Python version",
 "which overload runs is decided from the dynamic types of all arguments together, in two passes; a test that compares results with a tolerance cannot see it",
 [OW+"cc_calculate_error",OW+"cc_clip_alpha",OW+"cc_compare_differences","classicML/framework/dtypes.py::set_precision","classicML/backend/python/optimizers.py::SequentialMinimalOptimization.optimize","classicML/api/models/cluster/k_means.py::KMeans.fit","classicML/api/models/cluster/gaussian_mixture.py::GaussianMixture.fit","classicML/backend/cc/numpy_patch.h::type_caster"]),
("The overload a C++ function runs is determined by the types of its arguments",
 "a C++ function of matrices runs in double precision exactly when all arguments are float64 arrays with one or two axes, in single precision for every other combination of numeric arrays and lists with one or two axes, and raises TypeError otherwise; a function of numbers runs in double precision exactly when all are np.float64 (np.uint64 for counts)",
 "every tuple of arguments of every type, shape and value, any number of matrix parameters",
 "all combinations of argument types",
 [OW+"cc_calculate_euclidean_distance",OW+"cc_get_w_v2",OW+"cc_get_probability_density",OW+"cc_get_conditional_probability","classicML/backend/cc/losses/losses_wrapper.cc::PYBIND11_MODULE","classicML/backend/cc/kernels/kernels_wrapper.cc::PYBIND11_MODULE"]),
("Clipping a multiplier keeps it in the box on the C++ engine",
 "the multiplier clip_alpha returns lies between low and high",
 "all multipliers and bounds, every monotone rounding to the number type of the overload",
 "depends on the rounding of bounds that are arbitrary reals (C = 0.1)",
 [OW+"cc_clip_alpha","classicML/backend/cc/ops/ops.cc::ClipAlpha","classicML/backend/python/optimizers.py::SequentialMinimalOptimization._update_alpha"]),
("A bootstrap sample of the C++ engine contains the labels it was given",
 "bootstrap_sampling(x, y, seed) with labels returns the sampled rows of both, in the precision of the data",
 "float data of either width, labels of any type, every documented seed",
 "all combinations of argument types",
 [OW+"cc_bootstrap_sampling","classicML/backend/cc/ops/ops.h::BootstrapSampling1","classicML/backend/cc/ops/ops.h::BootstrapSampling2","classicML/api/models/ensemble/bagging.py::BaggingClassifier.fit"]),
("A Bayes classifier with discrete attributes predicts on the C++ engine",
 "the call that scores a discrete attribute is accepted by the C++ engine in both precisions",
 "all counts below 2^32, both precisions, every Python version",
 "the argument types depend on the configuration and on what training stored",
 ["classicML/api/models/bayes/naive_bayes_classifier.py::NaiveBayesClassifier._predict",OW+"cc_get_conditional_probability","classicML/api/models/bayes/semi_naive_bayes_classifiers.py::SuperParentOneDependentEstimator._calculate_posterior_probability"]),
("The C++ engine treats equal integers alike",
 "a count, seed or size selects the same overload whether it is a Python integer or a NumPy integer of the same value, on every Python version",
 "all functions and arguments, all values, Python 3.7 and later",
 "depends on the interpreter version and on the dynamic type of each integer",
 [OW+"cc_init_centroids",OW+"cc_bootstrap_sampling","classicML/backend/cc/initializers/initializers_wrapper.cc::PYBIND11_MODULE"]),
]
PLAN={
"C214":"Model/Dispatch: pybind11's casters and two-pass dispatcher, the overload tables of the wrappers, and the argument types at each call site of the trainers (Site). Exact list of the call sites in double precision, exact list of the refused ones, all single in '32-bit'.",
"C215":"General theorems about the dispatcher on the tables: double / single / TypeError characterised by predicates on the argument types (Spec/Dispatch), any number of matrix parameters.",
"C216":"Clipping behind a monotone rounding of its arguments equals the rounding of the Python result; the box holds iff rounding moves no bound outwards; witness C = 0.1.",
"C217":"The labels come back iff they are an array of floats or integers of the data's width; the bagging call meets this; witnesses for lists and other widths.",
"C218":"The call is a TypeError in '64-bit' for all counts; accepted in '32-bit' and for the one-dependent estimators.",
"C219":"Without NumPy integers the overload does not depend on the Python version; witnesses for n_clusters, seed and the initialisers.",
}
STATUS={
"C214":("partial","exact: C214_double_iff, C214_refused_iff, C214_rest_single for '64-bit', C214_single_everywhere for '32-bit'; false for '64-bit' (C214_violated_*): the SVC's violations and clipping, the stopping tests of both clusterings, all losses and metrics, the multi-class gradient and the initial RBF weights run in single precision. Casters are those of pybind11 2.9-2.11."),
"C215":("proved","for all argument tuples; what each caster takes is modelled from pybind11, not from /repo"),
"C216":("partial","false for '64-bit' with C = 0.1 (C216_violated); exact condition C216_box_iff; C216_box_partial when the bounds are representable"),
"C217":("partial","exact condition C217_labels_iff; holds for the bagging call (C217_bagging); false for lists and for labels of another width (C217_violated)"),
"C218":("partial","false for the naive Bayes classifier in '64-bit' (C218_violated, every count); C218_partial for '32-bit' and the one-dependent estimators"),
"C219":("partial","false (C219_violated_*); C219_version_partial without NumPy integers"),
}
VIOL={
"C214":"with CLASSICML_ENGINE=CC and '64-bit', calculate_error always runs in single precision (non_zero_alphas is a bool array, optimizers.py:944), clip_alpha too (a 0-d array, optimizers.py:1065), compare_differences (Python tol), every loss and metric (integer labels), softmax.diff, and the RBF initialiser",
"C216":"with CLASSICML_ENGINE=CC, '64-bit' and C = 0.1, a clipped multiplier is 0.10000000149 > C",
"C217":"bootstrap_sampling of the C++ engine silently drops labels given as a list or in another width than the data (overloads 5 and 6 take any object)",
"C218":"NaiveBayesClassifier.predict with a discrete attribute raises TypeError with CLASSICML_ENGINE=CC and '64-bit': the stored counts are np.float64, which pybind11 refuses for uint32",
"C219":"from Python 3.8 on, np.int64 as n_clusters or seed silently switches a float64 computation to single precision on the C++ engine; a Python integer or list given to an initialiser does so too",
}
