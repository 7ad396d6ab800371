PL="classicML/backend/python/losses.py"; CL="classicML/backend/cc/losses/losses.cc"
PK="classicML/backend/python/kernels.py"; CK="classicML/backend/cc/kernels/kernels.cc"
PA="classicML/backend/python/activations.py"; CA="classicML/backend/cc/activations/activations.cc"
MO="classicML/backend/cc/matrix_op.cc"
PROPS=[
("The losses of both engines return the same number",
 "the Python and the C++ engine return the same loss for the same predictions and labels, given as matrices or as label vectors",
 "all numbers of samples and columns, all entries, labels as vectors or matrices",
 "all shapes and values; two independent implementations",
 [PL+"::BinaryCrossentropy",PL+"::CategoricalCrossentropy",PL+"::Crossentropy",PL+"::LogLikelihood",PL+"::MeanSquaredError",CL+"::BinaryCrossentropy",CL+"::MeanSquaredError"]),
("The cross-entropy of correct, certain predictions is zero",
 "if every prediction equals its label the cross-entropy is 0, and it is a finite number whenever no certain prediction is wrong",
 "all label arrays and predictions in [0,1]",
 "values at the border of the domain for all sizes; depends on infinities and NaN",
 [PL+"::BinaryCrossentropy",PL+"::CategoricalCrossentropy",CL+"::BinaryCrossentropy",CL+"::CategoricalCrossentropy"]),
("The kernels of both engines return the same values",
 "calling a kernel on rows of features returns the kernel value of every pair of rows, the same in both engines, for any number of rows and features",
 "every kernel, every shape of the two arguments, all entries",
 "all shapes and values; two implementations with different memory layouts",
 [PK+"::Linear",PK+"::Polynomial",PK+"::RBF",PK+"::Sigmoid",CK+"::Linear",CK+"::RBF",MO+"::Reshape",MO+"::BroadcastSub"]),
("The activations of both engines return the same array",
 "relu, sigmoid and softmax and their diff methods return the same array in both engines or refuse the same arguments",
 "vectors and matrices of every shape, all entries",
 "all shapes and values",
 [PA+"::Relu",PA+"::Sigmoid",PA+"::Softmax",CA+"::Relu",CA+"::Sigmoid",CA+"::Softmax"]),
("The configured precision is used",
 "CLASSICML_PRECISION='64-bit' makes the library compute in 64 bits, any other value in 32 bits; unknown values are reported",
 "every value of the environment variable and every call of a loss, metric, kernel or activation",
 "all strings and all combinations of element types",
 ["classicML/framework/dtypes.py::set_precision","classicML/backend/cc/losses/losses_wrapper.cc","classicML/backend/cc/metrics/metrics_wrapper.cc"]),
]
PLAN={
"C142":"Arrays of dimension one and two, numpy broadcasting and Eigen's shape rules; IEEE numbers without rounding; equality of the two results.",
"C143":"NaN and infinities as constructors; a single product 0 * log 0 makes the sum NaN.",
"C144":"np.matmul and broadcasting against Eigen products, BroadcastSub and the column-major Reshape; entries compared as lists.",
"C145":"Entrywise comparison, shapes of vectors.",
"C146":"set_precision as a function of the string; pybind11 overload resolution as two rounds.",
}
STATUS={
"C142":("partial","Agreement for matrices of one shape and, for the cross-entropies and the log-likelihood, label vectors. False for MeanSquaredError with a label vector (factor n^2), for prediction vectors, class numbers and BinaryCrossentropy of several columns."),
"C143":("partial","False: correct certain predictions give NaN (0 * log 0) in both engines; the binary loss is finite exactly when all predictions lie strictly between 0 and 1."),
"C144":("partial","One row against many and many rows of at least two features against one agree. False with one feature (C++ training calls are undefined or refused), for Gram matrices of several rows (flattened) and without support vectors."),
"C145":("partial","Agreement on matrices of one shape; false for vectors (softmax, label vectors) and for a smaller second argument of Relu.diff."),
"C146":("partial","The setting is read as documented; false for the C++ engine, which switches to 32 bits whenever an argument holds integers, as labels do."),
}
VIOL={
"C142":"classicML/backend/python/losses.py:148-149 broadcasts predictions of shape (n,1) against labels of shape (n,) to (n,n); losses.cc:139-150 does not, so the losses differ by the factor n^2. `Crossentropy` of a vector: IndexError in Python, accepted in C++. Class numbers instead of one-hot rows: silently used as weights in Python, undefined behaviour in C++.",
"C143":"losses.py:49-50, 74-75 (and losses.cc:45-50, 69-74) multiply 0 by log 0: perfect predictions, or a softmax entry that underflows to 0, make the reported loss NaN.",
"C144":"kernels.cc:37-41 takes any matrix with one column for a vector: with one feature `cc_calculate_error` calls the kernel on an (m,1) matrix, which becomes (1,m); the product is then undefined (Linear, Polynomial, Sigmoid) or ValueError (RBF). Several rows against several rows come back as one row in column order. RBF without support vectors is undefined.",
"C145":"pybind11 turns a vector into a column: softmax of a vector is an array of ones in C++ and ValueError in Python; Sigmoid.diff with a label vector is (n,1) in C++ and (n,n) in Python; Relu.diff with a smaller second argument is IndexError in Python and silently partial in C++.",
"C146":"losses_wrapper.cc, metrics_wrapper.cc: the float32 overload is registered first, and labels are integers (`_cml_precision.int`), so no overload matches without conversion and the 32-bit one is used even with CLASSICML_PRECISION='64-bit'.",
}
