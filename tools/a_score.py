PROPS=[
("Linear decisions survive rounding",
 "Computed in floating point - in whatever order the matrix product adds, with or without fused multiply-add - the class that SupportVectorClassifier and LogisticRegression answer is the class of the exact decision value of the stored parameters.",
 "all parameters and samples of the format, all orders of summation, all numbers of features and support vectors",
 "all values and all orders of summation; a test uses a few samples far from the boundary",
 ['classicML/api/models/support_vector_machine/support_vector_classifier.py::SupportVectorClassifier.predict','classicML/backend/python/kernels.py::Linear','classicML/backend/python/optimizers.py::GradientDescent.forward','classicML/backend/python/optimizers.py::NewtonMethod.forward']),
("Discriminant analysis survives rounding",
 "Computed in floating point, LinearDiscriminantAnalysis.predict names the class whose projected mean is nearest to the projected sample.",
 "all projections, means and samples of the format, all orders of summation",
 "all values and all orders of summation; a test uses a few samples far from the boundary",
 ['classicML/api/models/linear_model/linear_discriminant_analysis.py::LinearDiscriminantAnalysis.predict']),
]
PLAN={"C303":"Scalar products as trees of rounded products, fused multiply-adds and rounded sums (Model/ScoreRounded); induction over the tree gives the textbook error bound; the last addition of the threshold keeps the sign; single precision witnesses by kernel evaluation.",
"C304":"The same error bound for the three scalar products, and the relative error of the two differences."}
STATUS={"C303":("partial","C303_dot_partial: error bound for every order and fusing. C303_svc_partial, C303_linear_partial, C303_logistic_partial, C303_logistic_f32_partial: the class is right if the exact value exceeds the explicit bound. C303_svc_wrong, C303_logistic_wrong: single precision cases where it is not."),
"C304":("partial","C304_clear_partial: right if the distances differ by more than the explicit bound. C304_wrong: a single precision case with the farther class.")}
VIOL={"C303":"in single precision a support vector classifier may answer with the wrong sign (theorem C303_svc_wrong: decision value -1, answer 1), and a logistic regression counts samples of small negative score as positive (C303_logistic_wrong).",
"C304":"in single precision the class of the farther projected mean may be answered (theorem C304_wrong)."}
