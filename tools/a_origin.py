S='classicML/api/models/support_vector_machine/support_vector_classifier.py::SupportVectorClassifier.'
import os
O='classicML/backend/python/optimizers.py::SequentialMinimalOptimization.'
PROPS=[
("A linear support vector classifier does not depend on the coordinate system",
 "Rotating or reflecting the features, or measuring them from another origin, in the training rows and the questions alike, changes no prediction of a linear support vector classifier.",
 "all data sets, all rotations and reflections, all offsets",
 "all data sets and all changes of coordinates",
 [S+'fit',S+'predict',O+'_update_error_cache','classicML/backend/python/kernels.py::Linear.__call__']),
("A polynomial kernel gives all boundaries up to its degree",
 "With the polynomial kernel of degree p a support vector classifier can represent every boundary that a polynomial of degree at most p describes, in particular the straight lines of the linear kernel and, for p at least 2, intervals on one feature.",
 "all data sets, all degrees",
 "all data sets and degrees; that a training run fails on one data set does not show that no run can succeed",
 ['classicML/backend/python/kernels.py::Polynomial.__call__',S+'predict']),
("A support vector classifier does not depend on the order of the training samples",
 "Re-ordering the training samples with their labels changes no prediction of a support vector classifier whose training ends by itself.",
 "all data sets, all orders",
 "all data sets and all n! orders",
 [S+'fit',O+'run',O+'_update_parameters']),
]
PLAN={"C267":"Inner-product kernels: a rotation leaves the kernel values, hence the whole run, unchanged. Origin: the dual problem is unchanged (sum of alpha*y is 0), the run is not.",
"C268":"The decision function of C124 with the kernel expanded is a form of degree p plus b; even forms are symmetric, odd powers are monotone.",
"C269":"Re-indexing of the dual problem; a concrete run of the model in two orders for the training."}
STATUS={"C267":("partial","Rotations and reflections: proved for all inner-product kernels. Origin: proved for the optimisation problem; false for the training."),
"C268":("partial","What the classifier can represent is proved: a constant plus a form of degree p."),
"C269":("partial","Proved for the optimisation problem; false for the training.")}
VIOL={"C267":"_update_error_cache recomputes the cached errors before the new support vectors are entered in non_zero_alphas; what is left out depends on the origin. Four samples on a line, trained to the end, get different labels for a training row when the origin is moved by 1 (C267_origin_violated).",
"C268":"the kernel gamma*(x.y)^p has no constant term: for even p every trained classifier labels r and -r alike (C268_mirror, C268_even_violated), for odd p - the default is 3 - it is a threshold on one feature (C268_odd_violated).",
"C269":"of four linearly separable samples one is labelled correctly after training in one order and misclassified after training in another, although training ends by itself in both (C269_order_violated)."}
