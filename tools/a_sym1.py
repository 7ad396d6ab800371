M="classicML/api/models/"
KM=M+"cluster/k_means.py::KMeans"
SV=M+"support_vector_machine/support_vector_classifier.py::SupportVectorClassifier"
LR=M+"linear_model/logistic_regression.py::LogisticRegression"
OP="classicML/backend/python/ops.py::"
O="classicML/backend/python/optimizers.py::"
PROPS=[
("k-means training comes to an end by itself",
 "For a non-negative tolerance there is a number of epochs, depending only on the number of samples and clusters, after which fit has either raised or stopped by itself; a larger number of epochs then gives the same model.",
 "all data sets, initial centroids, non-negative tolerances and numbers of epochs",
 "Termination for all inputs cannot be observed by running some of them.",
 [KM+".fit",OP+"calculate_centroids",OP+"compare_differences",OP+"get_cluster"]),
("k-means does not depend on units, origin or the order of the features",
 "Multiplying all features by a non-zero factor (and the tolerance by its absolute value), adding an offset per feature or permuting the features gives the same labels and the same centroids in the new coordinates; fit raises and stops in the same cases.",
 "all data, initial centroids, tolerances, epochs, factors, offsets and permutations",
 "A relation between two runs for all data and all changes of coordinates.",
 [KM+".fit",KM+".predict",OP+"calculate_euclidean_distance",OP+"calculate_centroids",OP+"compare_differences"]),
("k-means does not depend on the order or multiplicity of the samples",
 "Permuting the samples permutes the labels and leaves the centroids as they are; giving every sample twice leaves the centroids as they are.",
 "all data, permutations, initial centroids, tolerances and epochs",
 "A relation between two runs for all data and all permutations.",
 [KM+".fit",OP+"calculate_centroids",OP+"get_cluster"]),
("Swapping the labels of an SVC negates its decision function",
 "Training with the two labels swapped (same data, kernel, C, tolerance, epochs and random permutations) gives the same support vectors and multipliers and the opposite decision value for every sample; predictions are opposite except where the decision value is exactly 0.",
 "all data, kernels, parameters, epochs (limited or not), random permutations and samples",
 "A relation between two runs of an iterative optimiser, for all data and schedules.",
 [SV+".fit",SV+".predict",O+"SequentialMinimalOptimization.run",O+"SequentialMinimalOptimization._update_alpha",OP+"calculate_error",OP+"select_second_alpha"]),
("An RBF support vector classifier does not depend on origin and units",
 "With the RBF kernel, moving the origin of the features changes no prediction when gamma is a number or 'auto'; with gamma='scale' measuring all features in another unit and from another origin changes no prediction.",
 "all data, offsets, units, parameters, epochs, random permutations and samples",
 "A relation between two runs of an iterative optimiser, for all data and changes of coordinates.",
 [SV+".fit",SV+".predict","classicML/backend/python/kernels.py::RBF.__call__",O+"SequentialMinimalOptimization.run"]),
("Logistic regression treats the two classes and all samples alike",
 "With the classes swapped and the initial parameters negated, training gives the negated parameters, so every predicted probability p becomes 1 - p; the order of the samples does not matter.",
 "all data, learning rates, epochs, initial parameters, permutations, both optimizers, all rows",
 "A relation between two runs for all data.",
 [LR+".fit",LR+".predict",O+"GradientDescent.run",O+"NewtonMethod.run"]),
("Newton's method does not depend on the coordinates of the features",
 "Recoding the features by any invertible affine map and starting from parameters that predict the same probabilities, training with NewtonMethod raises in the same cases and otherwise gives a model that predicts the same probability for every row.",
 "all data, labels, invertible affine recodings, epochs, initial parameters, rows",
 "A relation between two runs for all data and all recodings.",
 [LR+".fit",O+"NewtonMethod.run",O+"NewtonMethod.forward",O+"NewtonMethod.backward"]),
]
PLAN={"C179":"Every epoch that does not stop strictly lowers the within-cluster sum of squares (strict version of C14), so the labellings of the epochs are pairwise different; there are at most n_clusters ^ n_samples of them (pigeonhole), plus a last phase with one centroid.",
"C180":"Equivariance of every function of Model.KMeans under u ↦ a·u∘σ + t (argmin depends on the order only), lifted through the loop by induction.",
"C181":"Permutation invariance of the means and of the number of labels, induction over the epochs with corresponding labellings; duplication likewise. The order of the centroids does matter (witness).",
"C182":"A simulation: negate labels, error cache and bias; every step of Model.SMO commutes with it.",
"C183":"The optimiser sees the data through the kernel values only (fit_transport); the RBF values and gamma='scale' are invariant.",
"C184":"Simulation over the epochs: negated parameters, complementary probabilities; sums over samples are permutation invariant.",
"C185":"Equivariance of gradient and Hessian under the matrix acting on rows with the constant feature, induction over the epochs."}
STATUS={"C179":("proved","the bound is n_clusters ^ n_samples + 3 epochs; C179_negative_tolerance shows that the hypothesis on the tolerance is needed"),
"C180":("proved",""),
"C181":("proved","C181_centroid_order_matters: the order of the initial centroids does matter when a cluster is empty"),
"C182":("proved","on the decision boundary itself both models answer 1"),
"C183":("proved","C183_one_origin: with gamma='scale' the offsets must be the same for all features"),
"C184":("proved",""),
"C185":("proved","C185_gradient_descent_depends_on_units: gradient descent has no such invariance")}
VIOL={}
