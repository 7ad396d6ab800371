S='classicML/api/models/support_vector_machine/support_vector_classifier.py::SupportVectorClassifier.'
PROPS=[
("Only samples at the bound C are misclassified in training",
 "When SVC training stops by itself (tol < 1), every training sample whose multiplier is below C gets its own label, with a margin of at least 1 - tol; so the number of training errors is at most (sum of the multipliers) / C.",
 "all data sets, kernels, C, tolerances and sequences of permutations",
 "relates the stopping state of an unbounded iteration to the predictions on every training sample",
 [S+'fit',S+'predict','classicML/backend/python/optimizers.py::SequentialMinimalOptimization.run']),
("With the linear kernel the SVC is a linear classifier",
 "A classifier trained with the linear kernel answers by the sign of w*row + b, where w is the combination of the training rows with coefficients alpha_i*y_i, 0 <= alpha_i <= C; a row on the segment between two rows of one label gets that label.",
 "all data sets, numbers of features, C, epochs, permutations and rows",
 "an identity over all rows of the feature space",
 [S+'fit',S+'predict','classicML/backend/python/kernels.py::Linear.__call__']),
("Far from the support vectors an RBF classifier answers by its bias",
 "For every trained or loaded SVC with the RBF or Gaussian kernel and non-zero bias b there is a distance beyond which every row gets the label of the sign of b.",
 "all trained or loaded RBF classifiers and all rows",
 "a statement about an unbounded region of the feature space",
 [S+'predict','classicML/backend/python/kernels.py::RBF.__call__']),
]
PLAN={"C240":"The KKT test with a multiplier below C says y*f >= 1 - tol; counting. Coarse data (C228) as counterexample.",
"C241":"C124's decision function, exchanging the sums; convexity of half-spaces.",
"C242":"The kernel sum is bounded by (sum of |alpha y|) * exp(-gamma R)."}
STATUS={"C240":("partial","False in general (C240_violated: on coarse data all samples of label -1 are misclassified without any support vector). Proved for states in which all samples pass their KKT test with their true errors (C240_margin_partial, C240_error_count_partial, C240_classifier_partial; see C227 for when a stop implies that)."),
"C241":("proved","Exact arithmetic."),"C242":("proved","Exact arithmetic.")}
VIOL={"C240":"When samples of different labels are more than 447 apart SVC training stops with all multipliers 0, and every sample of label -1 is misclassified."}
