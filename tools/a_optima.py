S='classicML/api/models/support_vector_machine/support_vector_classifier.py::SupportVectorClassifier.'
O='classicML/backend/python/optimizers.py::'
L='classicML/backend/python/losses.py::'
LR='classicML/api/models/linear_model/logistic_regression.py::LogisticRegression.'
BG='classicML/api/models/ensemble/bagging.py::BaggingClassifier.'
PROPS=[
("Both optimisers of logistic regression find the same model",
 "Whatever the learning rates and the initial parameters, two runs of gradient descent on the same data that came to rest give every training row the same probability; if one of two runs that came to rest used Newton's method, the parameters themselves are equal.",
 "all data sets, learning rates, initial parameters and numbers of epochs",
 "all data sets, all starting points and both optimisers",
 [LR+'fit',O+'GradientDescent.run',O+'NewtonMethod.run']),
("The cross-entropies reward the true probabilities",
 "Among all predicted probabilities the binary and the categorical cross-entropy are smallest at the true probabilities of the classes and only there; for a hard label the loss is smaller exactly when the true class is given a higher probability.",
 "all numbers of samples and classes, all true probabilities, all predictions",
 "an inequality over all pairs of probability tables",
 [L+'BinaryCrossentropy.__call__',L+'CategoricalCrossentropy.__call__']),
("Ensembles compiled with different seeds are trained on different bootstrap samples",
 "Two bagging ensembles of the same base learner trained on the same data with different seeds draw the bootstrap samples of their members from different seeds.",
 "all data sets, base learners, generators, pairs of seeds and sizes",
 "all generators, seeds and sizes",
 [BG+'fit','classicML/backend/python/ops.py::bootstrap_sampling']),
("The votes of an ensemble",
 "The prediction of an ensemble does not depend on the order of its members; one more member changes an answer only to the label it votes for; two bagging ensembles that agree on a row agree when they are merged.",
 "all ensembles, all orders, all rows",
 "all ensembles and all orders of their members",
 [BG+'predict','classicML/api/models/ensemble/boosting.py::AdaBoostClassifier.predict']),
("The RBF kernel separates all distinct rows",
 "For positive gamma and distinct rows the matrix of RBF kernel values is positive definite; hence every labelling of distinct training rows can be represented by an RBF classifier, and the training problem of the RBF support vector classifier has at most one solution.",
 "all numbers of distinct rows, all dimensions, all positive gamma, all labels",
 "all matrices of all sizes",
 ['classicML/backend/python/kernels.py::RBF.__call__',S+'fit']),
]
PLAN={"C270":"Stationary points of the convex cost have the same scores (strict monotonicity of the logistic function along a segment); a regular Hessian gives injectivity of the scores.",
"C271":"Gibbs' inequality from log t <= t - 1 with its equality case.",
"C272":"Member i is learned from the bootstrap sample of seed + i (C36): shifting the seed shifts the members.",
"C273":"Votes are sums: permutations, signs.",
"C274":"Expansion of exp of the inner product as a series of squares of moments; if all moments vanish, a Vandermonde determinant along a separating direction forces all coefficients to vanish. Strict concavity of the dual objective."}
STATUS={"C270":("proved","For runs that came to rest; C84/C233-C238 say when they do."),
"C271":("proved","Probabilities strictly between 0 and 1 (otherwise the loss is not finite)."),
"C272":("partial","Proved for seeds that are at least as far apart as the ensembles are large."),
"C273":("proved","Bagging and AdaBoost."),
"C274":("proved","Exact arithmetic.")}
VIOL={"C272":"fit uses the seeds seed, seed+1, ..., so two ensembles with seeds s and s+j share all members but j (C272_neighbours_violated)."}
