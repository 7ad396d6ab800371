A=['classicML/backend/python/optimizers.py::NewtonMethod.run','classicML/backend/python/optimizers.py::NewtonMethod._update_parameters','classicML/backend/python/optimizers.py::NewtonMethod._get_hessian_matrix','classicML/api/models/linear_model/logistic_regression.py::LogisticRegression.fit']
PROPS=[
("An epoch of Newton's method never increases the loss",
 "Training a logistic regression with the 'newton' optimizer, the negative log-likelihood of the training data does not increase from one epoch to the next.",
 "all data sets, labels 0/1, initial parameters and epochs",
 "holds for benign data and initial values; overshooting needs a particular region of the parameter space",
 A),
("Newton's method trains on every data set",
 "Training a logistic regression with the 'newton' optimizer does not raise for any numerical training set with labels 0/1.",
 "all data sets, labels, initial parameters and numbers of epochs",
 "whether the Hessian is singular depends on the rank of the data",
 A),
("Newton's method converges quadratically near the optimum",
 "If the first Newton step is short compared with the curvature of the loss, training never fails, a best parameter vector exists, and the error of every score is (squared, up to a constant) at most the previous one: after e epochs at most (4/3)(1/4)^(2^e).",
 "all data sets, labels 0/1, initial parameters in the stated region and numbers of epochs",
 "an asymptotic statement about unboundedly many epochs",
 A),
]
PLAN={
"C233":"A closed form of the Newton step on four noisy rows (u -> u - sinh u) gives divergence from an open set of initial parameters by induction; for steps that change no score by more than 1, a third-order bound of the logistic loss gives descent.",
"C234":"The Hessian is the Gram matrix of the rows with positive weights, so it is singular exactly if the attributes with the constant are linearly dependent.",
"C235":"Newton-Kantorovich argument with generalised self-concordance of the logistic loss: the relative size of the steps squares in every epoch; limit by completeness, optimality by convexity.",
}
STATUS={
"C233":("partial","False (C233_violated): from all initial parameters with large scores on four noisy rows, every epoch increases the loss, without bound. Proved for epochs that change no score by more than 1 (strictly smaller loss unless nothing changes)."),
"C234":("partial","Exactly characterised (C234_newton_succeeds_iff): an epoch succeeds iff attributes and constant are linearly independent. Otherwise every fit with at least one epoch raises (C234_violated), e.g. with fewer samples than parameters or a constant or repeated attribute (C234_dependent). Exact arithmetic: rounding may turn a singular matrix into a nearly singular one."),
"C235":("proved","Exact arithmetic."),
}
VIOL={"C233":"NewtonMethod takes full steps: on the rows a, a, -a, -a with labels 0, 1, 0, 1 and initial scores of absolute value at least 4 the loss grows in every epoch, beyond every bound, although the best parameters are zero.",
"C234":"LogisticRegression with the newton optimizer raises LinAlgError whenever the attributes are linearly dependent on the training rows (a constant or repeated attribute, or at most as many samples as attributes)."}
