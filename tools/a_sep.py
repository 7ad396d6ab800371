A=['classicML/backend/python/optimizers.py::GradientDescent.run','classicML/backend/python/optimizers.py::GradientDescent.backward','classicML/api/models/linear_model/logistic_regression.py::LogisticRegression.fit']
PROPS=[
("On separable data gradient descent learns every training sample",
 "If some parameter vector separates the two classes of the training set and the learning rate is at most 4 / sum(|x_i|^2 + 1), training a logistic regression by gradient descent drives the loss to 0 and, after an explicit number of epochs given by the margin, every training row is given its own class, from any initial parameters. The parameters grow beyond every bound.",
 "all separable data sets, numbers of features, initial parameters and all sufficiently large numbers of epochs",
 "a statement about the limit of unboundedly many epochs",
 A),
("Gradient descent with the default learning rate approaches the best parameters",
 "Training a logistic regression by gradient descent with the default learning rate, the loss approaches the smallest possible loss as the number of epochs grows.",
 "all data sets, labels 0/1 and initial parameters",
 "needs the limit of the training, and data of unusual scale",
 A),
]
PLAN={"C237":"C83's convergence bound against c*u for the separating vector u; a loss below log 2 makes every row correct; Cauchy-Schwarz for the growth of the parameters.",
"C238":"On four noisy rows the epoch is the scalar map u -> u - 2 lr a^2 tanh(u/2): instability at 0 by its derivative, a cycle of length two by the intermediate value theorem. With a small rate, C83's bound gives the limit."}
STATUS={"C237":("proved","Exact arithmetic."),
"C238":("partial","False (C238_violated): with one attribute of size a and learning_rate*a^2 > 2 (a = 15 for the default), an epoch increases the loss arbitrarily close to the best parameters, and training from some initial parameters alternates for ever between two parameter vectors. Proved (C238_small_rate_partial) for learning_rate <= 4 / sum(|x_i|^2 + 1)."),}
VIOL={"C238":"GradientDescent has a fixed learning rate (default 0.01) and sums the gradient over all samples: on unscaled data (four rows 15, 15, -15, -15 with labels 0, 1, 0, 1) training oscillates for ever and never approaches the best parameters."}
