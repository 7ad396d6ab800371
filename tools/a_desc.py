PROPS=[
("A network's training step lowers the loss of the drawn sample",
 "For every back-propagation network, every epoch of SGD, and the first epoch of Adam, with a small enough learning rate lowers the cross-entropy of the sample drawn in that epoch.",
 "all depths and widths, all parameters with no hidden unit exactly at the kink of ReLU on that sample, all samples with one-hot (or 0/1) labels, all learning rates below a bound that depends on them",
 "all networks and samples and all small learning rates; a test sees single steps",
 ['classicML/backend/python/optimizers.py::StochasticGradientDescent.run','classicML/backend/python/optimizers.py::Adam.run']),
("An epoch of the RBF network does not raise the error",
 "With a small enough learning rate an epoch of RadialBasisFunctionOptimizer lowers the squared error of the network or leaves it alone; in particular a network that computes all labels stays as it is.",
 "all numbers of hidden units, parameters, samples, label columns and small learning rates",
 "all parameters and data; the wrong gradient of the widths only shows after the output weights have left zero",
 ['classicML/backend/python/optimizers.py::RadialBasisFunctionOptimizer.run','classicML/backend/python/optimizers.py::RadialBasisFunctionOptimizer.backward','classicML/backend/python/optimizers.py::RadialBasisFunctionOptimizer._update_parameters']),
]
PLAN={"C293":"From the gradients of C51 and C88 (directional derivatives along every direction): the step moves along minus the gradient (SGD), a positive multiple of it (binary output) or a vector with the same signs (first step of Adam); the derivative of the loss along it is negative because the derivative with respect to the output biases is never zero.",
"C294":"Closed form of an epoch from C53. For a perfect network the gradients of weights and bias vanish but the widths move, in the direction that lowers every unit's contribution; for zero output weights the error is a quadratic function of the learning rate."}
STATUS={"C293":("proved",""),
"C294":("partial","C294_perfect_fit_lost: fails for every perfect network with non-negative labels, a unit of non-zero weight and a sample of positive label away from its centre, for every positive learning rate: the error rises from 0. C294_zero_weights_partial: holds for networks whose output weights are zero (fresh ones).")}
VIOL={"C294":"RadialBasisFunctionOptimizer.backward multiplies by y_pred instead of y_pred - y_true in the gradient of beta, so an epoch moves the widths of a network that already computes every label, and its error rises from 0 for every learning rate (theorem C294_perfect_fit_lost)."}
