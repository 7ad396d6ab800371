PROPS=[
("Binary back-propagation uses the true gradient","for a network with one sigmoid output the gradient computed by back-propagation is the gradient of the binary cross-entropy with respect to all weights and biases.","every network depth, parameters, data and labels in {0,1}","derivative identity over reals and arbitrary depth.",["classicML/backend/python/optimizers.py::StochasticGradientDescent.backward","classicML/backend/python/activations.py::Sigmoid.diff"]),
("A multi-class network refuses or understands integer class labels","fitting a network with k >= 2 outputs on a column of class numbers either raises an error or follows the gradient of the cross-entropy of the meant classes.","every network with at least two outputs, every sample and every class number","quantifies over all parameters and depths.",["classicML/backend/python/optimizers.py::StochasticGradientDescent.backward"]),
("Network predictions are row-wise probabilities","the prediction for a row does not depend on the other rows of the batch; every output is strictly between 0 and 1 and the outputs of a multi-class row sum to 1.","every network, batch and row","batches and depths of any size; the softmax subtracts a maximum taken over the whole batch.",["classicML/backend/python/optimizers.py::StochasticGradientDescent.forward","classicML/backend/python/activations.py::Softmax"]),
]
STATUS={
"C49":("proved","initialiser shapes; forward succeeds on any batch and equals the textbook network; wrong width refused; SGD training of any length keeps all shapes and never raises."),
"C51":("proved","strengthened to the whole network: backward is the gradient of the mean cross-entropy w.r.t. all weights and biases, any depth and batch, away from the ReLU kink; one SGD epoch moves along it."),
"C52":("proved","per array entry (all operations are elementwise)."),
"C88":("partial","False as stated: C88_not_the_gradient. Proved: for one sample with label 0/1 (the SGD case) the code's gradient is the true gradient times a factor in [3/4, 2]."),
"C89":("partial","False as stated: C89_integer_labels_accepted (for every network and class number: no error, never the gradient). Proved: label widths other than 1 and k are refused."),
"C90":("proved","exact arithmetic; overflow is not modelled."),
}
PLAN={
"C49":"Model/Network: dynamic-shape arrays with numpy's shape errors, initLayers, forward/backward/update/sgdRun. Induction over the layer list.",
"C51":"Back-propagation on functions proved equal to the code, then HasDerivAt along every direction by induction over the layers (Lemmas/Network bwd_deriv).",
"C52":"Induction over the gradient history; geometric sum.",
"C88":"Witness for the failure, and linearity of back-propagation in the output error for the direction result.",
"C89":"Moving all output biases together leaves the cross-entropy unchanged, but the code's gradient has a non-zero component there.",
"C90":"Consequences of the closed form of forward.",
}
VIOL={
"C88":"binary BPNN back-propagation: output error is p(1-p)(-(y/p-(1-y)/(1-p)) - p) instead of p - y (`sigmoid.diff` subtracts the prediction again); wrong by the factor 1-p+p^2 or 1+p^2.",
"C89":"BPNN with k>=2 outputs silently accepts a column of integer labels and uses the binary formula by broadcasting; never a cross-entropy gradient.",
}
