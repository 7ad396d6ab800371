PROPS=[
("A hidden unit that is inactive on the training set never learns",
 "A unit of the first hidden layer whose input is at most 0 on every training row keeps its incoming weights, bias and outgoing weights during the whole training, with SGD and with Adam, and stays inactive; if all units of that layer are so, the trained network gives every training row the same answer. With features that are not negative this happens to every unit whose initial weights are not positive.",
 "all networks with a hidden layer, data, labels, learning rates, draws and numbers of epochs",
 "all sequences of drawn samples and all numbers of epochs",
 ['classicML/backend/python/activations.py::Relu.diff','classicML/backend/python/optimizers.py::StochasticGradientDescent.run','classicML/backend/python/optimizers.py::Adam.run','classicML/api/models/neural_network/back_propagation_neural_network.py::BackPropagationNeuralNetwork.fit']),
]
PLAN={"C253":"The derivatives of a silent unit are 0 on every sample; induction over the drawn samples (for Adam over the prefixes, with zero moments)."}
STATUS={"C253":("proved","C253_sgd, C253_adam, C253_all_silent, C253_initial.")}
VIOL={}
