PROPS=[
("Adam's steps are bounded whatever the data",
 "Training a back-propagation network with the Adam optimizer (0 <= beta_1 <= beta_2 < 1, learning_rate >= 0, epsilon > 0), no epoch changes a weight or a bias by more than learning_rate * sqrt((1 - beta_1)/(1 - beta_2)) (ten times the learning rate for the defaults), and n epochs by more than n times that, however large the attributes, labels and gradients.",
 "all network sizes, data sets, initial parameters, sequences of drawn samples and epochs",
 "a bound over all gradient histories; tests see gradients of ordinary size only",
 ['classicML/backend/python/optimizers.py::Adam.run','classicML/api/models/neural_network/back_propagation_neural_network.py::BackPropagationNeuralNetwork.fit']),
]
PLAN={"C236":"Induction over the epochs: (1-b2) m^2 <= (1-b1^t)(1-b1) v by Cauchy-Schwarz, so the bias-corrected quotient is bounded; lifted to networks by C52_network."}
STATUS={"C236":("proved","Exact arithmetic. The first epoch moves every entry by less than learning_rate (C52_first_step).")}
VIOL={}
