PROPS=[("fit runs the compiled optimizer from the initializer's draw, and predict evaluates the result",
"After compile, fit performs exactly the given number of optimizer epochs (all samples, or the one sample drawn from the generator, per epoch), from the parameters that the compiled initializer draws at that moment (documented scale, no biases), or from the loaded weights; watching the training changes nothing; predict is the model function at the trained parameters.",
"all instances of LogisticRegression, BackPropagationNeuralNetwork and RadialBasisFunctionNetwork compiled with the optimizers made for them, all data, labels in any shape, all epochs, all states of the random generator",
"The composition of initializer, optimizer loop and forward pass must be exact for every number of epochs, structure and random stream.",
["classicML/api/models/linear_model/logistic_regression.py::LogisticRegression.fit","classicML/api/models/linear_model/logistic_regression.py::LogisticRegression.predict","classicML/api/models/neural_network/back_propagation_neural_network.py::BackPropagationNeuralNetwork.fit","classicML/api/models/neural_network/radial_basis_function_network.py::RadialBasisFunctionNetwork.fit","classicML/backend/python/optimizers.py::StochasticGradientDescent.run","classicML/backend/python/optimizers.py::NewtonMethod.run"])]
PLAN={"C202":"Model/Compile.lean against the epochs of LogReg, Network, Adam and RBF: the generic loop is shown equal to each optimiser's own iteration by induction on the epochs; the drawn parameters by induction on the structure (Spec/Compile: StartsAs, StartsRBF, LabelsAre, indices)."}
STATUS={"C202":("proved","Gradient descent, Newton, SGD, Adam and the RBF optimiser; loaded weights; predict of the three families with the explicit logistic formula. Rounding is left out; watched training assumes that computing loss and metric does not raise (Watch.Clean), the exceptions otherwise are C174_watched.")}
VIOL={}
