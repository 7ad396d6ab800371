B="classicML/api/models/neural_network/back_propagation_neural_network.py::BackPropagationNeuralNetwork."
R="classicML/api/models/neural_network/radial_basis_function_network.py::RadialBasisFunctionNetwork."
O="classicML/backend/python/optimizers.py::"
PROPS=[
("A network does not depend on how samples, features, hidden units and classes are numbered","Renumbering the features, the hidden units, the classes and the samples (with the drawn indices) of the training data and of the initial network renumbers the trained network and its predictions and changes nothing else; in particular the numbering of the hidden units changes no prediction.","all depths and widths, data, initial weights, renumberings, learning rates, numbers of epochs and sequences of draws, for SGD and Adam","Quantifies over all architectures, data, training lengths and permutations.",[B+"fit",B+"predict",O+"StochasticGradientDescent.run",O+"Adam.run"]),
("Hidden units that start alike stay alike","Two units of a hidden layer with equal incoming weights, bias and outgoing weights are still equal after any training: a constant initialisation never uses more than one unit per layer.","all depths and widths, data, learning rates, numbers of epochs and draws, for SGD and Adam","An invariant of every training run of any length.",[B+"fit",O+"StochasticGradientDescent.run",O+"Adam.run"]),
("An RBF network moves with the plane and does not depend on the order of samples or hidden units","Applying a rotation, reflection or translation to samples, centres and queries, reordering samples and renumbering hidden units changes no prediction of the trained network.","all motions of the plane, numbers of hidden units, samples, epochs, learning rates and initial parameters","Quantifies over all data, motions and training lengths.",[R+"fit",R+"predict",O+"RadialBasisFunctionOptimizer.run"]),
]
PLAN={"C211":"Model/Network.lean, Model/Adam.lean: a relation between networks (rows and columns renumbered per layer) is kept by forward, backward and the updates; induction over layers and epochs.",
"C212":"Model/Network.lean, Model/Adam.lean: twins are the fixed points of the renumbering that exchanges them (twins_iff), so C211 applies with the same network on both sides.",
"C213":"Model/RBF.lean: distances are invariant under motions, so the relation between parameters is kept by every epoch."}
STATUS={"C211":("proved","Exact arithmetic; labels with one column per output."),"C212":("proved","Exact arithmetic."),"C213":("proved","Exact arithmetic; two features (the only number the optimiser accepts, C92) and labels of shape (n, 1) (C91).")}
VIOL={}
