PROPS=[
("An interrupted save is noticed",
 "If save_weights is interrupted at any point, the path afterwards holds the old model or the new one, or at least a file that load_weights refuses; never a file that loads as another model.",
 "all models, instances, contents of the file system, and all points of interruption between two writes",
 "every crash point; tests do not interrupt a save",
 ['classicML/backend/io.py::initialize_weights_file','classicML/api/models/neural_network/back_propagation_neural_network.py::BackPropagationNeuralNetwork.save_weights','classicML/api/models/neural_network/back_propagation_neural_network.py::BackPropagationNeuralNetwork.load_weights','classicML/api/models/neural_network/radial_basis_function_network.py::RadialBasisFunctionNetwork.load_weights']),
]
PLAN={"C320":"save_weights as a list of writes (C320_all_writes: after all of them the file is the saved one); a prefix lacks the last attribute, which load_weights reads; the file of an interrupted save of a network is the file of a save with fewer parameters."}
STATUS={"C320":("partial","Proved: refused at every point of interruption for all models but the two networks, and for these until the weights are written (C320_refused_partial). False for the networks (C320_network_indistinguishable, C320_network_accepted), and the old model is lost (C320_neither_old_nor_new). Files that the HDF5 library itself leaves unreadable are not modelled.")}
VIOL={"C320":"a save of a BackPropagationNeuralNetwork or RadialBasisFunctionNetwork interrupted among its weights leaves a file that load_weights accepts: a network with the first parameters only, or none (C320_network_indistinguishable, C320_network_accepted); for all models the file that was at the path before is lost as soon as saving starts (C320_neither_old_nor_new)."}
