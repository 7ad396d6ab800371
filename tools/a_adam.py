PROPS=[
("Training in two calls of fit is training for the sum of the epochs",
 "Calling fit of a neural network for e1 epochs and then for e2 epochs gives the parameters that fit for e1 + e2 epochs gives with the same random draws, for every optimiser.",
 "all networks, data sets, optimisers, numbers of epochs and random draws",
 "The state an optimiser keeps between epochs is not visible; the claim is about all histories of calls.",
 ["classicML/api/models/neural_network/back_propagation_neural_network.py::fit","classicML/backend/python/optimizers.py::Adam.run","classicML/backend/python/optimizers.py::StochasticGradientDescent.run"]),
]
PLAN={"C167":"Model.Adam: Adam on the parameter lists with its moments and epoch counter, refined to the entry-wise rule of C52 (C52_network); SGD by induction over the draws."}
STATUS={"C167":("partial","Proved for SGD on a loaded network (C167_sgd_loaded_partial). Fails for every network that was not loaded (fit starts from fresh parameters, C167_fit_restarts), and for Adam on every one-layer network (C167_adam_violated): each call restarts the moments and the epoch counter.")}
VIOL={"C167":"Training cannot be continued: fit re-initialises the parameters unless weights were loaded, and Adam restarts its moments and its epoch counter in every call."}
