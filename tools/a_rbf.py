O="classicML/backend/python/optimizers.py"
PROPS=[
("RBF networks accept label vectors","RadialBasisFunctionNetwork.fit accepts labels as a one-dimensional array, the form used by the other models.","every data set with two features, label vector and number of epochs","all data and parameters.",[O+"::RadialBasisFunctionOptimizer.backward","classicML/api/models/neural_network/radial_basis_function_network.py"]),
("RBF networks accept any number of features","fit and predict of an RBF network work for any number of features and compute sum_u w_u exp(-beta_u ||x-c_u||^2) + b.","every number of features and every data set","all feature counts and data.",["classicML/backend/python/initializers.py::RBFNormal",O+"::RadialBasisFunctionOptimizer.forward"]),
("The first RBF epoch","a freshly initialised RBF network predicts 0 everywhere; the first epoch leaves beta and the centres unchanged and sets the bias to the learning rate times the mean label.","every random initialisation and data set","all random draws and data.",["classicML/backend/python/initializers.py::RBFNormal",O+"::RadialBasisFunctionOptimizer"]),
("Monitoring does not change training","the trained parameters do not depend on verbose, on the callbacks or on earlier uses of the optimiser's progress bar.","every optimiser loop, number of epochs and monitoring setting","all histories of fits.",[O+"::StochasticGradientDescent.run",O+"::Adam.run",O+"::GradientDescent.run",O+"::NewtonMethod.run"]),
("The last History record describes the returned model","after fit the last loss and metric in a History callback are the loss and metric of the returned parameters.","every optimiser, data set and number of epochs >= 1","all training histories.",[O+"::GradientDescent.run",O+"::NewtonMethod.run",O+"::RadialBasisFunctionOptimizer.run",O+"::StochasticGradientDescent.run"]),
("verbose=False is silent","fit with verbose=False writes no progress line; with verbose=True it writes one line per epoch, numbered 1..n of n.","every sequence of fits","histories of fits of any length.",[O+"::Optimizer","classicML/backend/python/_utils.py::ProgressBar"]),
("Optimiser extra arguments are bound by position or name","the values of verbose, loss, metric and callbacks given to an optimiser by position or keyword reach the parameter of that name; omitted ones have a neutral default.","every split into positional and keyword arguments, any order and values","all argument lists and values.",[O+"::_get_optimizer_parameters"]),
]
STATUS={
"C53":("partial","False for beta: C53_beta_ignores_labels (for all data the code uses the gradient of the mean squared prediction), C53_beta_wrong. Proved for w and b."),
"C91":("partial","False: C91_label_vector_refused (for all data). Proved for labels of shape (n,1): training never raises, keeps shapes and centres."),
"C92":("partial","False: C92_two_features_only. Proved for two features."),
"C93":("proved",""),
"C54":("proved","Also for histories listed several times."),
"C55":("partial","Width and monotone filling proved for every rounding; 'full exactly at the last epoch' is false from 26 epochs on (C55_full_too_early); the C++ bar violates it everywhere (C55_cc_violated, C55_cc_never_full)."),
"C94":("proved","The update and the evaluation functions are parameters of the loop model."),
"C95":("partial","True for SGD and Adam; false for logistic regression and RBF networks (C95_one_epoch_behind, C95_violated)."),
"C96":("partial","False after one verbose fit (C96_violated, for all sequences); proved for optimisers never used verbosely."),
"C97":("partial","Binding proved for values that are not parameter names; omitted arguments hold their own name as a string (C97_omitted)."),
}
PLAN={
"C53":"Model/RBF with numpy shapes; partial derivatives with HasDerivAt in one coordinate.",
"C91":"Shape errors of the in-place update; induction over epochs.",
"C92":"Broadcasting rules in forward.",
"C93":"Closed forms of forward and backward at the initial parameters.",
"C54":"Model/Training: generic training loop with progress bar, callbacks and history heap; induction over epochs and fits.",
"C55":"Integer/rational rounding: bar as list of characters; rounding as monotone function fl.",
"C94":"Induction over the loop.","C95":"Closed form of the records.","C96":"Closed form of the drawn lines.",
"C97":"Fold over keyword arguments.",
}
VIOL={
"C53":"RBF optimiser uses y_pred instead of y_pred - y_true in drho: the beta update ignores the labels.",
"C91":"RBF fit with a label vector of length n>=2 raises ValueError (broadcast to (n,n)).",
"C92":"RBF centres are always drawn with two columns: any data set with 3 or more features raises ValueError.",
"C55":"progress bar: full before the last epoch for n >= 26; the C++ bar uses integer division and never moves (26 cells).",
"C95":"History of logistic regression pairs the loss after the update with the metric before it; RBF records lag one epoch.",
"C96":"the progress bar of a verbose fit stays in the optimiser: later fits with verbose=False still print, with the old total.",
"C97":"_get_optimizer_parameters: omitted arguments become the strings 'verbose', 'loss', 'metric', 'callbacks'; string values equal to a name are overwritten by keywords.",
}
