P="classicML/backend/python/data/preprocessing.py::"
PROPS=[
("MinMaxScaler does not depend on the unit or on the order of the samples","Scaling a·x+b with a > 0 gives the same values as scaling x (for a < 0 the mirrored values 1 - z); with axis=0 every feature may have its own unit; samples in another order get the same values.","all one-dimensional arrays and tables, all factors and offsets, all orders","Quantifies over all data, all affine changes of units and all permutations.",[P+"MinMaxScaler.__call__"]),
("StandardScaler does not depend on the unit","Standardised data do not depend on the unit and the origin in which the data were measured.","all data with positive variance, all factors a ≠ 0 and offsets","Quantifies over all data and all affine changes of units.",[P+"StandardScaler.__call__"]),
("Encoders depend only on the order of the class labels","Renaming the classes by a strictly increasing function does not change the encoded rows, and samples in another order get the same rows, whatever was encoded before.","all label lists of any ordered type, all strictly increasing renamings, all permutations, all earlier uses of the encoder","Ranges over all renamings, permutations and histories.",[P+"OneHotEncoder.__call__",P+"DummyEncoder.__call__",P+"MaxMarginEncoder.__call__"]),
("Metrics and losses do not depend on the order of the samples","Permuting predictions and labels together changes no accuracy and no loss; permuting the classes does not change the categorical cross entropy.","all predictions and labels, all permutations, both engines for the accuracies","Quantifies over all permutations of samples of any number.",["classicML/backend/python/metrics.py::BinaryAccuracy.__call__","classicML/backend/python/metrics.py::CategoricalAccuracy.__call__","classicML/backend/python/losses.py::BinaryCrossentropy.__call__","classicML/backend/python/losses.py::MeanSquaredError.__call__"]),
]
PLAN={"C203":"Model/Preprocess.lean: minimum and maximum of an affine image; permutations keep them.",
"C204":"Model/Preprocess.lean: mean and variance of an affine image; the exact factor 1/a, hence equality iff a = 1.",
"C205":"Model/Preprocess.lean: the rank of a label among the classes is invariant under strictly increasing maps and permutations.",
"C206":"Model/Metrics.lean as functions of the list of pairs, invariant under List.Perm; Model/Losses.lean by reindexing the sums."}
STATUS={"C203":("proved","Exact arithmetic."),"C204":("partial","False: C204_violated (for all data with positive variance the values are the same iff a = 1; they are divided by a, C204_units). Proved: independence of the origin and of the order (C204_origin_partial, C204_order_partial)."),
"C205":("proved",""),"C206":("proved","Exact arithmetic; in floating point the sums may round differently.")}
VIOL={"C204":"StandardScaler divides by the variance (preprocessing.py:359), so that its output depends on the unit of measurement: data in centimetres give values 100 times smaller than the same data in metres."}
