PROPS=[
("The overload that a C++ binding with mixed kinds of parameters runs is determined exactly by the types of the arguments",
 "For `select_second_alpha`, `compare_differences`, `init_centroids`, `calculate_centroids`, `calculate_error`, `get_prior_probability`, `convex_hull`, `get_w_v1` and the initialisers on the C++ engine: which arguments run in double precision, which in single precision and which raise TypeError is the exact classification stated (e.g. `compare_differences` is in double precision exactly when the tolerance is an np.float64 and the arrays are not both float32).",
 "every combination of argument types (NumPy scalars, arrays of any element type and shape, lists, Python numbers, None, strings, other objects) and both index rules of Python 3.7 and later",
 "the classification ranges over unboundedly many shapes and values; a test tries a few combinations",
 ["classicML/backend/cc/ops/ops_wrapper.cc","classicML/backend/cc/initializers/initializers_wrapper.cc","classicML/backend/cc/numpy_patch.h"]),
("With a seed, the C++ engine gives every RBF network of the same size the same initial parameters",
 "`RBFNormal(seed=s)(hidden_units)` on the C++ engine returns w = 0 (1 x h), b = 0 (1 x 1), the uniform numbers of the seed as centres (h x 2) and the normal numbers of the seed as beta (1 x h), whatever the process did before.",
 "every seed, number of hidden units, random engine and history of the process",
 "depends on the hidden state of a function-local static distribution, i.e. on the whole history of the process",
 ["classicML/backend/cc/initializers/initializers.cc::RBFNormal::PyCall","classicML/backend/cc/matrix_op.cc::GenerateRandomUniformDistributionMatrix","classicML/backend/cc/matrix_op.cc::GenerateRandomStandardNormalDistributionMatrix"]),
("The centres and the widths of a fresh RBF network are unrelated",
 "The initial centres and beta of a radial basis function network are drawn independently: no choice of the centres restricts the possible beta.",
 "every random engine, seed and number of hidden units",
 "independence is a statement about all outcomes of the generator; one draw shows nothing",
 ["classicML/backend/python/initializers.py::RBFNormal.__call__","classicML/backend/cc/initializers/initializers.cc::RBFNormal::PyCall","classicML/backend/cc/matrix_op.cc"]),
("A History holds exactly the values of the training steps",
 "After any sequence of calls, reads of `loss`/`metric` and manipulations of the lists so read, `history.loss` and `history.metric` are the values passed to the calls, in order, and nothing else.",
 "every program of calls, reads, appends and assignments, on both engines",
 "ranges over all programs, including ones that alias the lists",
 ["classicML/backend/python/callbacks.py::History","classicML/backend/cc/callbacks/callbacks.cc::History::PyCall","classicML/backend/cc/callbacks/callbacks_wrapper.cc"]),
("A list read from a History is a record of that moment",
 "`losses = history.loss` is not changed by training that happens afterwards.",
 "every program before and after the read, on both engines",
 "aliasing shows only in programs that keep the list and go on training",
 ["classicML/backend/python/callbacks.py::History","classicML/backend/cc/callbacks/callbacks_wrapper.cc"]),
("History objects of the two engines are interchangeable",
 "The same sequence of operations on a History gives the same exceptions and the same recorded values on the Python and on the C++ engine.",
 "every program of operations with numeric values",
 "ranges over all programs and both engines",
 ["classicML/backend/python/callbacks.py::History.__call__","classicML/backend/cc/callbacks/callbacks_wrapper.cc"]),
]
PLAN={
'C220':"Characterise every parameter kind with and without conversion, turn the dispatcher into a chain of cases (outcome_chain) and decide each table.",
'C221':"Model the uniform matrix and RBFNormal::PyCall with the number left over in the static normal distribution; invariants over even/odd numbers of draws.",
'C222':"Python: for arbitrary centres and beta exhibit a generator producing them. C++: specify the polar method and show by induction over the pairs that beta is a function of the centres.",
'C223':"Operational model of a program with list identities on both engines; induction over the program.",
'C224':"As C223; the variable refers to the live list (Python) or to a fresh list (C++).",
'C225':"As C223; compare the two runs step by step.",
}
STATUS={
'C220':('proved',"Exact classification for each binding. Consequences shown in examples: a Python tolerance always means single precision; float32 data with more than 2^32 clusters runs in double precision; compare_differences accepts None."),
'C221':('partial',"Proved: shapes and values of all four entries, weights/threshold/centres reproducible always, beta reproducible after an even number of hidden units. False in general: with an odd number of hidden units the second network of the same seed gets a shifted beta (C221_violated, C221_not_reproducible)."),
'C222':('partial',"Proved for the Python engine. False on the C++ engine: both matrices are drawn from engines seeded with the same number, so beta is the stretched image of the centres' first coordinates (C222_violated)."),
'C223':('partial',"Proved for the C++ engine in full (attributes are read-only copies) and for the Python engine for programs that leave the lists alone. False on the Python engine: appending to history.loss changes the history (C223_violated)."),
'C224':('partial',"Proved for the C++ engine. False on the Python engine, where the list grows with later training (C224_violated)."),
'C225':('partial',"Proved for positional calls with numbers, the only calls the optimisers make. False for keyword arguments (the C++ binding names its second parameter metric_name) and for assigning the lists (C225_violated)."),
}
VIOL={
'C221':"The C++ RBFNormal with an odd number of hidden units does not repeat its beta: std::normal_distribution is a function-local static whose left-over number survives re-seeding (matrix_op.cc:82).",
'C222':"The C++ RBFNormal draws centres and beta from two engines seeded identically (initializers.cc:200-202, matrix_op.cc:84,103), so beta is determined by the centres.",
'C223':"History.loss on the Python engine is the live list: a caller's append changes the history.",
'C224':"A list read from a Python History grows with later training.",
'C225':"`History.__call__` of the C++ engine names its second parameter `metric_name` instead of `metric_value` (callbacks_wrapper.cc:64); `loss`/`metric` are read-only there.",
}
