PI="classicML/backend/python/initializers.py"
CI="classicML/backend/cc/initializers/initializers.cc"
MO="classicML/backend/cc/matrix_op.cc"
PROPS=[
("Initialisers produce the documented shapes and scales",
 "for a network structure [n0, n1, ...] an initialiser returns exactly the parameters w1, b1, w2, b2, ...; w_l has shape (n_l, n_{l-1}) and consists of standard normal numbers times 1, sqrt(2/N_in) or sqrt(2/(N_in+N_out)), b_l is a row of zeros; for a logistic regression with d attributes it returns d+1 numbers; the RBF initialiser returns zero weights and bias, uniform centres and normal widths",
 "every initialiser, every network structure, every state of the random generator",
 "all depths and layer sizes; the numbers are random",
 [PI+"::RandomNormal",PI+"::HeNormal",PI+"::XavierNormal",PI+"::RBFNormal"]),
("XavierNormal uses the Glorot scale",
 "the weights made by XavierNormal are standard normal numbers times sqrt(2/(N_in+N_out))",
 "every network structure and every number of attributes of a logistic regression",
 "a statement about the distribution of random numbers for all sizes",
 [PI+"::XavierNormal"]),
("The seed of a model determines its initial parameters",
 "a model compiled with a seed starts its training with parameters that depend on the seed only",
 "every interleaving of compiling and training several models in one process",
 "all histories of the process",
 [PI+"::Initializer","classicML/backend/training.py::get_initializer"]),
("The seed determines the initial parameters (C++ engine)",
 "with the C++ engine two calls of an initialiser with the same seed and the same structure return the same parameters",
 "every history of the process, every structure and seed",
 "depends on hidden state kept from previous calls",
 [MO+"::GenerateRandomStandardNormalDistributionMatrix",CI+"::RandomNormal",CI+"::HeNormal",CI+"::XavierNormal"]),
("Different weights are different random numbers",
 "the weights of a freshly initialised network are pairwise different draws of the random generator, in both engines",
 "every initialiser and network structure",
 "all structures; equality of random numbers",
 [PI+"::RandomNormal",CI+"::RandomNormal",MO+"::GenerateRandomStandardNormalDistributionMatrix"]),
]
PLAN={
"C137":"Generators as state machines, the parameter dictionary with string keys; induction over the structure; the scale is specified by its square.",
"C138":"The same model; the factor of the logistic regression against the documented one.",
"C139":"np.random as one global state; constructing an initialiser overwrites it.",
"C140":"std::normal_distribution with its saved second number as static state, the engine re-seeded per matrix; parity of the number of entries.",
"C141":"An injective numbering of the weights (Python); the C++ layers restart the sequence.",
}
STATUS={
"C137":("proved","Exact arithmetic (the cast to 32 bits is left out); sizes are numpy integers."),
"C138":("partial","Holds for networks; false for logistic regression, where the factor is sqrt(d)."),
"C139":("partial","Holds only if the parameters are made directly after compiling: constructing an initialiser seeds numpy's global generator and calling it does not."),
"C140":("partial","Holds as long as only even-sized matrices have been drawn; false after an odd number of draws."),
"C141":("partial","Holds for the Python engine; in the C++ engine every layer repeats the same numbers."),
}
VIOL={
"C138":"XavierNormal multiplies the parameters of a logistic regression by sqrt(d) instead of sqrt(2/(N_in+N_out)) (C138_violated, C138_grows).",
"C139":"the seed is applied to numpy's global generator when the initialiser is constructed, so the last model compiled decides and a second fit continues the sequence (C139_last_seed_wins, C139_second_call).",
"C140":"the static std::normal_distribution keeps its second number between calls although the engine is re-seeded: equal seeds give different parameters (C140_violated).",
"C141":"the C++ engine is re-seeded for every layer: layers of equal shape start with identical weights (C141_cc_violated).",
}
