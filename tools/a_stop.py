PROPS=[
("Training a support vector machine without a limit on the epochs comes to an end",
 "SVC.fit(..., epochs=-1) - train until no pair can be improved - returns.",
 "every data set, symmetric kernel, C, tolerance and sequence of permutations",
 "termination of an unbounded loop under all random choices",
 ["classicML/backend/python/optimizers.py::SequentialMinimalOptimization.run","classicML/backend/python/optimizers.py::SequentialMinimalOptimization._update_parameters","classicML/backend/python/optimizers.py::SequentialMinimalOptimization._update_error_cache","classicML/api/models/support_vector_machine/support_vector_classifier.py::SupportVectorClassifier.fit"]),
]
PLAN={'C229':"Termination: the dual objective is bounded on the box and every pass with a change raises it by a fixed amount (C10), so finitely many passes (Archimedean). Divergence: a nondeterministic sweep over all orders of the partners, shown sound for every sequence of permutations; the set of states is closed under it and contains no stopping state."}
STATUS={'C229':('partial',"Proved for all problems whose cached errors are right in every reachable state (C229_ends_partial; met e.g. by two points). False in general: three separable points on a line, linear kernel, default C and tol: training never returns, whatever the permutations (C229_never_ends, C229_fit_never_returns).")}
VIOL={'C229':"SVC.fit(epochs=-1) never returns on the rows [-1], [-4], [-2] with labels -1, +1, -1 and a linear kernel (default C, tol), for every sequence of permutations: the stale error cache (optimizers.py:1084-1086) makes every pass change the already optimal multipliers."}
