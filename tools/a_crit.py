PROPS=[
("A perfect test is found in floating point",
 "With gini, entropy or gain computed in double precision on up to 2^20 samples: if some attribute has a test (a candidate dividing point or a branch per value) after which every group has a single label, the criterion chooses the first such attribute with such a test; the reported value of gini and entropy is 0 exactly in this case, and the reported gain is then the whole entropy.",
 "all data sets of up to 2^20 samples, all mixtures of continuous and discrete attributes, all orders of summation, all formats of the columns, every log2 that is increasing and exact at powers of two",
 "all data sets: rounding errors of frequencies, squares, logarithms and sums could make an impure split look pure or a pure one impure",
 ['classicML/backend/python/tree/criteria.py::Criterion.get_value','classicML/backend/python/tree/criteria.py::Criterion.optimal_division','classicML/backend/python/tree/criteria.py::Gain.optimal_division','classicML/backend/python/tree/criteria.py::Gini','classicML/backend/python/tree/criteria.py::Entropy']),
("Data that one attribute separates give a tree with one question",
 "If one attribute has a test that separates the classes, the fitted decision tree asks a single question and predicts every training sample correctly, with every criterion and in floating point.",
 "all data sets of up to 2^20 samples with such an attribute, all criteria, all roundings of the stored dividing point",
 "all data sets; depends on the rounding of the stored dividing point",
 ['classicML/backend/python/tree/criteria.py::Criterion.get_value','classicML/backend/python/tree/generators.py::DecisionTreeGenerator.tree_generate']),
]
PLAN={"C289":"Model/CriteriaRounded.lean: the criteria with a rounding after each operation and sums in any order. An impurity computed this way is exactly 0 on pure groups and at least 2^-22 (Gini: error analysis of the sum of squares) or 2^-20 (entropy: a label with at most half of the samples) otherwise; shares of groups are at least 2^-20, so a weighted value is 0 iff all groups are pure; for the gain the difference exceeds the rounding error of the entropy.",
"C290":"Same model with the generator of Model/Tree.lean: a perfect test makes all children leaves. Holds if the dividing point is stored unchanged (columns not of higher precision than the library); a 64-bit column in 32-bit mode gives a counterexample with unlimited recursion."}
STATUS={"C289":("proved",""),
"C290":("partial","C290_gini_partial, C290_entropy_partial, C290_gain_partial: proved if storing the dividing point does not change it (library precision at least that of the columns). C290_lost: 64-bit values 1 and 1+2^-30 in 32-bit mode exceed every recursion limit although one comparison separates them.")}
VIOL={"C290":"With 64-bit columns and the default 32-bit precision the criterion evaluates the split at the 64-bit midpoint but the tree stores (and splits at) its 32-bit rounding, which may not separate the classes: for the values 1 and 1+2^-30 with different labels fitting recurses without end (theorem C290_lost)."}
