PROPS=[
("Decision stumps, two-level trees and the order of the attributes",
 "Fitting a decision stump or a two-level tree on the same samples with the columns in another order gives the same model with the attributes renumbered, and therefore the same prediction for every row.",
 "all data sets with labels plus and minus one, all weights, all permutations of the columns, all rows to predict",
 "ranges over all data sets, permutations and rows",
 ['classicML/api/models/tree/decision_tree_classifier.py::DecisionStumpClassifier','classicML/api/models/tree/decision_tree_classifier.py::TwoLevelDecisionTreeClassifier','classicML/backend/python/tree/generators.py::DecisionStumpGenerator','classicML/backend/python/tree/generators.py::TwoLevelDecisionTreeGenerator','classicML/backend/python/tree/criteria.py::WeightedGini']),
]
PLAN={"C343":"A part of the candidates that contains a strictly best one decides the search alone, whatever stands before and after it; renumbering for the rest. The number of mistakes of the stump is the minimum over a set of candidates that does not depend on the order."}
STATUS={"C343":("partial","True for models no question of which is tied with a question about another attribute (C343_two_levels_partial, C343_stump_partial); the number of training mistakes of the stump never depends on the order (C343_stump_mistakes); false with ties, where the first column wins (C343_violated).")}
VIOL={"C343":"If questions about two attributes are equally good, the first column is asked about, so the order of the columns changes the answers to new rows (`C343_violated`)."}
