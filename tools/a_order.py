PROPS=[
("Decision trees and the order of the attributes",
 "Fitting a decision tree on the same data with the columns in another order gives the same tree with the attributes renumbered - the same questions, answers, leaf count and height - and therefore the same prediction for every row.",
 "all data sets, discrete and continuous attributes, all impurity measures and both criteria, all permutations of the columns, all rows to predict",
 "ranges over all data sets, permutations and rows",
 ['classicML/api/models/tree/decision_tree_classifier.py::DecisionTreeClassifier','classicML/backend/python/tree/criteria.py::Gini','classicML/backend/python/tree/criteria.py::Gain','classicML/backend/python/tree/generators.py::DecisionTreeGenerator']),
]
PLAN={"C342":"Induction on the generation: a strictly best attribute is found in any order of the columns; the trees are compared by renumbering."}
STATUS={"C342":("partial","True for trees no question of which is tied with another attribute (C342_criterion_partial, C342_gain_partial); false with ties, where the first column wins (C342_violated).")}
VIOL={"C342":"If two attributes are equally good questions, the first column is asked about, so the order of the columns changes the answers to new rows (`C342_violated`)."}
