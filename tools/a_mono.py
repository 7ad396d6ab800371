PROPS=[
("Increasing transformations of the attributes of a decision tree",
 "Replacing every attribute by an increasing function of it (logarithm, square root, change of unit) changes neither whether training fails, nor the size and height of the tree, nor the class it predicts for any training row, with the Gini index, the entropy and the information gain.",
 "all training sets, all transformations that increase on the values in the table and keep whether a column counts as numerical",
 "all data sets and all increasing functions; a table can only show a few",
 ['classicML/backend/python/tree/generators.py::DecisionTreeGenerator.tree_generate','classicML/backend/python/tree/criteria.py::Criterion.get_value','classicML/backend/python/tree/criteria.py::Criterion.optimal_division','classicML/backend/python/tree/criteria.py::Gain.get_value','classicML/backend/python/tree/criteria.py::Gain.optimal_division']),
]
PLAN={"C261":"The candidate thresholds of the transformed column lie in the same gaps; the sequence of scores is equal, hence the same attribute and corresponding thresholds are chosen; induction over the recursion. A new row inside a gap may be answered differently (C261_new_row)."}
STATUS={"C261":("proved","")}
VIOL={}
