PROPS=[
("No classifier makes fewer training errors than an unpruned decision tree",
 "Whenever DecisionTreeClassifier.fit without pruning completes, the tree answers every row of the training set with a label that is most frequent among the training samples equal to that row; so no function from rows to labels, in particular no constant answer, is right on more training samples. With discrete attributes training completes on every table.",
 "all tables with discrete and continuous columns, also with contradictory samples, all criteria, all rules for ties, all functions from rows to labels",
 "all tables and all competing classifiers; tests check training accuracy on a sample table without contradictions",
 ['classicML/backend/python/tree/generators.py','classicML/api/models/tree/decision_tree_classifier.py::DecisionTreeClassifier.fit']),
]
PLAN={"C301":"Induction over the recursion of the generator with the invariant that rows agree on the attributes already used: the group of samples equal to a row travels as a whole, and every leaf is pure or carries the majority of equal rows. The comparison with any function by summation over the groups."}
STATUS={"C301":("proved","")}
VIOL={}
