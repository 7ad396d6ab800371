PROPS=[
("A decision tree on continuous attributes cuts the space into boxes",
 "A decision tree that asks about continuous attributes only - fitted, pruned or loaded - divides the rows into axis-parallel boxes, one per leaf and so at most one per training sample: every row is in exactly one box and gets the label of the box, and all rows between two rows of a box get the same answer.",
 "all trees without discrete tests, all rows",
 "all rows of the space; a test asks for a few",
 ['classicML/api/models/tree/decision_tree_classifier.py::DecisionTreeClassifier.predict']),
("Only the support vectors matter",
 "Multipliers of a SupportVectorClassifier that are optimal up to the tolerance stay so, with the same decision function, when samples that are not support vectors are left out of the training set, and when samples beyond the margin are added to it; a support vector cannot be left out.",
 "all training sets, labels -1/+1, penalties, tolerances, kernels (positive semidefinite for the second part), all subsets of the samples",
 "all training sets and subsets; a test retrains on one",
 ['classicML/backend/python/optimizers.py::SequentialMinimalOptimization.run','classicML/api/models/support_vector_machine/support_vector_classifier.py::SupportVectorClassifier.fit']),
]
PLAN={"C307":"Boxes with optional bounds (Spec/TreeBoxes); induction over the tree, the boxes of the branches cut by the question of the node.",
"C308":"The problem restricted to chosen samples (Spec/SVMSubset); sums over all samples reduce to the chosen ones; the KKT theorem of C227 for the added samples."}
STATUS={"C307":("proved","C307_boxes, C307_fit (at most as many boxes as samples), C307_between."),
"C308":("proved","C308_leave_out, C308_add, C308_support_needed. That training reaches multipliers optimal up to the tolerance is C227 (partial).")}
VIOL={}
