G="classicML/backend/python/tree/"
D="classicML/api/models/tree/decision_tree_classifier.py::DecisionTreeClassifier"
PROPS=[
("Decision trees do not depend on the units of the attributes",
 "Giving every numerical attribute its own new unit (a positive factor) and origin (an offset), without changing which columns count as continuous, changes the dividing points accordingly and nothing else: fit raises in the same cases, the tree has the same shape, every row gets the label it had; post-pruning included.",
 "all data sets, factors, offsets, criteria (gini, entropy, gain), recursion limits and rows",
 "A relation between two trainings for all data and all changes of units.",
 [G+"generators.py::DecisionTreeGenerator.tree_generate",G+"criteria.py::Criterion.get_value",G+"criteria.py::Gain.get_value",G+"pruners.py::PostPruner.__call__",D+".fit",D+".predict"]),
("Decision trees do not depend on the names of values and classes",
 "Renaming attribute values and classes one to one renames the tree and its predictions and changes nothing else (given that ties between equally frequent classes are broken in the same way); post-pruning included.",
 "all data sets, one-to-one renamings, criteria (gini, entropy, gain), recursion limits and rows",
 "A relation between two trainings for all data and all renamings.",
 [G+"generators.py::DecisionTreeGenerator.tree_generate",G+"criteria.py::Criterion.get_value",G+"criteria.py::Gini.__call__",G+"criteria.py::Entropy.__call__",G+"pruners.py::PostPruner.__call__",D+".fit",D+".predict"]),
("Decision trees do not depend on the order of the samples",
 "Training on the same labelled rows in another order raises in the same cases and otherwise gives a tree that answers every row (or raises) as before and records the same number of leaves and height (given that ties between equally frequent classes are broken independently of the order).",
 "all data sets, permutations, criteria (gini, entropy, gain), recursion limits and rows",
 "A relation between two trainings for all data and permutations.",
 [G+"generators.py::DecisionTreeGenerator.tree_generate",G+"criteria.py::Criterion.get_value",G+"criteria.py::Criterion.optimal_division",G+"criteria.py::Gain.optimal_division",D+".fit",D+".predict"]),
]
PLAN={"C189":"Equivariance of every function of Model.Tree (midpoints, values, first best candidate, generation, prediction, post-pruning) under a recoding of the data; the units are a special case. C189_whole_numbers: type_of_target makes whole-number columns discrete, so a change of unit that leaves the integers changes the model.",
"C190":"The same equivariance for one-to-one renamings of values and classes.",
"C191":"Values, candidates and majority are permutation invariant; the branches of a discrete node come in another order, which no look-up sees; induction over the depth."}
STATUS={"C189":("proved","under the stated condition that the kind of no column changes; C189_whole_numbers shows that the condition matters"),"C190":("proved",""),"C191":("proved","")}
VIOL={}
