PROPS=[
("Post-pruning finds the best pruned tree",
 "Among all trees that arise from the fitted tree by replacing inner nodes by leaves with the majority label of the training rows that reach them, none classifies more validation rows correctly than the tree that post-pruning returns.",
 "all trees, training and validation sets, all sets of nodes to be replaced",
 "all subsets of the nodes; a test compares the accuracy before and after",
 ['classicML/backend/python/tree/pruners.py::PostPruner.__call__']),
]
PLAN={"C302":"All prunings as an inductive relation (Spec/PruneBest); induction over the tree: the validation score of a node is the sum over its branches, and the result is a maximum wherever the code compares with the leaf. A fitted tree shows that the code does not compare at nodes above a kept branch."}
STATUS={"C302":("partial","C302_best_partial: best of all if no remaining inner node would be right more often as a leaf; C302_small_partial: in particular if the result is a leaf or a node with leaves only. C302_violated: a fitted tree where post-pruning keeps a tree with 1 of 4 validation rows right although the leaf at the root has 3 right.")}
VIOL={"C302":"the post-pruner only considers nodes whose branches are all leaves, so a node above a branch that was kept is never replaced, however much better the leaf would be (theorem C302_violated)."}
