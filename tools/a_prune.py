PROPS=[
("Post-pruning is reduced-error pruning, node by node",
 "the post-pruned tree has at every node either the test of the original tree or a leaf with the majority label of the training rows that reach the node; a subtree is only replaced if the leaf classifies strictly more of the validation rows there correctly, nodes without validation rows stay as they are, and no remaining bottom node could still be improved by replacing it",
 "every tree, majority rule, training set and validation set for which post-pruning completes, and every node of the result",
 "quantifies over all nodes of all trees with the rows routed to them; tests look at one tree",
 ["classicML/backend/python/tree/pruners.py:PostPruner.__call__","classicML/backend/python/tree/pruners.py:PostPruner.calculation_accuracy"]),
("Pre-pruning keeps exactly the splits that pay",
 "whenever pre-pruning completes, a node that validation rows reach keeps its test exactly if labelling each branch with the majority of its training rows classifies strictly more validation rows correctly than one leaf with the majority label, and is that leaf otherwise; on a fitted tree that tests by value the result classifies at least as many validation rows correctly as the majority label of the training data",
 "every tree, majority rule, training set and validation set for which pre-pruning completes, and every node of the result",
 "quantifies over all nodes of all trees with the rows routed to them; tests look at one tree",
 ["classicML/backend/python/tree/pruners.py:PrePruner.__call__","classicML/backend/python/tree/pruners.py:PrePruner.calculation_accuracy"]),
("Leaves of a fitted tree carry the majority label",
 "every leaf of a decision tree fitted without pruning is labelled with the most frequent label of the training rows that reach it, and a branch that no training row takes is a leaf with the most frequent label of its parent node",
 "every training set, criterion and fitted tree, and every node of it",
 "quantifies over all leaves of all trees; tests look at predictions for a few rows",
 ["classicML/backend/python/tree/generators.py:DecisionTreeGenerator.tree_generate"]),
]
PLAN={
"C127":"Spec/Prune: the relation 'node s of t is reached by the training rows tr and validation rows v'. One-step inversion lemmas of the pruner, then induction over the tree for every such node of the result.",
"C128":"Same relation; the score is by induction with the validation rows grouped by value, using that leaves carry the majority (C129).",
"C129":"Induction over the recursion of the generator, following the rows routed to each node.",
}
STATUS={
"C127":("proved","The rounding of the keys '>= {:.3f}' is not modelled (branches are addressed by side)."),
"C128":("proved","When pre-pruning completes at all, which C28 shows to be false for continuous attributes; it may lower the score below that of the unpruned tree (C128_may_lower)."),
"C129":("proved","For every majority rule that returns a most frequent label."),
"C28":("partial","False: IndexingError for continuous nodes, KeyError for unseen values, wrong heights. Proved: leaf counts, heights are never too low (C28_height_not_low_partial), and every kept bottom node has height 2 instead of 1 (C28_bottom_height)."),
}
VIOL={}
