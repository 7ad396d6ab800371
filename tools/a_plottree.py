PROPS=[
("The picture of a tree is the tree",
 "plot_tree draws one symbol for every node of the fitted tree, with its attribute or its category, joined to its parent by an edge with the text of the branch in the middle; a node is on the row of its depth and above the middle of its leaves, the leaves are evenly spaced from left to right in the order of the branches, and no two nodes are drawn in the same place. This holds with any pruner.",
 "every training table, criterion, pruner and validation table for which fit succeeds",
 "the recursion uses four global variables; a picture of one small tree says nothing about deep or wide ones",
 ["classicML/api/plots/tree.py:plot_tree","classicML/api/plots/tree.py:_plot_decision_tree","classicML/api/plots/utils.py:_add_node","classicML/api/plots/utils.py:_add_text"]),
("A plotted tree fits on the canvas",
 "every node drawn by plot_tree lies inside the unit square shown by the axes",
 "every training table, criterion, pruner and validation table for which fit succeeds",
 "it depends on the recorded height, which is wrong only for trees with branches of different depth after pruning",
 ["classicML/api/plots/tree.py:plot_tree","classicML/api/models/tree/decision_tree_classifier.py:DecisionTreeClassifier.fit"]),
]
PLAN={
"C116":"Model the drawing recursion (Model/PlotTree), with the global X threaded and Y restored. Spec/PlotTree: preorder list of nodes and edges with depth, leaves to the left, leaves below. Simulation by mutual structural induction; distinctness because nodes of equal depth have disjoint leaf intervals; for fitted, post-pruned and pre-pruned trees from the leaf-count theorems.",
"C117":"Bounds on depth and leaf interval of every node, with depth at most the recorded height (C25) for unpruned trees; a counterexample for a post-pruned tree.",
}
STATUS={
"C116":("proved","Nodes, names, edges, texts, spacing and distinct places, for every fitted, post-pruned and pre-pruned tree. Coordinates are exact."),
"C117":("partial","Proved for every unpruned tree and for post-pruned trees with level branches; false in general after post-pruning (C117_off_canvas), because the recorded height is too small."),
}
VIOL={"C117":"after post-pruning the recorded height can be too small (C27), and plot_tree then draws nodes below the visible canvas (C117_off_canvas: two leaves at y = -1)."}
