A=['classicML/backend/python/tree/generators.py::DecisionTreeGenerator.tree_generate','classicML/api/models/tree/decision_tree_classifier.py::DecisionTreeClassifier.fit']
P=['classicML/backend/python/tree/pruners.py::PostPruner','classicML/backend/python/tree/pruners.py::PrePruner']
PROPS=[
("The depth of a decision tree is bounded by the data",
 "On every path of a tree fitted without pruning, an attribute is tested by value at most once, and there are fewer comparisons with dividing points than training samples; so the depth is less than the number of attributes plus the number of samples, and at most the number of attributes if no dividing point is used.",
 "all frames, labels, criteria (Gini, entropy, gain), tie-breaking rules and roundings of the dividing points for which fit returns, and all paths from the root to a leaf",
 "the recursion depends on the choices of the criterion on every subset; tests build a few trees",
 A),
("A decision tree has at most as many leaves as training samples",
 "The number of leaves of a tree fitted without pruning does not exceed the number of training samples.",
 "all frames, labels, criteria, tie-breaking rules and roundings for which fit returns",
 "must hold for every data set; small example trees satisfy it by accident",
 A),
("Pruning never enlarges a tree",
 "A post-pruned or pre-pruned tree has at most as many leaves and is at most as deep as the fitted tree it comes from.",
 "all non-empty training frames, labels, oracles and validation sets for which fit and the pruning return",
 "the pruner rewrites nodes bottom up depending on the validation rows that reach them; tests cover a handful of trees",
 P),
]
PLAN={
"C230":"Paths as an inductive predicate on trees; induction over the generator with the invariant that attributes used by value are no longer in the column list and that both sides of a dividing point are non-empty whenever fit returns.",
"C231":"Counterexample by evaluation (a branch for every value of the whole frame); induction for trees without tests by value, and a general bound by the number of value combinations.",
"C232":"Structural induction over the pruners with the fact that every discrete node of a fitted tree has a branch.",
}
STATUS={
"C230":("proved","Any rounding of the dividing points is allowed, since a one-sided split makes fit raise."),
"C231":("partial","False when attributes are tested by value (C231_violated: 5 samples, 7 leaves). Proved for trees without such tests, and in general the bound samples times the product of the numbers of values (C231_bound)."),
"C232":("proved","True leaf counts and depths (the recorded height is the subject of C27 and C28)."),
}
VIOL={"C231":"a node tested by value gets a branch for every value of the attribute in the whole training frame, so a tree can have more leaves than samples (5 samples, 7 leaves)."}
