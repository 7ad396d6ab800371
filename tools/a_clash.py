PROPS=[
("Decision trees and contradictory samples",
 "DecisionTreeClassifier.fit on attributes that are not integers grows a tree exactly if equal rows have equal labels; two equal rows with different labels anywhere in the training set make it raise, a ValueError if all rows are equal. (With attributes tested by value contradictions are harmless, C301.)",
 "all training sets, criteria, recursion limits, tie-breaking rules; the converse for recursion limits at least the number of samples and exact midpoints",
 "all training sets; a test has consistent data",
 ['classicML/backend/python/tree/generators.py::DecisionTreeGenerator.tree_generate','classicML/backend/python/tree/criteria.py::Criterion.optimal_division','classicML/api/models/tree/decision_tree_classifier.py::DecisionTreeClassifier.fit']),
("The centroids of k-means stay in the convex hull of the data",
 "After KMeans.fit the centroids are the initial ones or each of them is the mean of at least one sample; every half-space, and every range of a coordinate, that contains the samples and the initial centroids contains the centroids.",
 "all data sets, numbers of epochs, tolerances, initial centroids",
 "all data sets and histories of epochs",
 ['classicML/api/models/cluster/k_means.py::KMeans.fit','classicML/backend/python/ops.py::calculate_centroids']),
]
PLAN={"C309":"The criterion proposes a midpoint for columns with a fractional value; both rows go to the same side until the recursion ends; conversely a node with two labels has two different rows, so a midpoint, and both sides are smaller.",
"C310":"Induction over the epochs with the cluster means of C14; a mean satisfies every linear inequality of its samples."}
STATUS={"C309":("proved","C309_contradiction, C309_equal_rows, C309_iff. The rule for continuous columns is a parameter of which only 'a column with a value that is no integer is continuous' is used."),
"C310":("proved","C310_means, C310_halfspaces, C310_range, C310_one_point.")}
VIOL={}
