PROPS=[
("The convex hull of a convex hull",
 "Passing the vertices of a computed hull to ConvexHull again gives the same hull; points inside do not change the convex set.",
 "all point sets for which a hull is returned, all results of the unstable sort",
 "ranges over all point sets",
 ['classicML/backend/python/ops.py::ConvexHull']),
("Two classes: softmax and sigmoid, and the logarithmic losses",
 "With two classes, softmax is the sigmoid of the difference of the inputs; the categorical cross-entropy of the one is the binary cross-entropy of the other and the mean of the loss of logistic regression; both decide alike.",
 "all inputs, all labels (also soft ones), all numbers of samples",
 "ranges over all real inputs",
 ['classicML/backend/python/activations.py::Softmax','classicML/backend/python/activations.py::Sigmoid','classicML/backend/python/losses.py::CategoricalCrossentropy','classicML/backend/python/losses.py::BinaryCrossentropy','classicML/backend/python/losses.py::LogLikelihood']),
]
PLAN={"C332":"The vertices come in the order of the scan and never turn right, so the second scan pops nothing.","C333":"Algebra with exp and log."}
STATUS={"C332":("partial","C332_idempotent_partial for the vertices without the repeated first one, C332_inner_points; false for the closed chain that is returned: C332_closed_refused."),
"C333":("proved","C333_softmax, C333_losses, C333_decision; exact arithmetic.")}
VIOL={"C332":"the returned chain contains its leftmost point twice, and ConvexHull raises OverflowError for every input with two leftmost points (C332_closed_refused)."}
