PROPS=[
("The influence of Laplace smoothing fades",
 "Smoothing moves the estimate of a conditional probability towards the uniform probability by at most (number of values)/(samples of the class + number of values); a naive Bayes classifier without smoothing that answers a row without a tie is agreed with by the smoothed classifier trained on sufficiently many copies of the same data.",
 "all data sets, all rows with a clear answer, all sufficiently large numbers of copies",
 "ranges over all data sets and states a limit",
 ['classicML/api/models/bayes/naive_bayes_classifier.py::NaiveBayesClassifier','classicML/backend/python/ops.py::get_conditional_probability','classicML/backend/python/ops.py::get_prior_probability']),
]
PLAN={"C338":"Counts of r copies are r times the counts (C259); the smoothed quotients converge, so do the products over the attributes, and a strict inequality of limits holds eventually."}
STATUS={"C338":("proved","C338_fades, C338_shrinks; exact arithmetic, densities rounded.")}
VIOL={}
