PROPS=[
("A naive Bayes classifier that is right on a sample and is trained on it too",
 "If a naive Bayes classifier answers a row by class c, then a classifier trained on the same data and on this row with label c answers it by c as well.",
 "all data sets, all rows of known values, with and without smoothing",
 "ranges over all data sets and rows",
 ['classicML/api/models/bayes/naive_bayes_classifier.py::NaiveBayesClassifier','classicML/backend/python/ops.py::get_conditional_probability','classicML/backend/python/ops.py::get_probability_density','classicML/backend/python/ops.py::get_prior_probability']),
]
PLAN={"C337":"Every estimate of the class does not fall, those of the other class do not change, the prior moves towards the class; product over the attributes."}
STATUS={"C337":("partial","C337_discrete_partial for discrete attributes whose values appear in the order of their frequencies; false for continuous attributes: C337_witness.")}
VIOL={"C337":"adding a correctly answered sample to the training set of a naive Bayes classifier can turn its answer: with continuous attributes the density uses the variance as standard deviation, so that the wider spread costs more than the higher prior gains (C337_witness: -6, 6 | 11, 25 and the sample 18)."}
