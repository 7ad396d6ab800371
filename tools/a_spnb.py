PROPS=[
("One-dependent estimator with a constant super-parent",
 "If all samples have the same value of the super-parent, the one-dependent estimator answers every row like naive Bayes fitted on the other attributes; naive Bayes itself refuses the constant attribute.",
 "all tables with a constant first column, all labels with both classes, all rows, with and without smoothing",
 "ranges over all tables and rows",
 ['classicML/api/models/bayes/semi_naive_bayes_classifiers.py::SuperParentOneDependentEstimator','classicML/api/models/bayes/naive_bayes_classifier.py::NaiveBayesClassifier']),
]
PLAN={"C335":"Both estimators store the same counts; the constant column contributes the factor one and the joint prior is the class prior."}
STATUS={"C335":("proved","C335_same_answers, C335_constant_refused; for data on which naive Bayes attaches its counts to the right values (C41), the super-parent as first column.")}
VIOL={}
