N="classicML/api/models/bayes/naive_bayes_classifier.py::NaiveBayesClassifier."
S="classicML/api/models/bayes/semi_naive_bayes_classifiers.py::"
import os
PROPS=[
("Naive Bayes does not depend on the order of the training samples","Fitting the same samples in another order gives the same prediction for every row.","all tables of discrete and continuous columns, all labels, all permutations of the samples, all rows, with and without smoothing","Quantifies over all data sets of any size and all permutations.",[N+"fit",N+"predict"]),
("Naive Bayes and one-dependent estimators do not depend on the order of the attributes","Giving the columns and the cells of a row in another (common) order gives the same label, or both calls raise.","all tables, labels, rows and permutations of the attributes","Quantifies over all data sets and all permutations.",[N+"fit",N+"predict",S+"SuperParentOneDependentEstimator.fit",S+"SuperParentOneDependentEstimator.predict"]),
("One-dependent estimators do not depend on the order of the training samples","SuperParentOneDependentEstimator and AveragedOneDependentEstimator fitted on the same samples in another order give every row the same label or the same exception.","all tables of discrete and continuous columns, labels, super-parents, rows and permutations of the samples","Quantifies over all data sets of any size and all permutations.",[S+"SuperParentOneDependentEstimator.fit",S+"AveragedOneDependentEstimator.fit",S+"AveragedOneDependentEstimator.predict"]),
("AveragedOneDependentEstimator does not depend on the order of the attributes","Giving the columns and the cells of a row in another (common) order gives the same label.","all tables, labels, rows and permutations of the attributes","Quantifies over all data sets and all permutations.",[S+"AveragedOneDependentEstimator.fit",S+"AveragedOneDependentEstimator.predict"]),
]
PLAN={"C207":"Model/Bayes.lean: a witness for every order that value_counts may return; positive part by relating the stored counts of both orders as look-up tables.",
"C208":"Model/Bayes.lean: the factors of a row as a function of the list of (column, cell) pairs, invariant under List.Perm; the score is a sum.",
"C209":"Model/Bayes.lean: what predictions read of the stored elements (obs) is the same up to order; sums do not depend on the order; the exception depends on the columns only.",
"C210":"Model/Bayes.lean: a two-column witness; positive part when every column is a super-parent, by permuting keys of elements and factors."}
STATUS={"C207":("partial","False: C207_witness (three samples, for every order value_counts may return, with and without smoothing). Proved: for continuous columns and for discrete columns whose values appear most frequent first in both orders (C207_sorted_partial)."),
"C208":("proved","Up to which exception is raised."),"C209":("proved","A freshly created estimator; exact arithmetic."),
"C210":("partial","False: C210_witness. Proved when every column can serve as super-parent (C210_all_parents_partial).")}
VIOL={"C207":"NaiveBayesClassifier pairs the names of value_counts (most frequent first) with counts in order of first appearance (naive_bayes_classifier.py:112-130), so the prediction depends on the order of the rows: column a,b,b with labels 0,1,1 gives 1 for a; the same rows as b,b,a with labels 1,1,0 give 0.",
"C210":"AveragedOneDependentEstimator compares the value of its i-th super-parent with the i-th cell of the row (semi_naive_bayes_classifiers.py:361-363, 611-614), so exchanging two attributes (in the training data and in the row) changes the answer."}
