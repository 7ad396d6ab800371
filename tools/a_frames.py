PROPS=[
("fit and predict leave the caller's frames alone",
 "fit and predict of NaiveBayesClassifier, SuperParentOneDependentEstimator, AveragedOneDependentEstimator and DecisionTreeClassifier do not change the frames and series passed to them: values, column names and row labels are the same afterwards.",
 "all frames and series with any row labels, all four classes, with and without attribute names and validation sets, all sequences of calls",
 "The change is made through a second reference to the caller's table and only to its labels; no result of the call shows it.",
 ["classicML/api/models/naive_bayes_classifier.py::NaiveBayesClassifier.fit","classicML/api/models/naive_bayes_classifier.py::NaiveBayesClassifier.predict","classicML/api/models/semi_naive_bayes_classifiers.py::SuperParentOneDependentEstimator.fit","classicML/api/models/semi_naive_bayes_classifiers.py::AveragedOneDependentEstimator.fit","classicML/api/models/decision_tree_classifier.py::DecisionTreeClassifier.fit"]),
]
PLAN={"C170":"Model.Frames: a heap of tables (values, names, row labels) shared by pandas objects; the statements of fit and predict that create or relabel tables; induction over the calls of a program."}
STATUS={"C170":("partial","False of the row labels: without attribute names pd.DataFrame(frame) shares the caller's table and reset_index(inplace=True) relabels it, C170_fit_relabels, C170_predict_relabels, C170_labels_relabelled, C170_validation_relabelled; rows and labels of a pair filtered alike no longer match, C170_pairs_broken. Proved: values and names are kept by every sequence of calls (C170_values_kept_partial); with attribute names the frames are untouched (C170_fit_with_names_partial, C170_predict_partial).")}
VIOL={"C170":"fit and predict without attribute names reset the row labels of the caller's own DataFrame (and, for SPODE/AODE, of the caller's label Series)."}
