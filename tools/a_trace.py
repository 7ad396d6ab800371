M='classicML/api/models/'
PROPS=[
("predict over every history of fit and load calls",
 "However fit and load_weights are called on one instance, and whichever of these calls raise, predict refuses (ValueError) exactly until the first of them completes; afterwards it never fails for want of an attribute, whatever failed later, but only for data of the wrong width (or, for k-means, without any centroid).",
 "all finite histories of completed and failed calls, all data",
 "histories of any length in any order with failures at any point",
 [M+'linear_model/linear_discriminant_analysis.py::LinearDiscriminantAnalysis.predict',M+'linear_model/logistic_regression.py::LogisticRegression.predict',M+'cluster/k_means.py::KMeans.predict',M+'ensemble/bagging.py::BaggingClassifier.predict',M+'ensemble/boosting.py::AdaBoostClassifier.predict']),
("Only the last completed call matters",
 "If the last call made on an instance (fit or load_weights) completed, the instance answers every question like a new instance on which that call alone was made.",
 "all finite histories of completed and failed calls followed by a completed one, all questions",
 "histories of any length in any order",
 [M+'linear_model/linear_discriminant_analysis.py::LinearDiscriminantAnalysis.fit',M+'linear_model/logistic_regression.py::LogisticRegression.fit',M+'cluster/k_means.py::KMeans.fit',M+'ensemble/bagging.py::BaggingClassifier.fit',M+'ensemble/boosting.py::AdaBoostClassifier.fit']),
]
PLAN={"C265":"One transition function for all calls of a class; readiness of the flags is characterised by induction over the history, with the invariant that a ready instance has all attributes that predict reads.",
"C266":"A completed call overwrites everything predict reads (LDA, k-means; load_weights everywhere); counterexamples for the others."}
STATUS={"C265":("proved","LDA, k-means, logistic regression, bagging and AdaBoost."),
"C266":("partial","Proved for LDA and k-means, and for load_weights everywhere; logistic regression only without an earlier load, bagging and AdaBoost only without earlier members.")}
VIOL={"C266":"after load_weights every later fit of a logistic regression starts from the loaded (and afterwards trained) parameters instead of a fresh draw (C266_logistic_violated); bagging keeps all earlier members and votes with them (C266_bagging_accumulates, C266_bagging_violated); AdaBoost raises in every later fit and keeps answering from the first (C266_adaboost_frozen)."}
