PROPS=[
("Small disturbances do not change a clear answer",
 "A trained model gives the same answer to a disturbed sample if the disturbance is smaller than a radius that follows from the model and the sample: half the lead of the nearest centroid, the distance from the boundary of a linear model, the value of the decision function over its steepest slope for the RBF kernel, the distance from the dividing points of a tree; training samples of a decision tree may move by half the smallest gap of each attribute.",
 "all trained models, all samples, all disturbances",
 "ranges over all models, samples and disturbances",
 ['classicML/backend/python/ops.py::get_cluster','classicML/api/models/linear_model/logistic_regression.py::LogisticRegression','classicML/api/models/linear_model/linear_discriminant_analysis.py::LinearDiscriminantAnalysis','classicML/api/models/support_vector_machine/support_vector_classifier.py::SupportVectorClassifier','classicML/api/models/tree/decision_tree_classifier.py::DecisionTreeClassifier','classicML/backend/python/tree/generators.py::DecisionTreeGenerator']),
]
PLAN={"C334":"Triangle inequality and Cauchy-Schwarz; the slope of the sigmoid and of the Gaussian by the mean value theorem; induction on trees and on their generation."}
STATUS={"C334":("proved","C334_kmeans, C334_logistic (with the exact radius), C334_lda, C334_svc_rbf, C334_tree, C334_tree_training, C334_stump; exact arithmetic.")}
VIOL={}
