PROPS=[
("Convex decision regions",
 "If a trained k-means model, a linear discriminant analysis, a linear support vector classifier or a decision stump gives two rows the same class, it gives that class to every row on the segment between them; the probability predicted by logistic regression on the segment lies between the two end values.",
 "all trained models, all pairs of rows, all points of the segment",
 "infinitely many points on infinitely many segments, including points on the borders",
 ['classicML/api/models/cluster/k_means.py::KMeans.predict','classicML/backend/python/ops.py::get_cluster','classicML/api/models/linear_model/linear_discriminant_analysis.py::LinearDiscriminantAnalysis.predict','classicML/api/models/linear_model/logistic_regression.py::LogisticRegression.predict','classicML/api/models/support_vector_machine/support_vector_classifier.py::SupportVectorClassifier.predict','classicML/backend/python/kernels.py::Linear.__call__','classicML/api/models/tree/decision_tree_classifier.py::DecisionStumpClassifier.predict']),
("A larger ensemble begins with the smaller one",
 "Training with k + j estimators yields exactly the first k estimators (for AdaBoost with their coefficients and sample distributions) of training with k; a training that fails with k estimators fails likewise with more, and an AdaBoost training that stopped by itself before k estimators yields the same ensemble for every larger limit.",
 "all training sets, learners, seeds and numbers of estimators",
 "all data sets, base learners, k and j",
 ['classicML/api/models/ensemble/boosting.py::AdaBoostClassifier.fit','classicML/api/models/ensemble/bagging.py::BaggingClassifier.fit']),
("One cluster, one component",
 "k-means with one cluster ends with the mean of the samples, a Gaussian mixture with one component with their mean, covariance matrix and weight 1, whatever the start (unless it starts within the tolerance) and whatever the number of epochs >= 1; all samples get cluster 0. The mixture fails exactly when the covariance matrix of the sample cannot be inverted.",
 "all non-empty data sets, starts with invertible covariance, tolerances, numbers of epochs",
 "all data sets and starts, any number of epochs",
 ['classicML/api/models/cluster/k_means.py::KMeans.fit','classicML/api/models/cluster/gaussian_mixture.py::GaussianMixture.fit','classicML/backend/python/ops.py::calculate_means','classicML/backend/python/ops.py::calculate_covariances','classicML/backend/python/ops.py::calculate_centroids']),
]
PLAN={"C262":"Differences of squared distances, projections and linear scores are affine along a segment; ties are handled with the first-minimum specification of argmin. A witness shows that full decision trees do not have the property (C262_tree_not_convex).",
"C263":"Induction over the rounds.",
"C264":"All posteriors are 1 (labels 0), so the first epoch yields mean and covariance and the second finds no difference."}
STATUS={"C262":("proved",""),"C263":("proved",""),"C264":("proved","")}
VIOL={}
