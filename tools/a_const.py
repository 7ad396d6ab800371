PROPS=[
("A constant attribute does not influence the model",
 "Adding to all training samples and all later rows one more attribute with one and the same value does not change what a model answers.",
 "all data sets, values of the additional attribute, models and rows",
 "a relation between two trainings, for all data",
 ['classicML/api/models/cluster/k_means.py::KMeans.fit','classicML/api/models/support_vector_machine/support_vector_classifier.py::SupportVectorClassifier.fit','classicML/backend/python/optimizers.py::NewtonMethod.run','classicML/api/models/cluster/gaussian_mixture.py::GaussianMixture.fit']),
]
PLAN={"C243":"Distances, means and kernel values are unchanged, then induction over the epochs; the failures follow from the rank conditions of C234 and C239."}
STATUS={"C243":("partial","Proved for k-means (fit and predict) and the RBF support vector classifier with a numeric gamma. False for gamma='auto' (C243_auto_gamma_violated: other kernel value for every pair of different rows) and for Newton's method and Gaussian mixtures, which then raise on every data set (C243_violated); naive Bayes raises too (C80_single_value). Trees, networks and gradient descent are not covered.")}
VIOL={"C243":"A constant column makes LogisticRegression with newton and GaussianMixture raise on every data set, and changes the kernel of SVC with gamma='auto'."}
