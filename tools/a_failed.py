M="classicML/api/models/"
PROPS=[
("A call of fit that raises leaves the model as it was",
 "If fit of a trained model raises an exception, the model predicts afterwards exactly as it did before the call.",
 "all trained instances of LogisticRegression, LinearDiscriminantAnalysis, KMeans, GaussianMixture, NaiveBayesClassifier, BaggingClassifier, AdaBoostClassifier and BackPropagationNeuralNetwork, all data, all points of failure",
 "The instance after an exception is a state no test of fit looks at, and every statement of the training can be the one that raises.",
 [M+"linear_model/logistic_regression.py::LogisticRegression.fit",M+"linear_model/linear_discriminant_analysis.py::LinearDiscriminantAnalysis.fit",M+"cluster/k_means.py::KMeans.fit",M+"cluster/gaussian_mixture.py::GaussianMixture.fit",M+"bayes/naive_bayes_classifier.py::NaiveBayesClassifier.fit",M+"ensemble/bagging.py::BaggingClassifier.fit",M+"ensemble/boosting.py::AdaBoostClassifier.fit",M+"neural_network/back_propagation_neural_network.py::BackPropagationNeuralNetwork.fit"]),
("A call of fit that raised leaves no trace in the next one",
 "After fit raised, a call of fit that completes gives the model that a new instance would have got from it.",
 "all histories of a failed and a completed call, all data, all points of failure, the classes of C171",
 "Needs all pairs of calls and all points of failure of the first one.",
 [M+"ensemble/bagging.py::BaggingClassifier.fit",M+"ensemble/boosting.py::AdaBoostClassifier.fit",M+"cluster/k_means.py::KMeans.fit",M+"linear_model/logistic_regression.py::LogisticRegression.fit",M+"linear_model/linear_discriminant_analysis.py::LinearDiscriminantAnalysis.fit",M+"bayes/naive_bayes_classifier.py::NaiveBayesClassifier.fit"]),
]
PLAN={"C171":"Model.FailedFit: fit statement by statement on the attributes of the instance, returning the instance and the error; refinement to the models of training (C171_*_completes); induction over epochs, columns or rounds for what a failed call leaves.",
"C172":"The same model: completed calls are shown to be functions of the data alone, or to keep the rounds of the failed one."}
STATUS={"C171":("partial","False for all classes but AdaBoost. LogisticRegression: C171_logistic_failed, C171_logistic_forgets (collinear data: the parameters are now random ones), C171_logistic_other_width. LDA: C171_lda_failed (old projection, new means), C171_lda_two_samples, C171_lda_changed. KMeans: C171_kmeans_forgets, C171_kmeans_changed. GaussianMixture: C171_mixture_failed. NaiveBayes: C171_bayes_failed, C171_bayes_changed. Bagging: C171_bagging_failed, C171_bagging_changed. Network: C171_network_failed, C171_network_forgets. Proved: AdaBoost (C171_adaboost_partial), errors found before the first assignment (C171_lda_lengths_partial, C171_kmeans_init_partial, C171_mixture_means_partial, C171_bagging_first_partial, C171_logistic_loaded_partial)."),
"C172":("partial","False for the ensembles: C172_bagging_trace, C172_adaboost_trace, C172_adaboost_first_round, and for k-means with epochs=0 (C172_kmeans_no_epoch). Proved for logistic regression, LDA, k-means with at least one epoch and naive Bayes (C172_*_partial).")}
VIOL={"C171":"fit overwrites the attributes of a trained model before it can fail: after a failed call logistic regression answers with random parameters, LDA with old projection and new means, naive Bayes with a mixture of old and new columns, bagging with additional learners.",
"C172":"Learners of a failed first call of fit stay in BaggingClassifier.estimators and AdaBoostClassifier.estimators and take part in all later predictions."}
