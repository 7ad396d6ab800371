PROPS=[
("A repeated attribute of a decision tree",
 "If an attribute of the training table repeats an earlier one, DecisionTreeClassifier answers every row that repeats the attribute as if the repetition were not in the table: the repetition is not asked about, or only where it is constant.",
 "all tables with a repeated column (discrete, continuous, or mixed), impurities, choices among ties of the majority, recursion limits, and query rows",
 "all tables and trees; tests contain no repeated columns",
 ['classicML/backend/python/tree/generators.py::DecisionTreeGenerator.tree_generate','classicML/backend/python/tree/criteria.py::Criterion.optimal_division','classicML/api/models/tree/decision_tree_classifier.py::DecisionTreeClassifier.fit']),
("A repeated attribute of stumps, two-level trees and AdaBoost",
 "If an attribute repeats an earlier one on the training rows, a DecisionStumpClassifier, a two-level tree and AdaBoost are the same, with the same coefficients and predictions for all rows, as without the repetition.",
 "all training sets with a repeated column, weights, numbers of estimators and query rows",
 "all data sets and rounds",
 ['classicML/backend/python/tree/generators.py::DecisionStumpGenerator.tree_generate','classicML/backend/python/tree/generators.py::TwoLevelDecisionTreeGenerator.tree_generate','classicML/api/models/ensemble/boosting.py::AdaBoostClassifier.fit']),
("An attribute given twice counts the square root of two times",
 "For a support vector classifier (linear, polynomial or RBF kernel, numeric gamma) and for logistic regression by gradient descent, giving an attribute twice has exactly the effect of multiplying it by the square root of two.",
 "all data sets, attributes, penalties, tolerances, permutations, learning rates, numbers of epochs, initial parameters and query rows",
 "all data sets and numbers of epochs; the relation is between two whole trainings",
 ['classicML/backend/python/kernels.py::Linear.__call__','classicML/backend/python/kernels.py::RBF.__call__','classicML/api/models/support_vector_machine/support_vector_classifier.py::SupportVectorClassifier.fit','classicML/backend/python/optimizers.py::GradientDescent.run']),
("A repeated attribute does not stop the training",
 "Every model that can be trained on a table can be trained on the table with one of its attributes given twice.",
 "all data sets and repeated attributes, all numbers of epochs and initial parameters",
 "all data sets; tests contain no repeated columns",
 ['classicML/backend/python/optimizers.py::NewtonMethod.run','classicML/backend/python/ops.py::get_w_v2','classicML/api/models/cluster/gaussian_mixture.py::GaussianMixture.fit','classicML/api/models/linear_model/linear_discriminant_analysis.py::LinearDiscriminantAnalysis.fit']),
]
PLAN={"C321":"the first best attribute of the loop is never the later of two equal columns while the earlier one is available; after the earlier one is used up the later one is constant, and asking about it leads to the same rows; induction over the generation.",
"C322":"the running best is not improved by a column with the values of an earlier one; induction over the levels, then over the rounds (loop_alike).",
"C323":"kernel values of the two writings of the rows are equal, so the whole SMO run is; for gradient descent an invariant (merge) between the two parameter vectors is preserved by every epoch.",
"C324":"equal columns make the Hessian, the scatter matrix and the covariances singular; from C234, C45 and C239."}
STATUS={"C321":("proved","Both criteria (impurity minimum, information gain). The repetition must stand behind the original: in front of it a tie with a third attribute can be decided differently (example in Props/TreeTwice)."),
"C322":("proved","Stump, two-level tree and AdaBoost over its default learner."),
"C323":("proved","Exact arithmetic. For gradient descent the initial parameters correspond by merge, which is onto (C323_merge_onto)."),
"C324":("partial","False for Newton's method, Gaussian mixtures with the default covariances (C324_violated) and discriminant analysis (C324_lda_violated), for every data set. True for stumps, two-level trees and AdaBoost (C324_small_trees_partial). Exact arithmetic: in floating point the smallest singular value can come out as a tiny number instead of zero, and the direction is then arbitrary.")}
VIOL={"C324":"an attribute that is given twice makes NewtonMethod, LinearDiscriminantAnalysis and GaussianMixture (default covariances) fail on every data set: the Hessian, scatter or covariance matrix is singular (C324_violated, C324_lda_violated)."}
