
PROPS=[
("EM never lowers the likelihood",
 "GaussianMixture.fit, whatever the tolerance and the number of epochs, ends with parameters under which the training data are at least as likely as under the initial parameters, and so does every single EM iteration; the density it uses is that of the multivariate normal distribution",
 "every data set, number of components, initial means, initial weights forming a probability vector, positive definite initial covariances, tol and epochs, for runs that produce no singular covariance",
 "monotonicity of the likelihood is an inequality over all data sets and all iterations; a test sees single runs",
 ["classicML/api/models/cluster/gaussian_mixture.py:GaussianMixture.fit","classicML/backend/python/ops.py:calculate_means","classicML/backend/python/ops.py:calculate_covariances","classicML/backend/python/ops.py:calculate_mixture_coefficient","classicML/backend/python/ops.py:get_normal_distribution_probability_density"]),
("Initial covariances are the default or exactly the given ones",
 "by default every component of a Gaussian mixture starts with 0.1 times the identity; an array of shape (n_components, features, features) is used as given, other arrays raise ValueError and other objects TypeError",
 "every number of components and features and every initial array",
 "the accepted shapes are an infinite family; tests try one shape",
 ["classicML/backend/python/ops.py:init_covariances"]),
("Impurity measures measure impurity",
 "the Gini index of a list of labels is the probability that two labels drawn from it differ; Gini index and entropy are 0 exactly for equal labels and at most 1-1/k and log2(k) for k different labels, reached exactly when all of them are equally frequent",
 "every non-empty list of labels",
 "the extremal characterisations quantify over all label lists",
 ["classicML/backend/python/tree/criteria.py:Gini.__call__","classicML/backend/python/tree/criteria.py:Entropy.__call__"]),
("A split never increases impurity",
 "splitting by the values of an attribute, or of a numerical attribute at any point, never increases the weighted Gini index or entropy, and leaves it unchanged exactly when the outcome is statistically independent of the label; in particular the information gain of the chosen attribute is never negative",
 "every attribute column, list of labels of the same length and dividing point",
 "a concavity inequality over all tables of counts",
 ["classicML/backend/python/tree/criteria.py:Criterion.get_value","classicML/backend/python/tree/criteria.py:Gain.get_value","classicML/backend/python/tree/criteria.py:Gain.optimal_division"]),
]
PLAN={
"C120":"Spec/EM: textbook normal density and log-likelihood. Proof: the model's density equals the textbook one; Jensen (log t <= t-1) minorises the change of the log-likelihood; Gibbs' inequality for the weights; the weighted mean and covariance maximise the weighted Gaussian log-likelihood (log det T + d <= log det S + tr(S^-1 T)); induction over the steps and fit.",
"C121":"Arrays as shape and entry function, np.squeeze as removal of the axes of length 1; exact acceptance condition.",
"C122":"Model/Entropy adds the entropy; finite sums over label frequencies; log t <= t-1 with its equality case.",
"C123":"Table of counts; Gini gap as a sum of squares, entropy gap by log t <= t-1 cell by cell, both with equality case; lifted to Criterion.get_value and Gain.optimal_division.",
}
STATUS={
"C120":("proved","Exact arithmetic (the 1e-36 floor for underflowing densities is then never used); runs whose covariances stay invertible, as every completed run's do."),
"C121":("partial","False for one component or one feature: np.squeeze removes the axis and every array is refused (C121_one_refused). Proved otherwise; the exact condition is C121_exactly. Entries are not validated (C121_not_validated)."),
"C122":("proved","Gini over every ordered field, entropy over the reals."),
"C123":("proved","Gini over every ordered field, entropy over the reals, with the equality case."),
}
VIOL={"C121":"with n_components = 1 or one feature, np.squeeze changes the shape and every explicit covariance array is refused with ValueError (C121_one_refused); matrices that are no covariances are accepted (C121_not_validated)."}
