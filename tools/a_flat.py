PROPS=[
("A Gaussian mixture can be trained on every data set",
 "GaussianMixture.fit with the default initial covariances and coefficients ends with a model for every non-empty numerical data set, every number of components and epochs.",
 "all data sets, initial means, numbers of components, attributes and epochs",
 "whether a covariance becomes singular depends on the rank of the data",
 ['classicML/api/models/cluster/gaussian_mixture.py::GaussianMixture.fit','classicML/backend/python/ops.py::calculate_covariances','classicML/backend/python/ops.py::get_normal_distribution_probability_density']),
]
PLAN={"C239":"The quadratic form of a new covariance is a weighted sum of squares with positive weights, so it is definite exactly if no linear combination of the attributes is constant; induction over the epochs."}
STATUS={"C239":("partial","Exactly characterised. False on flat data, i.e. if a linear combination of the attributes is constant (C239_violated, for all of them; C239_flat: constant or repeated attribute, at most as many samples as attributes): the first epoch makes all covariances singular and the second, or predict, raises LinAlgError. Otherwise training always succeeds and the covariances stay positive definite (C239_trains_partial). Exact arithmetic.")}
VIOL={"C239":"calculate_covariances adds no regularisation: on data with a constant or linearly dependent attribute, or with at most as many samples as attributes, GaussianMixture.fit raises LinAlgError after the first epoch."}
