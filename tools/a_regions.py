PROPS=[
("The regions of a Gaussian mixture",
 "If all components of a Gaussian mixture have the same covariance, the rows of every component form a convex set, and with equal coefficients every row belongs to the component whose mean is nearest in the Mahalanobis distance; with different covariances the region of a component need not be convex.",
 "all numbers of components and features, all positive coefficients, all invertible covariances, all rows",
 "ranges over all parameters and rows",
 ['classicML/api/models/cluster/gaussian_mixture.py::GaussianMixture','classicML/backend/python/ops.py::get_gaussian_mixture_distribution_posterior_probability','classicML/backend/python/ops.py::get_normal_distribution_probability_density','classicML/backend/python/ops.py::get_cluster']),
]
PLAN={"C339":"The posterior is the weighted density over a common positive sum; with a common covariance the logarithms of two weighted densities differ by an affine function of the row."}
STATUS={"C339":("proved","C339_common, C339_nearest; the condition is needed: C339_not_convex; exact arithmetic.")}
VIOL={}
