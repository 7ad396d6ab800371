L="classicML/api/models/linear_model/linear_discriminant_analysis.py::LinearDiscriminantAnalysis"
G="classicML/api/models/cluster/gaussian_mixture.py::GaussianMixture"
O="classicML/backend/python/ops.py::"
import os
PROPS=[
("Linear discriminant analysis does not depend on the coordinates",
 "Any invertible affine change of the features (units, origin, order or mixing of features) leaves the answers of the trained model as they were, and fit raises in the same cases.",
 "all data sets, invertible matrices, offsets and rows",
 "A relation between two trainings for all data and all changes of coordinates.",
 [L+".fit",L+".predict",O+"get_w",O+"get_w_v2",O+"get_within_class_scatter_matrix"]),
("Linear discriminant analysis treats samples and classes alike",
 "The model does not depend on the order of the labelled samples, and exchanging the classes 0 and 1 exchanges the answers (only a row exactly in the middle gets class 0 either way).",
 "all data sets, permutations, backends and rows",
 "A relation between two trainings for all data and permutations.",
 [L+".fit",L+".predict",O+"get_w",O+"get_w_v2"]),
("A Gaussian mixture does not depend on the coordinates",
 "With the features in another order and measured from another origin (initial parameters expressed accordingly), training gives the same mixture expressed accordingly, the same clusters, and fails in the same cases. Every step of expectation maximisation in exact arithmetic also commutes with every invertible affine change of the features.",
 "all data sets, orders of features, offsets, invertible matrices, tolerances, numbers of epochs, initial parameters and roundings of the density",
 "A relation between two trainings of any length for all data and all changes of coordinates.",
 [G+".fit",G+".predict"]),
("A Gaussian mixture does not depend on the order of the samples or the numbering of the components",
 "Training on the samples in another order gives the same mixture and every sample its cluster; renumbering the components of the initial mixture renumbers the trained components, posterior probabilities and (where no tie) the labels.",
 "all data sets, permutations, tolerances, numbers of epochs and initial parameters",
 "A relation between two trainings of any length for all data and permutations.",
 [G+".fit",G+".predict"]),
]
PLAN={"C192":"Equivariance of mean, scatter and direction under A·x+t, (A⁻¹)ᵀ for the direction. False of the shipped get_w_v2 (U·Σ⁻¹·U where the SVD gives S = U·Σ·Vᵀ): exchanging two features changes answers.",
"C193":"Permutation invariance of the sums; the direction is odd in the difference of the means.",
"C194":"Affine equivariance of the Gaussian density (up to a constant factor), of posterior, means, covariances; induction over the epochs.",
"C195":"Permutation invariance of the sums over samples and over components; induction over the epochs."}
STATUS={"C192":("partial","proved with the exact formula get_w; the shipped backend get_w_v2 only does not depend on the origin (C192_origin_partial): the order of the features changes its answers, C192_violated"),"C193":("proved",""),"C194":("proved",""),"C195":("proved","")}
VIOL={"C192":"get_w_v2 (used by fit) depends on the order of the features: C192_violated gives a data set whose rows change class when its two features are exchanged, whatever singular value decomposition LAPACK returns."}
