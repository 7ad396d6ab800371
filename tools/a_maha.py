PROPS=[
("Linear discriminant analysis and the Mahalanobis distance",
 "A fitted linear discriminant analysis answers every row by the class whose centre is nearer to it in the Mahalanobis distance of the pooled within-class scatter (a tie is answered by 0), so it agrees with a two-component Gaussian mixture that has the class centres as means, equal coefficients and that scatter, up to a factor, as common covariance.",
 "all data sets with both classes and an invertible scatter, all rows, all positive factors, all decompositions an SVD may return",
 "ranges over all data sets, rows and decompositions",
 ['classicML/api/models/linear_model/linear_discriminant_analysis.py::LinearDiscriminantAnalysis','classicML/backend/python/ops.py::get_w','classicML/backend/python/ops.py::get_w_v2','classicML/backend/python/ops.py::get_within_class_scatter_matrix','classicML/api/models/cluster/gaussian_mixture.py::GaussianMixture']),
]
PLAN={"C340":"The difference of the two squared distances is affine in the row, with slope twice the solution of the scatter equation; that solution is positive on the difference of the centres because the scatter is positive semidefinite and invertible."}
STATUS={"C340":("partial","For projection functions that solve their equation, as get_w does; false of the Python engine, which uses get_w_v2 (C340_violated), and of the C++ engine (C147).")}
VIOL={"C340":"A consequence of the elementwise product in `get_w_v2` (see C45, C81): with the Python engine a row that is the centre of class 1 can be answered by 0 (`C340_violated`)."}
