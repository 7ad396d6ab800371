PROPS=[
("An epoch of clustering reproduces the moments of the data",
 "After an epoch that moves the parameters, the mean and the matrix of second moments of a Gaussian mixture are those of the training data, and for k-means the centroids of the samples add up to the samples and, about every point, the scatter of the data is the scatter within clusters plus that of the centroids. A training that moves nothing returns its start.",
 "all data, densities, starting points, tolerances and numbers of epochs",
 "an identity over all real data, after every number of epochs",
 ['classicML/api/models/cluster/gaussian_mixture.py::GaussianMixture.fit','classicML/api/models/cluster/k_means.py::KMeans.fit','classicML/backend/python/ops.py::calculate_means','classicML/backend/python/ops.py::calculate_covariances','classicML/backend/python/ops.py::calculate_centroids']),
("Random initialisation of k-means starts the training",
 "KMeans with init='random' trains on every data set with at least as many different samples as clusters, whatever the generator draws.",
 "all data sets, tolerances, numbers of clusters and draws",
 "all draws of the random generator; tests see a few of them",
 ['classicML/backend/python/ops.py::init_centroids','classicML/backend/python/ops.py::compare_differences','classicML/api/models/cluster/k_means.py::KMeans.fit']),
]
PLAN={"C247":"Exchange of the sums over samples and components (responsibilities of a sample add up to one); for k-means partition of the samples by label and the parallel-axis identity; lifted to the loop by its invariants.",
"C248":"A repeated row gives two equal centroids; the second one is nearest to no sample, so the new centroids are fewer than the old ones. Counting of the draws by embeddings."}
STATUS={"C247":("proved","C247_mixture_step and C247_mixture for mixtures of any shape and any density; C247_kmeans for k-means (for every reference point). C247_start_kept: the alternative 'start returned unchanged' occurs."),
"C248":("partial","False: rows are drawn with replacement (C248_repeated_draw: a draw with two equal and two different rows raises ValueError in the first epoch, for all data; C248_draws: at most n(n-1)...(n-k+1)+n of the n^k draws do not raise; C248_one_row_drawn: if all draws are one row every sample lands in cluster 0). C248_all_rows_partial: distinct rows covering all samples train in one epoch with cost 0.")}
VIOL={"C248":"KMeans(init='random') draws rows with replacement; every draw that repeats a row (and is not constant) makes fit raise ValueError (5 clusters of 10 samples: more than two draws out of three)."}
