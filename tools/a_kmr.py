P='classicML/backend/python/ops.py::'
PROPS=[
("K-means labels in floating point",
 "Computed in floating point, the label of a sample is that of a nearest centroid; a sample that is a centroid gets a label of distance zero.",
 "all samples, all lists of centroids, all orders of summation, all formats",
 "all samples: near ties and underflow need particular values",
 [P+'calculate_euclidean_distance',P+'get_cluster','classicML/api/models/cluster/k_means.py::KMeans.predict']),
("K-means centroids in floating point",
 "Every coordinate of a centroid computed in floating point lies between the smallest and the largest coordinate of the samples of its cluster; the centroid of equal samples is that sample.",
 "all clusters of numbers of the format, all sizes, all orders of summation",
 "all clusters: rounding leaves the range only for particular values",
 [P+'calculate_centroids','classicML/api/models/cluster/k_means.py::KMeans.fit']),
]
PLAN={"C286":"Model/KMeansRounded.lean: distances and argmin with a rounding after each operation and a rounded square root. Error analysis of differences, squares, sums along any order and roots gives the factor; a clear winner is found. Exact counterexamples by evaluation.",
"C287":"Same model: the mean along any order of summation; error analysis with signs; clusters of one and two samples by monotonicity; evaluation for three equal samples."}
STATUS={"C286":("partial","Nearest up to the factor ((1+u)/(1-u))^(depth+5) of the squared distance and underflow; found if clearly nearest. Exactly false (C286_second_nearest, C286_own_centroid)."),
"C287":("partial","Explicit error bound for all clusters; between the samples for clusters of one or two. False for three equal samples (C287_outside).")}
VIOL={"C286":"In single precision 16777218 gets the label of centroid 1 although 2 is nearer, and 0 gets the label of 2^-80 although it is itself the second centroid (C286_second_nearest, C286_own_centroid).",
"C287":"In single precision the centroid of three equal samples 12582914/2^23 is 12582915/2^23 (C287_outside)."}
