CC="classicML/backend/cc/ops/ops.cc"
MO="classicML/backend/cc/matrix_op.cc"
PROPS=[
("C++ bootstrap samples rows uniformly and keeps pairs together",
 "with the C++ engine BootstrapSampling returns as many rows as the data has, each position holding a row of x and the label of the same row, and every row is equally likely; arrays of different lengths raise ValueError",
 "every data set, every sequence of raw random numbers",
 "uniformity is a statement about all raw values of the generator; the exceptional raw value occurs once in four billion draws",
 [CC+":BootstrapSampling1",CC+":BootstrapSampling2"]),
("K-means gives the same result with both engines",
 "training KMeans from the same initial centroids gives the same centroids, the same clusters and stops in the same way with the Python and the C++ engine",
 "every training set with at least one feature, tolerance, number of epochs and initial centroids",
 "the engines agree on ordinary data and differ only on runs in which a cluster loses all its samples",
 [CC+":CalculateCentroids",CC+":GetCluster",CC+":CompareDifferences1",MO+":ArgMin","classicML/api/models/cluster/k_means.py:KMeans.fit"]),
("init_centroids means the same with both engines",
 "with the C++ engine init='random' picks one sample for each cluster, a matrix with one row for each cluster and one column for each feature is used as it is, a list of indices selects these samples, everything else is refused, with the same exceptions as the Python engine",
 "every data set, number of clusters and init argument",
 "the interpretation depends on the shapes of two arguments",
 [CC+":InitCentroids1",CC+":InitCentroids2",MO+":Reshape"]),
("The mixture and SVM kernels of the C++ engine compute what the Python ones compute",
 "CalculateMeans and CalculateError of the C++ engine give, in exact arithmetic, the numbers of the Python functions",
 "every data matrix, responsibilities, multipliers, labels, kernel and offset",
 "equality of two programs on all inputs",
 [CC+":CalculateMeans",CC+":CalculateError",MO+":GetNonZeroSubMatrix"]),
("BroadcastSub subtracts like numpy or raises ValueError",
 "BroadcastSub(a, b) is numpy's a - b for matrices of equal width when the numbers of rows are equal or one of them is 1; other shapes raise ValueError",
 "all pairs of matrices",
 "all shapes",
 [MO+":BroadcastSub"]),
]
PLAN={
"C132":"Raw draws as a list of Int; abs of int32, truncated remainder; counting residues of an interval for uniformity.",
"C133":"Model of the C++ functions with undefined behaviour as none; refinement of the Python model by induction on the epochs.",
"C134":"Model of the overloaded functions on the same Init type as the Python model; case analysis.",
"C135":"Loops as folds, shown equal to the sums of the Python model.",
"C136":"Matrices as lists of rows; numpy broadcasting as a separate specification.",
}
STATUS={
"C132":("partial","Pairs and refusals proved; uniformity is false: true only if the number of rows divides 2^30 (Linux), and rows beyond 16384 are never drawn on Windows. Eigen's integer Random is taken as rand() minus 2^(bits-1)."),
"C133":("partial","A defined C++ result is always the Python result; false when a centroid loses all its samples: Eigen does not broadcast, so the C++ behaviour is undefined where Python collapses or raises."),
"C134":("partial","Agreement for two or more features and clusters; false for one feature, for fractional indices and for matrices whose size happens to be the number of clusters."),
"C135":("proved","Exact arithmetic; marks 0 and 1."),
"C136":("partial","False when one matrix has one row and the other none."),
}
VIOL={
"C132":"C++ bootstrap indices abs(v) % n are not uniform unless n divides 2^30 (C132_not_uniform); on Windows rows beyond 16384 are never drawn (C132_never_drawn).",
"C133":"the C++ compare_differences subtracts matrices of different shapes as soon as a cluster is empty (C133_empty_cluster).",
"C134":"the C++ init_centroids reads a list of numbers as centroids for one feature and a matrix with as many entries as clusters as indices (C134_engines_differ).",
"C136":"BroadcastSub of a one-row and a zero-row matrix subtracts matrices of different sizes (C136_no_rows).",
}
