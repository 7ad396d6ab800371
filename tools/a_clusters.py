PROPS=[
("k-means finds well separated clusters",
 "If the samples fall into groups such that samples of one group are at most D apart and samples of different groups more than 2D apart, and the initial centroids are one sample of each group, then training stops within two epochs, the labels are the groups, every centroid is the mean of its group up to the tolerance, and a new row within D of a group and more than 2D from the others is given that group. The condition on the start is needed.",
 "all samples, all groupings, all initial centroids taken one from each group, all tolerances",
 "ranges over all separated data sets",
 ['classicML/api/models/cluster/k_means.py::KMeans','classicML/backend/python/ops.py::get_cluster','classicML/backend/python/ops.py::calculate_centroids']),
]
PLAN={"C336":"Triangle inequality; the mean of a group is within D of what all its samples are within D of; then the loop is run by hand."}
STATUS={"C336":("proved","C336_separated; the start matters: C336_bad_start; exact arithmetic.")}
VIOL={}
