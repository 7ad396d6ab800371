PROPS=[
("The k-means figure outlines every cluster",
 "plot_k_means refuses an untrained model; for every trained or loaded model and its training samples it draws all samples, all centroids and for every cluster a closed line around the samples of that cluster, which encloses them and the centroid if that is their mean, inside the visible window.",
 "all trained and loaded models, all cluster sizes and label vectors, all data sets, all results of the unstable sort",
 "A figure is looked at for one data set; the claim is about all cluster sizes (also of one sample), all data and all instances the weights are loaded into.",
 ["classicML/api/plots/cluster.py::plot_k_means","classicML/api/plots/cluster.py::_plot_sample_scatter_and_centroids","classicML/api/plots/utils.py::_k_means_config","classicML/backend/python/ops.py::ConvexHull"]),
("The Gaussian-mixture figure shows every sample once, in its component",
 "plot_gaussian_mixture refuses an untrained model; otherwise every training sample is drawn exactly once, in the group of its component, and every mean is drawn; another number of samples is an error.",
 "all models, label vectors below the number of components, and data sets",
 "The partition must be right for all label vectors.",
 ["classicML/api/plots/cluster.py::plot_gaussian_mixture","classicML/api/plots/cluster.py::_plot_sample_scatter_and_centroids"]),
]
PLAN={
"C155":"Model.PlotsCluster: the figure as data, on top of the models of ConvexHull and KMeans; mapM over the clusters; C02/C03 for each hull.",
"C156":"Model.PlotsCluster: groups by label; induction over samples and components for the permutation.",
}
STATUS={
"C155":("partial","Proved: exactly when the figure is drawn (C155_drawn_iff) and what the lines then are (C155_outlines_partial, C155_centroid_inside). Fails for clusters of one sample (C155_single_sample, C155_trained_not_drawn), for instances whose n_clusters is not that of the loaded weights (C155_loaded_fewer, C155_loaded_more), and data outside the unit square is not visible (C155_invisible)."),
"C156":("proved","About the data handed to matplotlib."),
}
VIOL={
"C155":"plot_k_means raises for every trained model that has a cluster with a single sample (IndexError) or two samples sharing the smallest x (OverflowError), and uses the n_clusters of the constructor, which load_weights does not restore.",
}
