PROPS=[
("The support-vector figure shows the samples, the support vectors and the decision boundary",
 "plot_support_vector_classifier refuses an untrained model; for every trained or loaded binary classifier with at least two features and its training data it draws the negative and positive samples, a ring around every support vector, and the decision boundary: the drawn line passes between two neighbouring nodes of the grid exactly if they are predicted differently.",
 "all trained and loaded classifiers, kernels, data sets and label vectors",
 "A figure is looked at for one data set; the claim is about all classifiers and data, wherever the samples lie.",
 ["classicML/api/plots/support_vector_machine.py::plot_support_vector_classifier","classicML/api/plots/support_vector_machine.py::_plot_decision_boundary","classicML/api/plots/support_vector_machine.py::_plot_sample_and_support_scatter"]),
("The ensemble figure shows the samples and the boundaries of the ensemble and of every estimator",
 "plot_ensemble refuses an untrained model; otherwise it draws the samples, the boundary of the ensemble and, if asked for, one boundary for each estimator from that estimator's own predictions, wherever the samples lie.",
 "all trained and loaded ensembles, estimators, data sets and label vectors",
 "The claim is about all ensembles and data; a figure is looked at for one.",
 ["classicML/api/plots/ensemble.py::plot_ensemble","classicML/api/plots/ensemble.py::_plot_classification_boundary","classicML/api/plots/ensemble.py::_plot_sample_scatter"]),
("The figure of a Bayesian classifier shows the predicted class of every point of the window",
 "plot_bayes refuses an untrained model; for every trained classifier of two attributes and its training data it draws every sample labelled 0 or 1 inside the window and colours the window by the predicted class.",
 "all naive Bayes classifiers and super-parent estimators of two numeric attributes, all data sets",
 "It must hold for all data, in particular for all kinds of columns; a figure is looked at for one data set.",
 ["classicML/api/plots/bayes.py::plot_bayes","classicML/api/plots/bayes.py::_plot_background","classicML/api/plots/bayes.py::_plot_scatter"]),
]
PLAN={
"C157":"Model.PlotsGrid: the figure as data, the 300 × 300 grid by meshgrid/reshape; index arithmetic for the raster; intermediate value theorem for the boundary.",
"C158":"Model.PlotsGrid: the same grid for every estimator; induction over the estimators.",
"C159":"Model.PlotsGrid and Model.PlotsBayes on top of the models of the Bayesian classifiers; C131 for the answers at the nodes.",
}
STATUS={
"C157":("partial","Proved: when it is drawn, what the raster, the rings and the markers are, and that a drawn boundary is near a zero of a continuous decision function. Fails outside of the fixed window [0, 1] × [0, 0.8] (C157_window, C157_window_witness) and, with IndexError, for other samples (C157_other_samples)."),
"C158":("partial","Proved: the raster of the ensemble and of each estimator (C158_drawn, with C158_bagging and C158_adaboost). Fails outside of the fixed window [0, 1]² (C158_window)."),
"C159":("partial","Proved for two continuous attributes (C159_naive_bayes_partial, C159_spode_partial). Fails with KeyError as soon as an attribute was taken for discrete (C159_discrete), and for any number of attributes other than two (C159_refused)."),
}
VIOL={
"C157":"plot_support_vector_classifier evaluates the classifier on the fixed window [0, 1] × [0, 0.8]: for data elsewhere no boundary is drawn.",
"C158":"plot_ensemble evaluates the ensemble on the fixed unit square: for data elsewhere no boundary is drawn.",
"C159":"plot_bayes raises KeyError for every model with a whole-number attribute, even with its own training data.",
}
