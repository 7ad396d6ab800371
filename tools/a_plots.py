PROPS=[
("The discriminant-analysis figure shows the model's decision",
 "plot_linear_discriminant_analysis refuses an untrained model; otherwise it draws every sample with label 0 or 1, the line through the origin along the projection vector, and from every sample a segment to its orthogonal projection on that line, inside the visible window, so that a sample is predicted positive exactly when its drawn projection is nearer the drawn positive centre.",
 "all trained weight vectors and class means, all data sets and labels",
 "A figure is only looked at for one data set; slope and foot-point formulas must hold for every weight vector, including axis-parallel ones.",
 ["classicML/api/plots/linear_model.py::plot_linear_discriminant_analysis","classicML/api/plots/linear_model.py::_plot_sample_scatter","classicML/api/plots/utils.py::_lda_plot_config"]),
("The logistic-regression figure draws the probability-1/2 line",
 "plot_logistic_regression refuses an untrained model; otherwise the drawn line is exactly the set of points to which the model assigns probability 1/2, for every trained model on two features, and models on another number of features are refused.",
 "all weight vectors of all lengths, all data sets",
 "A figure is only looked at for one model; the line formula must hold for all weights.",
 ["classicML/api/plots/linear_model.py::plot_logistic_regression","classicML/api/plots/linear_model.py::_plot_sample_scatter"]),
]
PLAN={
"C153":"Model.Plots: the figure as data (scatter groups, line, segments) computed from weights and samples; field arithmetic for the foot of the perpendicular; witnesses for axis-parallel and falling directions.",
"C154":"Model.Plots: the drawn line as intercept and slope; equivalence with sigmoid = 1/2 over the reals.",
}
STATUS={
"C153":("partial","Proved: refusal, samples, feet of the perpendiculars and the nearest-centre reading (two features, w0 != 0). Fails: w0 = 0 (no finite slope, nothing drawn: C153_vertical), falling directions w0*w1 < 0 lie outside the fixed window (C153_invisible), three or more features (C153_three_features)."),
"C154":("partial","Proved for two features with non-zero second weight. Fails: second weight 0 (vertical line not drawn, C154_vertical); three or more features are drawn silently with the third weight as intercept (C154_more_features); one feature raises IndexError (C154_one_feature)."),
}
VIOL={
"C153":"plot_linear_discriminant_analysis divides by the first weight (no line for a vertical direction), shows only the first quadrant, and for more than two features draws segments that are not perpendicular.",
"C154":"plot_logistic_regression divides by the second weight, and takes beta[2] as intercept whatever the number of features: a model trained on three features is drawn with the weight of its third feature as intercept.",
}
