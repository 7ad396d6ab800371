{
 "claims": [
  {
   "property": "C01",
   "status": "proved",
   "theorems": [
    "CML.Ops.C01_bootstrap_pairs",
    "CML.Ops.C01_bootstrap_rows",
    "CML.Ops.C01_bootstrap_mismatch"
   ],
   "note": "All arrays, all draws; mismatch branch included."
  },
  {
   "property": "C02",
   "status": "partial",
   "theorems": [
    "CML.Hull.C02_closed_left_turning_partial",
    "CML.Hull.C02_returns_iff",
    "CML.Hull.C02_vertical",
    "CML.Hull.C02_too_few"
   ],
   "note": "Proved whenever ConvexHull returns, which is exactly when there are two or more points and only one has the smallest x (C02_returns_iff). Fails otherwise: a second point with the smallest x raises OverflowError (C02_vertical), since the slope np.inf is converted to int32."
  },
  {
   "property": "C03",
   "status": "partial",
   "theorems": [
    "CML.Hull.C03_encloses_partial",
    "CML.Hull.C03_duplicates_wrong"
   ],
   "note": "Proved for distinct points whenever ConvexHull returns; false with duplicates (C03_duplicates_wrong); with two leftmost points nothing is returned (C02_vertical)."
  },
  {
   "property": "C04",
   "status": "proved",
   "theorems": [
    "CML.Ops.C04_clip_mem",
    "CML.Ops.C04_clip_cases",
    "CML.Ops.C04_clip_idem",
    "CML.Ops.C04_clip_mono",
    "CML.Ops.C04_cc_agrees",
    "CML.Ops.C04_clip_nearest"
   ],
   "note": "Python and C++ versions."
  },
  {
   "property": "C05",
   "status": "proved",
   "theorems": [
    "CML.Ops.C05_type_of_target",
    "CML.Ops.C05_type_of_target_total",
    "CML.Ops.C05_zero_dim",
    "CML.Ops.C05_cc_agrees",
    "CML.Ops.C05_cc_disagrees"
   ],
   "note": "All arrays with >= 1 dimension; the 0-d array raises IndexError (C05_zero_dim). The C++ version agrees when the float32 conversion separates the values; C05_cc_disagrees is a witness that it does not in general."
  },
  {
   "property": "C06",
   "status": "proved",
   "theorems": [
    "CML.SMO.C06_feasible_always",
    "CML.SMO.C06_feasible_result"
   ],
   "note": "Exact arithmetic; all kernels, permutations, epochs."
  },
  {
   "property": "C07",
   "status": "proved",
   "theorems": [
    "CML.SMO.C07_support_exact",
    "CML.SMO.C07_support_decision"
   ],
   "note": "Exact arithmetic."
  },
  {
   "property": "C08",
   "status": "proved",
   "theorems": [
    "CML.SMO.C08_passes_bounded",
    "CML.SMO.C08_early_stop",
    "CML.SMO.C08_unlimited"
   ],
   "note": "Early-stop condition is stated with the error value the algorithm uses (true error on the boundary, cached error strictly inside the box)."
  },
  {
   "property": "C09",
   "status": "partial",
   "theorems": [
    "CML.Ops.C09_select_second",
    "CML.Ops.C09_select_empty",
    "CML.Ops.C09_cc_wrong",
    "CML.Ops.C09_cc_select_second_partial",
    "CML.SMO.C09_training_choice"
   ],
   "note": "Proved in full for the Python function and its use in training. The C++ function violates the claim (C09_cc_wrong); C09_cc_select_second_partial covers the inputs on which it is right."
  },
  {
   "property": "C10",
   "status": "partial",
   "theorems": [
    "CML.SMO.C10_pair_update_partial",
    "CML.SMO.C10_dual_increases_partial",
    "CML.SMO.C10_dual_can_decrease"
   ],
   "note": "Proved for states with a coherent error cache; false in general (C10_dual_can_decrease), because of the stale cache."
  },
  {
   "property": "C11",
   "status": "partial",
   "theorems": [
    "CML.SMO.C11_cache_stale",
    "CML.SMO.C11_cache_refreshed_partial",
    "CML.SMO.C11_first_update"
   ],
   "note": "False in general (C11_cache_stale); proved for samples already inside the box when both updated multipliers were already positive."
  },
  {
   "property": "C12",
   "status": "proved",
   "theorems": [
    "CML.KMeans.C12_predict_nearest",
    "CML.KMeans.C12_nan_wins"
   ],
   "note": "Any strictly increasing root; Real.sqrt is one."
  },
  {
   "property": "C13",
   "status": "partial",
   "theorems": [
    "CML.KMeans.C13_stopped_labels",
    "CML.KMeans.C13_stopped_means_partial",
    "CML.KMeans.C13_stop_with_empty_cluster"
   ],
   "note": "Label half proved in full; the mean half is false when a cluster is empty (C13_stop_with_empty_cluster), proved when all labels occur."
  },
  {
   "property": "C14",
   "status": "proved",
   "theorems": [
    "CML.KMeans.C14_iteration_wcss",
    "CML.KMeans.C14_fit_wcss"
   ],
   "note": "Per iteration and for a whole fit."
  },
  {
   "property": "C15",
   "status": "partial",
   "theorems": [
    "CML.KMeans.C15_centroids_partial",
    "CML.KMeans.C15_no_empty_cluster_partial",
    "CML.KMeans.C15_collapse",
    "CML.KMeans.C15_fit_fails",
    "CML.KMeans.C15_no_clusters"
   ],
   "note": "False: collapse and failure witnesses. Proved: finite centroids, n_clusters or 1; n_clusters when no cluster becomes empty."
  },
  {
   "property": "C16",
   "status": "partial",
   "theorems": [
    "CML.KMeans.C16_random",
    "CML.KMeans.C16_indices_partial",
    "CML.KMeans.C16_indices_refused",
    "CML.KMeans.C16_float_indices_refused",
    "CML.KMeans.C16_matrix_partial",
    "CML.KMeans.C16_other_refused",
    "CML.KMeans.C16_column_is_indices",
    "CML.KMeans.C16_row_refused",
    "CML.KMeans.C16_single_index_refused"
   ],
   "note": "False for one cluster or one feature because of np.squeeze; proved otherwise, including all refusals."
  },
  {
   "property": "C17",
   "status": "proved",
   "theorems": [
    "CML.GMM.C17_density_normal",
    "CML.GMM.C17_density_edges",
    "CML.GMM.C17_density_positive",
    "CML.GMM.C17_posterior_prob",
    "CML.GMM.C17_posterior_bayes",
    "CML.GMM.C17_posterior_defined"
   ],
   "note": "For every density that is positive where defined; the density of the code is one (C17_density_positive)."
  },
  {
   "property": "C18",
   "status": "proved",
   "theorems": [
    "CML.GMM.C18_weights_prob",
    "CML.GMM.C18_fit_weights_prob",
    "CML.GMM.C18_steps_defined"
   ],
   "note": "Runs free of singular covariances; C18_steps_defined shows nothing else can go wrong."
  },
  {
   "property": "C19",
   "status": "proved",
   "theorems": [
    "CML.GMM.C19_means_convex",
    "CML.GMM.C19_means_bounded"
   ],
   "note": ""
  },
  {
   "property": "C20",
   "status": "proved",
   "theorems": [
    "CML.GMM.C20_covariances_psd",
    "CML.GMM.C20_covariances_weighted"
   ],
   "note": ""
  },
  {
   "property": "C21",
   "status": "partial",
   "theorems": [
    "CML.DTree.C21_predict_succeeds_partial",
    "CML.DTree.C21_only_keyError",
    "CML.DTree.C21_numeric_keyError"
   ],
   "note": "Proved for attributes the tree tests by value; false for numerical attributes that a subset makes look discrete (C21_numeric_keyError)."
  },
  {
   "property": "C22",
   "status": "proved",
   "theorems": [
    "CML.DTree.C22_labels"
   ],
   "note": ""
  },
  {
   "property": "C23",
   "status": "proved",
   "theorems": [
    "CML.DTree.C23_training_exact",
    "CML.DTree.C23_discrete_succeeds",
    "CML.DTree.C23_mixed_succeeds",
    "CML.DTree.C23_rounding_diverges"
   ],
   "note": "Also with continuous attributes; success proved for exact dividing points, with C23_rounding_diverges as the rounding caveat."
  },
  {
   "property": "C24",
   "status": "proved",
   "theorems": [
    "CML.DTree.C24_generator_choice",
    "CML.DTree.C24_generator_choice_gain",
    "CML.DTree.C24_optimal_division",
    "CML.DTree.C24_gain_division"
   ],
   "note": "Any impurity function; exact arithmetic."
  },
  {
   "property": "C25",
   "status": "partial",
   "theorems": [
    "CML.DTree.C25_leaves",
    "CML.DTree.C25_height_partial",
    "CML.DTree.C25_height_wrong"
   ],
   "note": "Leaf counts in full; heights are wrong for continuous nodes with two inner branches (C25_height_wrong)."
  },
  {
   "property": "C26",
   "status": "proved",
   "theorems": [
    "CML.DTree.C26_validation_score",
    "CML.DTree.C26_succeeds"
   ],
   "note": "All trees; success proved for fitted trees."
  },
  {
   "property": "C27",
   "status": "partial",
   "theorems": [
    "CML.DTree.C27_leaves",
    "CML.DTree.C27_height_partial",
    "CML.DTree.C27_height_fitted_partial",
    "CML.DTree.C27_height_wrong"
   ],
   "note": "Leaf counts in full; heights false (C27_height_wrong), proved for level branches."
  },
  {
   "property": "C28",
   "status": "partial",
   "theorems": [
    "CML.DTree.C28_height_not_low_partial",
    "CML.DTree.C28_bottom_height",
    "CML.DTree.C28_leaves_partial",
    "CML.DTree.C28_continuous_fails",
    "CML.DTree.C28_continuous_generated",
    "CML.DTree.C28_unseen_fails",
    "CML.DTree.C28_height_wrong"
   ],
   "note": "False: IndexingError for continuous nodes, KeyError for unseen values, wrong heights. Proved: leaf counts, heights are never too low (C28_height_not_low_partial), and every kept bottom node has height 2 instead of 1 (C28_bottom_height)."
  },
  {
   "property": "C29",
   "status": "proved",
   "theorems": [
    "CML.Small.C29_minimal",
    "CML.Small.C29_beats_every_threshold",
    "CML.Small.C29_at_least_half",
    "CML.Small.C29_single_sample"
   ],
   "note": "C29_single_sample records that with one sample no stump exists."
  },
  {
   "property": "C30",
   "status": "proved",
   "theorems": [
    "CML.Small.C30_two_levels"
   ],
   "note": ""
  },
  {
   "property": "C31",
   "status": "proved",
   "theorems": [
    "CML.Small.C31_half"
   ],
   "note": ""
  },
  {
   "property": "C32",
   "status": "proved",
   "theorems": [
    "CML.Ada.C32_distributions",
    "CML.Ada.C32_lengths",
    "CML.Ada.C32_completes",
    "CML.Ada.C32_two_level_trees"
   ],
   "note": "Every base learner; C32_two_level_trees instantiates the default one."
  },
  {
   "property": "C33",
   "status": "proved",
   "theorems": [
    "CML.Ada.C33_half",
    "CML.Ada.C33_stopping"
   ],
   "note": ""
  },
  {
   "property": "C34",
   "status": "proved",
   "theorems": [
    "CML.Ada.C34_training_error",
    "CML.Ada.C34_two_level_trees"
   ],
   "note": ""
  },
  {
   "property": "C35",
   "status": "proved",
   "theorems": [
    "CML.Ada.C35_sign",
    "CML.Ada.C35_after_load",
    "CML.Ada.C35_untrained_refused",
    "CML.Ada.C35_zero_sum_nan",
    "CML.Ada.C35_zero_sum_sign",
    "CML.Ada.C35_negative_sum_flips"
   ],
   "note": "C35_zero_sum_nan and C35_negative_sum_flips show what happens without positive sum."
  },
  {
   "property": "C36",
   "status": "proved",
   "theorems": [
    "CML.Bagging.C36_untrained_refused",
    "CML.Bagging.C36_majority",
    "CML.Bagging.C36_fit",
    "CML.Bagging.C36_completes"
   ],
   "note": ""
  },
  {
   "property": "C37",
   "status": "partial",
   "theorems": [
    "CML.Bayes.C37_distribution",
    "CML.Bayes.C37_frequencies",
    "CML.Bayes.C37_laplace_partial",
    "CML.Bayes.C37_cc_partial",
    "CML.Bayes.C37_one_class"
   ],
   "note": "False with smoothing if one class is absent (C37_one_class); everything else proved."
  },
  {
   "property": "C38",
   "status": "proved",
   "theorems": [
    "CML.Bayes.C38_naive_bayes",
    "CML.Bayes.C38_unsmoothed",
    "CML.Bayes.C38_one_dependent"
   ],
   "note": "Naive Bayes and one-dependent estimators."
  },
  {
   "property": "C39",
   "status": "proved",
   "theorems": [
    "CML.Bayes.C39_joint_priors",
    "CML.Bayes.C39_stored_priors"
   ],
   "note": ""
  },
  {
   "property": "C40",
   "status": "proved",
   "theorems": [
    "CML.Bayes.C40_positive",
    "CML.Bayes.C40_underflow",
    "CML.Bayes.C40_zero_variance"
   ],
   "note": ""
  },
  {
   "property": "C41",
   "status": "partial",
   "theorems": [
    "CML.Bayes.C41_counts_partial",
    "CML.Bayes.C41_one_dependent",
    "CML.Bayes.C41_swapped"
   ],
   "note": "False for naive Bayes if frequencies and first appearance order differ (C41_swapped); proved if they agree, and for one-dependent estimators."
  },
  {
   "property": "C42",
   "status": "partial",
   "theorems": [
    "CML.Bayes.C42_label_partial",
    "CML.Bayes.C42_nan_is_one",
    "CML.Bayes.C42_probability_inverted",
    "CML.Bayes.C42_probability_sum"
   ],
   "note": "Labels proved; the probabilities are quotients of logarithms and order the classes the wrong way (C42_probability_inverted)."
  },
  {
   "property": "C43",
   "status": "partial",
   "theorems": [
    "CML.Bayes.C43_refit_accumulates",
    "CML.Bayes.C43_witness",
    "CML.Bayes.C43_first_fit_partial"
   ],
   "note": "False (C43_refit_accumulates, C43_witness); the first fit is right."
  },
  {
   "property": "C44",
   "status": "proved",
   "theorems": [
    "CML.LDA.C44_sum_of_outer_products",
    "CML.LDA.C44_scatter_psd",
    "CML.LDA.C44_definite",
    "CML.LDA.C44_means"
   ],
   "note": "Also positive on every direction along which the data vary; means are centres of gravity."
  },
  {
   "property": "C45",
   "status": "partial",
   "theorems": [
    "CML.LDA.C45_get_w_solves",
    "CML.LDA.C45_v2_singular",
    "CML.LDA.C45_v2_violated",
    "CML.LDA.C45_v2_partial",
    "CML.LDA.C45_v2_one_feature_partial",
    "CML.LDA.C45_v2_zero",
    "CML.LDA.C45_cc_violated"
   ],
   "note": "True of the deprecated get_w_v1. False of get_w (= get_w_v2) for every non-diagonal scatter matrix (C45_v2_violated, C45_v2_zero) and of the C++ backend (C45_cc_violated); true for diagonal SVD factors and for one feature."
  },
  {
   "property": "C46",
   "status": "proved",
   "theorems": [
    "CML.LDA.C46_nearer_centre",
    "CML.LDA.C46_scale_invariant",
    "CML.LDA.C46_half_space"
   ],
   "note": ""
  },
  {
   "property": "C47",
   "status": "proved",
   "theorems": [
    "CML.LogReg.C47_loss",
    "CML.LogReg.C47_gradient_loss",
    "CML.LogReg.C47_gradient",
    "CML.LogReg.C47_hessian"
   ],
   "note": "Gradient and Hessian as Frechet derivatives, for every label vector; for labels 0/1 the loss is the negative log-likelihood."
  },
  {
   "property": "C48",
   "status": "proved",
   "theorems": [
    "CML.LogReg.C48_hessian_psd",
    "CML.LogReg.C48_convex"
   ],
   "note": ""
  },
  {
   "property": "C49",
   "status": "proved",
   "theorems": [
    "CML.Net.C49_init_shapes",
    "CML.Net.C49_forward",
    "CML.Net.C49_wrong_width",
    "CML.Net.C49_training_keeps_shapes",
    "CML.Net.C49_array_rules",
    "CML.Net.C49_bias",
    "CML.Net.C49_bias_rows",
    "CML.Net.C49_update_in_place",
    "CML.Net.C49_products",
    "CML.Net.C49_refused",
    "CML.Net.C49_backward_refused",
    "CML.Net.C49_epoch_iff"
   ],
   "note": "initialiser shapes; forward succeeds on any batch and equals the textbook network; wrong width refused; SGD training of any length keeps all shapes and never raises."
  },
  {
   "property": "C50",
   "status": "proved",
   "theorems": [
    "CML.C50_value",
    "CML.C50_probability",
    "CML.C50_shift",
    "CML.C50_order",
    "CML.C50_no_overflow"
   ],
   "note": "Exact exponential; see C86 for underflow."
  },
  {
   "property": "C51",
   "status": "proved",
   "theorems": [
    "CML.Net.C51_gradient",
    "CML.Net.C51_sgd_step"
   ],
   "note": "strengthened to the whole network: backward is the gradient of the mean cross-entropy w.r.t. all weights and biases, any depth and batch, away from the ReLU kink; one SGD epoch moves along it."
  },
  {
   "property": "C52",
   "status": "proved",
   "theorems": [
    "CML.Net.C52_network",
    "CML.Net.C52_broadcast",
    "CML.Net.C52_step_refused",
    "CML.Net.C52_missing_gradient",
    "CML.Net.C52_wrong_gradient",
    "CML.Net.C52_sample_iff",
    "CML.Net.C52_sgd_sample",
    "CML.Net.C52_denominator_pos",
    "CML.Net.C52_moments_convex",
    "CML.Net.C52_first_step"
   ],
   "note": "per array entry (all operations are elementwise) and, C52_network, for whole networks of any depth: every weight and bias follows the textbook Adam sequence of its own gradients."
  },
  {
   "property": "C53",
   "status": "partial",
   "theorems": [
    "CML.RBF.C53_w_b_partial",
    "CML.RBF.C53_beta_ignores_labels",
    "CML.RBF.C53_beta_wrong"
   ],
   "note": "False for beta: C53_beta_ignores_labels (for all data the code uses the gradient of the mean squared prediction), C53_beta_wrong. Proved for w and b."
  },
  {
   "property": "C54",
   "status": "proved",
   "theorems": [
    "CML.Train.C54_one_fit",
    "CML.Train.C54_all_fits",
    "CML.Train.C54_other_histories"
   ],
   "note": "Also for histories listed several times."
  },
  {
   "property": "C55",
   "status": "partial",
   "theorems": [
    "CML.Train.C55_width",
    "CML.Train.C55_monotone",
    "CML.Train.C55_full_iff",
    "CML.Train.C55_last_full_partial",
    "CML.Train.C55_full_too_early",
    "CML.Train.C55_full_exactly_last_partial",
    "CML.Train.C55_cc_violated",
    "CML.Train.C55_cc_never_full",
    "CML.Train.C55_cc_full_iff"
   ],
   "note": "Width and monotone filling proved for every rounding; 'full exactly at the last epoch' is false from 26 epochs on (C55_full_too_early); the C++ bar violates it everywhere (C55_cc_violated, C55_cc_never_full)."
  },
  {
   "property": "C56",
   "status": "partial",
   "theorems": [
    "CML.Metrics.C56_unit_interval",
    "CML.Metrics.C56_fraction_partial",
    "CML.Metrics.C56_empty",
    "CML.Metrics.C56_cc",
    "CML.Metrics.C56_other_label_counted_correct",
    "CML.Metrics.C56_short_labels"
   ],
   "note": "False for labels outside {-1,0,1} and for missing labels: such rows are counted as correct (C56_other_label_counted_correct, C56_short_labels); proved for the labels the library uses."
  },
  {
   "property": "C57",
   "status": "proved",
   "theorems": [
    "CML.Metrics.C57_fraction",
    "CML.Metrics.C57_mismatch",
    "CML.Metrics.C57_empty_row",
    "CML.Metrics.C57_one_label_row",
    "CML.Metrics.C57_one_prediction_row",
    "CML.Metrics.C57_cc"
   ],
   "note": ""
  },
  {
   "property": "C58",
   "status": "proved",
   "theorems": [
    "CML.C58_binary_positive",
    "CML.C58_binary_value",
    "CML.C58_categorical_value",
    "CML.C58_categorical_nonneg",
    "CML.C58_dispatch",
    "CML.C58_log_likelihood",
    "CML.C58_log_likelihood_positive"
   ],
   "note": "np.log at 0 is outside the model: hypotheses give positive arguments."
  },
  {
   "property": "C59",
   "status": "partial",
   "theorems": [
    "CML.C59_violated",
    "CML.C59_zero_iff",
    "CML.C59_single_sample_partial",
    "CML.C59_bound_partial",
    "CML.C59_broadcast"
   ],
   "note": "False (C59_violated, C59_zero_iff); proved for one sample, non-negativity, and bounds."
  },
  {
   "property": "C60",
   "status": "proved",
   "theorems": [
    "CML.Kern.C60_symmetric",
    "CML.Kern.C60_psd",
    "CML.Kern.C60_rbf_range",
    "CML.Kern.C60_curvature",
    "CML.Kern.C60_curvature_values"
   ],
   "note": "Also for the polynomial kernel with gamma >= 0; the curvature result holds for every PSD kernel."
  },
  {
   "property": "C61",
   "status": "proved",
   "theorems": [
    "CML.Prep.C61_minmax",
    "CML.Prep.C61_constant"
   ],
   "note": "Constant and empty data are characterised too (C61_constant)."
  },
  {
   "property": "C62",
   "status": "partial",
   "theorems": [
    "CML.Prep.C62_standard_partial",
    "CML.Prep.C62_variance",
    "CML.Prep.C62_constant"
   ],
   "note": "Variance 1 is false: C62_variance (the variance becomes 1/variance, for all data). Mean 0 and inverse proved."
  },
  {
   "property": "C63",
   "status": "proved",
   "theorems": [
    "CML.Prep.C63_one_hot",
    "CML.Prep.C63_dummy",
    "CML.Prep.C63_recoverable",
    "CML.Prep.C63_fresh_indices"
   ],
   "note": "For fresh and reused encoders; also DummyEncoder."
  },
  {
   "property": "C64",
   "status": "proved",
   "theorems": [
    "CML.Prep.C64_max_margin",
    "CML.Prep.C64_injective",
    "CML.Prep.C64_three_classes"
   ],
   "note": "Also that three classes are merged silently (outside the claim)."
  },
  {
   "property": "C65",
   "status": "partial",
   "theorems": [
    "CML.Prep.C65_numeric",
    "CML.Prep.C65_unchanged_partial",
    "CML.Prep.C65_categorical",
    "CML.Prep.C65_all_missing",
    "CML.Prep.C65_precision_lost",
    "CML.Prep.C65_table"
   ],
   "note": "Present values undergo a conversion to single precision: C65_precision_lost shows that integers above 2^24 change for every such conversion. Proved in full otherwise (numeric and categorical columns)."
  },
  {
   "property": "C66",
   "status": "partial",
   "theorems": [
    "CML.Data.C66_strings_iff",
    "CML.Data.C66_words_iff",
    "CML.Data.C66_violated",
    "CML.Data.C66_words_partial",
    "CML.Data.C66_other_words_refused",
    "CML.Data.C66_ints_iff"
   ],
   "note": "False: C66_violated ('Yes'/'no'), integer labels other than 0/1 (C66_ints_iff); exact conditions proved (C66_strings_iff, C66_words_iff)."
  },
  {
   "property": "C67",
   "status": "partial",
   "theorems": [
    "CML.Data.C67_iff",
    "CML.Data.C67_ints_partial",
    "CML.Data.C67_violated",
    "CML.Data.C67_strings_partial",
    "CML.Data.C67_strings_violated"
   ],
   "note": "False for negative labels and for numeral strings (C67_violated, C67_strings_violated); exact condition C67_iff."
  },
  {
   "property": "C68",
   "status": "proved",
   "theorems": [
    "CML.IO.C68_accept_iff",
    "CML.IO.C68_own_file",
    "CML.IO.C68_other_model",
    "CML.IO.C68_version_bound",
    "CML.IO.C68_release_order",
    "CML.IO.C68_errors",
    "CML.IO.C68_suffix_ignored",
    "CML.IO.C68_names_distinct",
    "CML.IO.C68_value_errors",
    "CML.IO.C68_pep440"
   ],
   "note": "packaging's parser for the free-text cml_version is a parameter; the regular expression, its leftmost-longest match and the version order are proved against independent specifications."
  },
  {
   "property": "C69",
   "status": "partial",
   "theorems": [
    "CML.Getters.C69_optimizer",
    "CML.Getters.C69_kernel",
    "CML.Getters.C69_initializer",
    "CML.Getters.C69_criterion",
    "CML.Getters.C69_pruner",
    "CML.Getters.C69_loss_metric_partial",
    "CML.Getters.C69_loss_accepts_anything",
    "CML.Getters.C69_metric_none",
    "CML.Getters.C69_violated",
    "CML.Getters.C69_instances",
    "CML.Getters.C69_defaults",
    "CML.Getters.C69_other_refused"
   ],
   "note": "False for get_loss and get_metric: C69_violated, C69_loss_accepts_anything, C69_metric_none. Proved for the other five getters."
  },
  {
   "property": "C70",
   "status": "partial",
   "theorems": [
    "CML.Failed.C70_untrained",
    "CML.Failed.C70_after_failed_fit",
    "CML.Failed.C70_no_parameters",
    "CML.Failed.C70_kmeans_empty",
    "CML.Failed.C70_bayes_unknown_attribute",
    "CML.Persist.C70_guard_iff_partial",
    "CML.Persist.C70_stump_unguarded",
    "CML.Persist.C70_two_level_empty"
   ],
   "note": "False for the decision stump and two-level tree (C70_stump_unguarded: AttributeError). Proved for the 13 guarded classes over all histories of calls."
  },
  {
   "property": "C71",
   "status": "partial",
   "theorems": [
    "CML.GMM.C71_default_coefficients",
    "CML.GMM.C71_accepted_partial",
    "CML.GMM.C71_refused",
    "CML.GMM.C71_negative_accepted",
    "CML.GMM.C71_negative_posterior"
   ],
   "note": "Sum and length proved; non-negativity is not checked by the code (C71_negative_accepted)."
  },
  {
   "property": "C72",
   "status": "proved",
   "theorems": [
    "CML.GMM.C72_predict_largest_posterior",
    "CML.GMM.C72_fit_clusters",
    "CML.GMM.C72_fit_converged"
   ],
   "note": ""
  },
  {
   "property": "C73",
   "status": "partial",
   "theorems": [
    "CML.Metrics.C73_score_partial",
    "CML.Metrics.C73_three_classes"
   ],
   "note": "False with three classes (C73_three_classes); proved for labels in {-1,0,1}."
  },
  {
   "property": "C74",
   "status": "proved",
   "theorems": [
    "CML.Small.C74_best_split"
   ],
   "note": ""
  },
  {
   "property": "C75",
   "status": "partial",
   "theorems": [
    "CML.Ada.C75_adaboost_refit_fails",
    "CML.Ada.C75_adaboost_fit_after_load_fails",
    "CML.Ada.C75_first_fit_partial",
    "CML.Bagging.C75_bagging_accumulates"
   ],
   "note": "False: AdaBoost raises AttributeError, Bagging accumulates; the first fit is right."
  },
  {
   "property": "C76",
   "status": "partial",
   "theorems": [
    "CML.Ada.C76_labels_partial",
    "CML.Ada.C76_equal_rows_nan",
    "CML.Ada.C76_witness"
   ],
   "note": "False if all rounds have error 1/2 (C76_equal_rows_nan); proved for the default learner as soon as one round has error below 1/2."
  },
  {
   "property": "C77",
   "status": "partial",
   "theorems": [
    "CML.Bayes.C77_density_partial",
    "CML.Bayes.C77_variance_as_deviation",
    "CML.Bayes.C77_parameters",
    "CML.Bayes.C77_one_dependent"
   ],
   "note": "False unless the variance is 1: the variance is used as standard deviation."
  },
  {
   "property": "C78",
   "status": "partial",
   "theorems": [
    "CML.Bayes.C78_always_one",
    "CML.Bayes.C78_disjoint_columns_partial"
   ],
   "note": "False in general (C78_always_one); proved for discrete columns without common values."
  },
  {
   "property": "C79",
   "status": "partial",
   "theorems": [
    "CML.Bayes.C79_all_values",
    "CML.Bayes.C79_single_value_partial"
   ],
   "note": "False (C79_all_values); true if the super-parent has one value."
  },
  {
   "property": "C80",
   "status": "partial",
   "theorems": [
    "CML.Bayes.C80_single_value",
    "CML.Bayes.C80_fit_partial"
   ],
   "note": "False for columns with one distinct value (C80_single_value); proved otherwise."
  },
  {
   "property": "C81",
   "status": "partial",
   "theorems": [
    "CML.LDA.C81_means_classified",
    "CML.LDA.C81_violated"
   ],
   "note": "Proved with get_w_v1 (C81_means_classified); false with the shipped get_w (C81_violated)."
  },
  {
   "property": "C82",
   "status": "partial",
   "theorems": [
    "CML.LDA.C82_violated",
    "CML.LDA.C82_one_class",
    "CML.LDA.C82_lengths",
    "CML.LDA.C82_two_classes_partial"
   ],
   "note": "False (C82_violated); proved: with both classes the model holds the class means."
  },
  {
   "property": "C83",
   "status": "proved",
   "theorems": [
    "CML.LogReg.C83_descent",
    "CML.LogReg.C83_monotone",
    "CML.LogReg.C83_convergence"
   ],
   "note": ""
  },
  {
   "property": "C84",
   "status": "proved",
   "theorems": [
    "CML.LogReg.C84_gd_fixed_point",
    "CML.LogReg.C84_newton_fixed_point",
    "CML.LogReg.C84_minimum_is_fixed",
    "CML.LogReg.C84_newton_collinear",
    "CML.LogReg.C84_newton_few_samples"
   ],
   "note": ""
  },
  {
   "property": "C85",
   "status": "proved",
   "theorems": [
    "CML.LogReg.C85_predict"
   ],
   "note": ""
  },
  {
   "property": "C86",
   "status": "partial",
   "theorems": [
    "CML.C86_underflow",
    "CML.C86_bounded_partial"
   ],
   "note": "False (C86_underflow); proved for matrices of bounded spread."
  },
  {
   "property": "C87",
   "status": "partial",
   "theorems": [
    "CML.C87_relu_diff_violated",
    "CML.C87_relu_diff_repeat_partial",
    "CML.C87_violated",
    "CML.C87_repeat_partial"
   ],
   "note": "False of the Python backend (C87_violated); proved: repeating the call gives the same result."
  },
  {
   "property": "C88",
   "status": "partial",
   "theorems": [
    "CML.Net.C88_binary_direction_partial",
    "CML.Net.C88_not_the_gradient"
   ],
   "note": "False as stated: C88_not_the_gradient. Proved: for one sample with label 0/1 (the SGD case) the code's gradient is the true gradient times a factor in [3/4, 2]."
  },
  {
   "property": "C89",
   "status": "partial",
   "theorems": [
    "CML.Net.C89_integer_labels_accepted",
    "CML.Net.C89_wrong_label_width_partial",
    "CML.Net.C89_missing_labels",
    "CML.Net.C89_elementwise"
   ],
   "note": "False as stated: C89_integer_labels_accepted (for every network and class number: no error, never the gradient). Proved: label widths other than 1 and k are refused."
  },
  {
   "property": "C90",
   "status": "proved",
   "theorems": [
    "CML.Net.C90_rowwise",
    "CML.Net.C90_probabilities"
   ],
   "note": "exact arithmetic; overflow is not modelled."
  },
  {
   "property": "C91",
   "status": "partial",
   "theorems": [
    "CML.RBF.C91_label_vector_refused",
    "CML.RBF.C91_column_labels_partial",
    "CML.RBF.C91_error_vector",
    "CML.RBF.C91_all_pairs",
    "CML.RBF.C91_backward_refused"
   ],
   "note": "False: C91_label_vector_refused (for all data). Proved for labels of shape (n,1): training never raises, keeps shapes and centres."
  },
  {
   "property": "C92",
   "status": "partial",
   "theorems": [
    "CML.RBF.C92_two_features_only",
    "CML.RBF.C92_forward_partial",
    "CML.RBF.C92_one_feature",
    "CML.RBF.C92_one_column_centres"
   ],
   "note": "False: C92_two_features_only. Proved for two features."
  },
  {
   "property": "C93",
   "status": "proved",
   "theorems": [
    "CML.RBF.C93_first_epoch"
   ],
   "note": ""
  },
  {
   "property": "C94",
   "status": "proved",
   "theorems": [
    "CML.Train.C94_monitoring_is_pure"
   ],
   "note": "The update and the evaluation functions are parameters of the loop model."
  },
  {
   "property": "C95",
   "status": "partial",
   "theorems": [
    "CML.Train.C95_sgd_partial",
    "CML.Train.C95_one_epoch_behind",
    "CML.Train.C95_violated"
   ],
   "note": "True for SGD and Adam; false for logistic regression and RBF networks (C95_one_epoch_behind, C95_violated)."
  },
  {
   "property": "C96",
   "status": "partial",
   "theorems": [
    "CML.Train.C96_verbose",
    "CML.Train.C96_silent_partial",
    "CML.Train.C96_violated"
   ],
   "note": "False after one verbose fit (C96_violated, for all sequences); proved for optimisers never used verbosely."
  },
  {
   "property": "C97",
   "status": "partial",
   "theorems": [
    "CML.Train.C97_binding",
    "CML.Train.C97_omitted",
    "CML.Train.C97_string_overwritten",
    "CML.Train.C97_too_many"
   ],
   "note": "Binding proved for values that are not parameter names; omitted arguments hold their own name as a string (C97_omitted)."
  },
  {
   "property": "C98",
   "status": "partial",
   "theorems": [
    "CML.Kern.C98_not_psd",
    "CML.Kern.C98_negative_curvature",
    "CML.Kern.C98_bounded_partial"
   ],
   "note": "False for the default parameters in every dimension: C98_not_psd, C98_negative_curvature. Symmetry and boundedness proved."
  },
  {
   "property": "C99",
   "status": "partial",
   "theorems": [
    "CML.Prep.C99_default_axis_refused",
    "CML.Prep.C99_square_wrong_row",
    "CML.Prep.C99_violated",
    "CML.Prep.C99_axis0_partial",
    "CML.Prep.C99_single_row_partial",
    "CML.Prep.C99_single_column"
   ],
   "note": "False: C99_default_axis_refused (all non-square tables), C99_square_wrong_row, C99_violated. Proved for axis=0 and for a single row."
  },
  {
   "property": "C100",
   "status": "partial",
   "theorems": [
    "CML.Prep.C100_stale",
    "CML.Prep.C100_reuse_partial"
   ],
   "note": "False: C100_stale (all pairs of labels)."
  },
  {
   "property": "C101",
   "status": "partial",
   "theorems": [
    "CML.Data.C101_encode",
    "CML.Data.C101_ints_partial",
    "CML.Data.C101_ints_refused",
    "CML.Data.C101_words_partial"
   ],
   "note": "False for two integer classes other than 0/1: C101_ints_refused (KeyError). Proved for documented words and for three or more non-negative classes; C101_encode for any agreeing dictionary."
  },
  {
   "property": "C102",
   "status": "partial",
   "theorems": [
    "CML.Data.C102_tensor_modes",
    "CML.Data.C102_no_labels",
    "CML.Data.C102_plain_partial",
    "CML.Data.C102_classes_forgotten"
   ],
   "note": "False: C102_tensor_modes, C102_no_labels, C102_classes_forgotten."
  },
  {
   "property": "C103",
   "status": "partial",
   "theorems": [
    "CML.Data.C103_stale",
    "CML.Data.C103_violated",
    "CML.Data.C103_fresh_partial"
   ],
   "note": "False: C103_stale, C103_violated."
  },
  {
   "property": "C104",
   "status": "partial",
   "theorems": [
    "CML.Data.C104_float_partial",
    "CML.Data.C104_integer_table"
   ],
   "note": "False for integer tables: C104_integer_table. Proved for float tables."
  },
  {
   "property": "C105",
   "status": "proved",
   "theorems": [
    "CML.Data.C105_overwrites",
    "CML.Data.C105_both"
   ],
   "note": "Exact arithmetic."
  },
  {
   "property": "C106",
   "status": "proved",
   "theorems": [
    "CML.Data.C106_layout",
    "CML.Data.C106_in_place",
    "CML.Data.C106_dummies",
    "CML.Data.C106_mixed_refused"
   ],
   "note": ""
  },
  {
   "property": "C107",
   "status": "partial",
   "theorems": [
    "CML.Data.C107_overwritten",
    "CML.Data.C107_unchanged_partial",
    "CML.Data.C107_same_object"
   ],
   "note": "False with fillna=False: C107_overwritten. Proved for the other settings."
  },
  {
   "property": "C108",
   "status": "proved",
   "theorems": [
    "CML.Getters.C108_names_round_trip",
    "CML.Getters.C108_initializers",
    "CML.Getters.C108_tables_functional"
   ],
   "note": "Also the exact behaviour of initializers (glorot_normal yields XavierNormal)."
  },
  {
   "property": "C109",
   "status": "proved",
   "theorems": [
    "CML.Persist.C109_data_restored",
    "CML.Persist.C109_load_succeeds",
    "CML.Persist.C109_save_succeeds",
    "CML.Persist.C109_save_errors",
    "CML.Persist.C109_missing_data_set",
    "CML.Persist.C109_lda_reads_weights_only",
    "CML.Persist.C109_malformed_values"
   ],
   "note": "For all 13 classes; library assumptions: pickle is faithful, packaging reads the version string as at least 0.5; documented backend names, and the loading tree classifier has no pruner unless the saved one had."
  },
  {
   "property": "C110",
   "status": "partial",
   "theorems": [
    "CML.Persist.C110_default_kernel_partial",
    "CML.Persist.C110_degree_lost",
    "CML.Persist.C110_gamma_replaced",
    "CML.Persist.C110_optimizer",
    "CML.Persist.C110_metric_lost"
   ],
   "note": "False: C110_degree_lost (every degree other than 3), C110_gamma_replaced, C110_metric_lost. Proved for default kernels (C110_default_kernel_partial) and optimizers (C110_optimizer)."
  },
  {
   "property": "C111",
   "status": "partial",
   "theorems": [
    "CML.Persist.C111_failed_load_partial",
    "CML.Persist.C111_half_loaded",
    "CML.Persist.C111_svc_mixed"
   ],
   "note": "False: C111_half_loaded, C111_svc_mixed. Proved for header failures, flags and attributes outside the program."
  },
  {
   "property": "C112",
   "status": "partial",
   "theorems": [
    "CML.Persist.C112_other_paths_partial",
    "CML.Persist.C112_old_content_lost",
    "CML.Persist.C112_violated"
   ],
   "note": "False: C112_old_content_lost, C112_violated. Other paths are untouched."
  },
  {
   "property": "C113",
   "status": "partial",
   "theorems": [
    "CML.Persist.C113_kmeans_saves_partial",
    "CML.Persist.C113_too_many_samples",
    "CML.Persist.C113_too_many_support_vectors"
   ],
   "note": "False: C113_too_many_samples, C113_too_many_support_vectors for any attribute size limit (HDF5: 64 KB)."
  },
  {
   "property": "C114",
   "status": "partial",
   "theorems": [
    "CML.Persist.C114_fresh_instance_partial",
    "CML.Persist.C114_stale_layers",
    "CML.Persist.C114_number_of_components",
    "CML.Persist.C114_tree_pruning"
   ],
   "note": "False: C114_stale_layers, C114_number_of_components, C114_tree_pruning. Exact result proved (C114_fresh_instance_partial)."
  },
  {
   "property": "C115",
   "status": "partial",
   "theorems": [
    "CML.Persist.C115_refit_partial",
    "CML.Persist.C115_fit_then_saves",
    "CML.Persist.C115_loaded_tree_not_trained",
    "CML.Persist.C115_violated"
   ],
   "note": "False for a tree classifier with loaded weights: C115_loaded_tree_not_trained. Proved otherwise."
  },
  {
   "property": "C116",
   "status": "proved",
   "theorems": [
    "CML.PlotTree.C116_picture",
    "CML.PlotTree.C116_leaves",
    "CML.PlotTree.C116_distinct",
    "CML.PlotTree.C116_fitted",
    "CML.PlotTree.C116_post_pruned",
    "CML.PlotTree.C116_pre_pruned"
   ],
   "note": "Nodes, names, edges, texts, spacing and distinct places, for every fitted, post-pruned and pre-pruned tree. Coordinates are exact."
  },
  {
   "property": "C117",
   "status": "partial",
   "theorems": [
    "CML.PlotTree.C117_canvas_partial",
    "CML.PlotTree.C117_level_partial",
    "CML.PlotTree.C117_off_canvas"
   ],
   "note": "Proved for every unpruned tree and for post-pruned trees with level branches; false in general after post-pruning (C117_off_canvas), because the recorded height is too small."
  },
  {
   "property": "C118",
   "status": "partial",
   "theorems": [
    "CML.SMO.C118_errors_cancel",
    "CML.SMO.C118_on_margin_partial",
    "CML.SMO.C118_off_margin"
   ],
   "note": "The errors always cancel; both samples are on the margin if both multipliers end inside the box. False if only one does (C118_off_margin), because the code always averages the two candidate biases."
  },
  {
   "property": "C119",
   "status": "proved",
   "theorems": [
    "CML.SMO.C119_schedule",
    "CML.SMO.C119_returns"
   ],
   "note": "For every valid problem; labels must be +1/-1 and C >= 0 (needed for the masks)."
  },
  {
   "property": "C120",
   "status": "proved",
   "theorems": [
    "CML.GMM.C120_density",
    "CML.GMM.C120_step",
    "CML.GMM.C120_steps",
    "CML.GMM.C120_fit",
    "CML.GMM.C120_default_covariances"
   ],
   "note": "Exact arithmetic (the 1e-36 floor for underflowing densities is then never used); runs whose covariances stay invertible, as every completed run's do."
  },
  {
   "property": "C121",
   "status": "partial",
   "theorems": [
    "CML.GMM.C121_default",
    "CML.GMM.C121_accepted_partial",
    "CML.GMM.C121_accepted_entries",
    "CML.GMM.C121_exactly",
    "CML.GMM.C121_one_refused",
    "CML.GMM.C121_not_validated"
   ],
   "note": "False for one component or one feature: np.squeeze removes the axis and every array is refused (C121_one_refused). Proved otherwise; the exact condition is C121_exactly. Entries are not validated (C121_not_validated)."
  },
  {
   "property": "C122",
   "status": "proved",
   "theorems": [
    "CML.DTree.C122_gini_pairs",
    "CML.DTree.C122_gini_range",
    "CML.DTree.C122_entropy_range"
   ],
   "note": "Gini over every ordered field, entropy over the reals."
  },
  {
   "property": "C123",
   "status": "proved",
   "theorems": [
    "CML.DTree.C123_gini_values",
    "CML.DTree.C123_entropy_values",
    "CML.DTree.C123_gini_point",
    "CML.DTree.C123_entropy_point",
    "CML.DTree.C123_gain_nonneg"
   ],
   "note": "Gini over every ordered field, entropy over the reals, with the equality case."
  },
  {
   "property": "C124",
   "status": "proved",
   "theorems": [
    "CML.SVC.C124_decision",
    "CML.SVC.C124_untrained",
    "CML.SVC.C124_recompiled",
    "CML.SVC.C124_compile"
   ],
   "note": "Exact arithmetic; kernels are parameters. Compiling a trained classifier again makes predict raise TypeError until the next fit (C124_recompiled)."
  },
  {
   "property": "C125",
   "status": "partial",
   "theorems": [
    "CML.SVC.C125_first_fit_partial",
    "CML.SVC.C125_gamma_defined",
    "CML.SVC.C125_refit_stale",
    "CML.SVC.C125_instance"
   ],
   "note": "Holds for the first fit (C125_first_fit_partial). False for later ones: fit replaces gamma by its value and the kernel name by an instance, so the old kernel is used for new data (C125_refit_stale)."
  },
  {
   "property": "C126",
   "status": "partial",
   "theorems": [
    "CML.SVC.C126_positive_class_partial",
    "CML.SVC.C126_negative_class_lost"
   ],
   "note": "True for +1. False for -1: every prediction is +1 (C126_negative_class_lost)."
  },
  {
   "property": "C127",
   "status": "proved",
   "theorems": [
    "CML.DTree.C127_kept",
    "CML.DTree.C127_replaced",
    "CML.DTree.C127_no_validation",
    "CML.DTree.C127_no_training"
   ],
   "note": "The rounding of the keys '>= {:.3f}' is not modelled (branches are addressed by side)."
  },
  {
   "property": "C128",
   "status": "proved",
   "theorems": [
    "CML.DTree.C128_kept",
    "CML.DTree.C128_replaced",
    "CML.DTree.C128_score",
    "CML.DTree.C128_may_lower"
   ],
   "note": "When pre-pruning completes at all, which C28 shows to be false for continuous attributes; it may lower the score below that of the unpruned tree (C128_may_lower)."
  },
  {
   "property": "C129",
   "status": "proved",
   "theorems": [
    "CML.DTree.C129_leaf_majority",
    "CML.DTree.C129_empty_branch"
   ],
   "note": "For every majority rule that returns a most frequent label."
  },
  {
   "property": "C130",
   "status": "proved",
   "theorems": [
    "CML.C130_relu",
    "CML.C130_sigmoid",
    "CML.C130_sigmoid_output",
    "CML.C130_softmax"
   ],
   "note": "Exact arithmetic. In the code comments the ReLU derivative is said to differ from the true one; it does not."
  },
  {
   "property": "C131",
   "status": "proved",
   "theorems": [
    "CML.Bayes.C131_answers",
    "CML.Bayes.C131_names"
   ],
   "note": "Rows are given as arrays; a DataFrame row is selected by column name (not modelled). Attribute names are supposed distinct."
  },
  {
   "property": "C132",
   "status": "partial",
   "theorems": [
    "CML.CC.C132_index_in_range",
    "CML.CC.C132_int_min",
    "CML.CC.C132_pairs",
    "CML.CC.C132_refused",
    "CML.CC.C132_uniform_partial",
    "CML.CC.C132_not_uniform",
    "CML.CC.C132_never_drawn"
   ],
   "note": "Pairs and refusals proved; uniformity is false: true only if the number of rows divides 2^30 (Linux), and rows beyond 16384 are never drawn on Windows. Eigen's integer Random is taken as rand() minus 2^(bits-1)."
  },
  {
   "property": "C133",
   "status": "partial",
   "theorems": [
    "CML.CC.C133_centroids",
    "CML.CC.C133_labels",
    "CML.CC.C133_differences",
    "CML.CC.C133_differences_undefined",
    "CML.CC.C133_fit_refines",
    "CML.CC.C133_fit_partial",
    "CML.CC.C133_empty_cluster",
    "CML.CC.C133_python_goes_on",
    "CML.CC.C133_nan_first",
    "CML.CC.C133_nan_later"
   ],
   "note": "A defined C++ result is always the Python result; false when a centroid loses all its samples: Eigen does not broadcast, so the C++ behaviour is undefined where Python collapses or raises."
  },
  {
   "property": "C134",
   "status": "partial",
   "theorems": [
    "CML.CC.C134_matrix",
    "CML.CC.C134_indices",
    "CML.CC.C134_indices_agree",
    "CML.CC.C134_matrix_agree",
    "CML.CC.C134_random",
    "CML.CC.C134_refused",
    "CML.CC.C134_one_feature",
    "CML.CC.C134_engines_differ"
   ],
   "note": "Agreement for two or more features and clusters; false for one feature, for fractional indices and for matrices whose size happens to be the number of clusters."
  },
  {
   "property": "C135",
   "status": "proved",
   "theorems": [
    "CML.CC.C135_means",
    "CML.CC.C135_error"
   ],
   "note": "Exact arithmetic; marks 0 and 1."
  },
  {
   "property": "C136",
   "status": "partial",
   "theorems": [
    "CML.CC.C136_equal_width",
    "CML.CC.C136_refused",
    "CML.CC.C136_no_rows"
   ],
   "note": "False when one matrix has one row and the other none."
  },
  {
   "property": "C137",
   "status": "proved",
   "theorems": [
    "CML.Init.C137_regression_draws",
    "CML.Init.C137_network",
    "CML.Init.C137_regression",
    "CML.Init.C137_rbf"
   ],
   "note": "Exact arithmetic (the cast to 32 bits is left out); sizes are numpy integers."
  },
  {
   "property": "C138",
   "status": "partial",
   "theorems": [
    "CML.Init.C138_violated",
    "CML.Init.C138_grows",
    "CML.Init.C138_network_partial"
   ],
   "note": "Holds for networks; false for logistic regression, where the factor is sqrt(d)."
  },
  {
   "property": "C139",
   "status": "partial",
   "theorems": [
    "CML.Init.C139_direct_partial",
    "CML.Init.C139_last_seed_wins",
    "CML.Init.C139_violated",
    "CML.Init.C139_second_call"
   ],
   "note": "Holds only if the parameters are made directly after compiling: constructing an initialiser seeds numpy's global generator and calling it does not."
  },
  {
   "property": "C140",
   "status": "partial",
   "theorems": [
    "CML.Init.C140_pairs",
    "CML.Init.C140_even_partial",
    "CML.Init.C140_violated",
    "CML.Init.C140_not_reproducible"
   ],
   "note": "Holds as long as only even-sized matrices have been drawn; false after an odd number of draws."
  },
  {
   "property": "C141",
   "status": "partial",
   "theorems": [
    "CML.Init.C141_python_partial",
    "CML.Init.C141_cc_violated",
    "CML.Init.C141_cc_layers"
   ],
   "note": "Holds for the Python engine; in the C++ engine every layer repeats the same numbers."
  },
  {
   "property": "C142",
   "status": "partial",
   "theorems": [
    "CML.Eng.C142_binary",
    "CML.Eng.C142_categorical",
    "CML.Eng.C142_crossentropy",
    "CML.Eng.C142_crossentropy_labels",
    "CML.Eng.C142_log_likelihood",
    "CML.Eng.C142_mse",
    "CML.Eng.C142_mse_label_vector",
    "CML.Eng.C142_prediction_vector",
    "CML.Eng.C142_class_numbers",
    "CML.Eng.C142_binary_wide",
    "CML.Eng.C142_squeeze",
    "CML.Eng.C142_column",
    "CML.Eng.C142_flat_predictions",
    "CML.Eng.C142_lengths_differ",
    "CML.Eng.C142_likelihood_width"
   ],
   "note": "Agreement for matrices of one shape and, for the cross-entropies and the log-likelihood, label vectors. False for MeanSquaredError with a label vector (factor n^2), for prediction vectors, class numbers and BinaryCrossentropy of several columns."
  },
  {
   "property": "C143",
   "status": "partial",
   "theorems": [
    "CML.Eng.C143_binary_nan",
    "CML.Eng.C143_categorical_nan",
    "CML.Eng.C143_perfect_nan",
    "CML.Eng.C143_underflow_nan",
    "CML.Eng.C143_binary_finite_partial",
    "CML.Eng.C143_wrong_infinite",
    "CML.Eng.C143_no_samples"
   ],
   "note": "False: correct certain predictions give NaN (0 * log 0) in both engines; the binary loss is finite exactly when all predictions lie strictly between 0 and 1."
  },
  {
   "property": "C144",
   "status": "partial",
   "theorems": [
    "CML.Eng.C144_row",
    "CML.Eng.C144_rbf_row",
    "CML.Eng.C144_training_partial",
    "CML.Eng.C144_one_feature",
    "CML.Eng.C144_gram_flattened",
    "CML.Eng.C144_no_support_vectors",
    "CML.Eng.C144_width_mismatch",
    "CML.Eng.C144_vectors"
   ],
   "note": "One row against many and many rows of at least two features against one agree. False with one feature (C++ training calls are undefined or refused), for Gram matrices of several rows (flattened) and without support vectors."
  },
  {
   "property": "C145",
   "status": "partial",
   "theorems": [
    "CML.Eng.C145_elementwise",
    "CML.Eng.C145_softmax",
    "CML.Eng.C145_softmax_vector",
    "CML.Eng.C145_softmax_empty",
    "CML.Eng.C145_relu_diff",
    "CML.Eng.C145_relu_diff_smaller",
    "CML.Eng.C145_sigmoid_diff",
    "CML.Eng.C145_sigmoid_diff_labels",
    "CML.Eng.C145_softmax_shift"
   ],
   "note": "Agreement on matrices of one shape; false for vectors (softmax, label vectors) and for a smaller second argument of Relu.diff."
  },
  {
   "property": "C146",
   "status": "partial",
   "theorems": [
    "CML.Eng.C146_setting",
    "CML.Eng.C146_uniform_partial",
    "CML.Eng.C146_integer_labels",
    "CML.Eng.C146_rounded_metric"
   ],
   "note": "The setting is read as documented; false for the C++ engine, which switches to 32 bits whenever an argument holds integers, as labels do."
  },
  {
   "property": "C147",
   "status": "partial",
   "theorems": [
    "CML.CC.C147_scatter",
    "CML.CC.C147_empty_class",
    "CML.CC.C147_fit",
    "CML.CC.C147_length",
    "CML.CC.C147_violated",
    "CML.CC.C147_violated_small",
    "CML.CC.C147_uncorrelated",
    "CML.CC.C147_wrong_line",
    "CML.CC.C147_one_feature_partial",
    "CML.CC.C147_misclassified",
    "CML.CC.C147_means_coincide",
    "CML.CC.C147_lengths"
   ],
   "note": "Scatter, means and the one-feature predictions agree. The vector solves the equation in no dimension when the scatter stretches (or shrinks) every vector; for two uncorrelated features it is the scatter times the difference, off the textbook line; a separable data set is misclassified."
  },
  {
   "property": "C148",
   "status": "partial",
   "theorems": [
    "CML.CC.C148_numbers_partial",
    "CML.CC.C148_strings_partial",
    "CML.CC.C148_one_letter",
    "CML.CC.C148_first_character",
    "CML.CC.C148_words",
    "CML.CC.C148_continuous_lost",
    "CML.CC.C148_continuous_witness",
    "CML.CC.C148_out_of_range",
    "CML.CC.C148_other_kinds",
    "CML.CC.C148_never_continuous",
    "CML.CC.C148_empty_string"
   ],
   "note": "Agreement when rounding to float32 changes nothing and first characters determine the strings. False for words with the same first letter, numbers that round to integers, out-of-range floats, bool and unsigned arrays."
  },
  {
   "property": "C149",
   "status": "partial",
   "theorems": [
    "CML.CC.C149_closed_left_turning",
    "CML.CC.C149_one_point",
    "CML.CC.C149_agrees_partial",
    "CML.CC.C149_vertical",
    "CML.CC.C149_encloses_partial",
    "CML.CC.C149_unstable",
    "CML.CC.C149_overflow"
   ],
   "note": "Closed left-turning chain always; agreement with Python (no second point on the vertical line through the leftmost) and enclosure for pairwise different slopes below the largest float. False for points straight above the leftmost (C149_vertical: Python raises), collinear points under an unstable sort and for slopes beyond the largest float."
  },
  {
   "property": "C150",
   "status": "partial",
   "theorems": [
    "CML.CC.C150_conditional_partial",
    "CML.CC.C150_wraps",
    "CML.CC.C150_dependent_partial",
    "CML.CC.C150_density",
    "CML.CC.C150_differences"
   ],
   "note": "Agreement below the range of the integer type; the density and the differences agree always. Counts that wrap around give estimates above 1."
  },
  {
   "property": "C151",
   "status": "partial",
   "theorems": [
    "CML.Bench.C151_timer",
    "CML.Bench.C151_memory_monitor",
    "CML.Bench.C151_average_timer_partial",
    "CML.Bench.C151_average_timer_exception",
    "CML.Bench.C151_average_timer_pure",
    "CML.Bench.C151_never_called",
    "CML.Bench.C151_effects_repeated"
   ],
   "note": "Proved for timer and memory_monitor (every function, effect and exception), and for average_timer on functions without effect. Fails otherwise: average_timer repeats effects (C151_effects_repeated), and with repeat <= 0 never calls the function and raises ValueError (C151_never_called). C151_average_timer_partial says exactly what average_timer does."
  },
  {
   "property": "C152",
   "status": "proved",
   "theorems": [
    "CML.Bench.C152_timer",
    "CML.Bench.C152_timer_range",
    "CML.Bench.C152_average",
    "CML.Bench.C152_durations"
   ],
   "note": "Numbers before the rounding for printing; exact arithmetic."
  },
  {
   "property": "C153",
   "status": "partial",
   "theorems": [
    "CML.Plots.C153_untrained",
    "CML.Plots.C153_drawn",
    "CML.Plots.C153_samples",
    "CML.Plots.C153_projections",
    "CML.Plots.C153_decision",
    "CML.Plots.C153_line_partial",
    "CML.Plots.C153_vertical",
    "CML.Plots.C153_invisible",
    "CML.Plots.C153_three_features"
   ],
   "note": "Proved: refusal, samples, feet of the perpendiculars and the nearest-centre reading (two features, w0 != 0). Fails: w0 = 0 (no finite slope, nothing drawn: C153_vertical), falling directions w0*w1 < 0 lie outside the fixed window (C153_invisible), three or more features (C153_three_features)."
  },
  {
   "property": "C154",
   "status": "partial",
   "theorems": [
    "CML.Plots.C154_refused",
    "CML.Plots.C154_boundary_partial",
    "CML.Plots.C154_vertical",
    "CML.Plots.C154_more_features",
    "CML.Plots.C154_one_feature",
    "CML.Plots.C154_samples"
   ],
   "note": "Proved for two features with non-zero second weight. Fails: second weight 0 (vertical line not drawn, C154_vertical); three or more features are drawn silently with the third weight as intercept (C154_more_features); one feature raises IndexError (C154_one_feature)."
  },
  {
   "property": "C155",
   "status": "partial",
   "theorems": [
    "CML.PlotsCluster.C155_refused",
    "CML.PlotsCluster.C155_outlines_partial",
    "CML.PlotsCluster.C155_drawn_iff",
    "CML.PlotsCluster.C155_single_sample",
    "CML.PlotsCluster.C155_trained_not_drawn",
    "CML.PlotsCluster.C155_loaded_fewer",
    "CML.PlotsCluster.C155_loaded_more",
    "CML.PlotsCluster.C155_other_samples",
    "CML.PlotsCluster.C155_centroid_inside",
    "CML.PlotsCluster.C155_invisible",
    "CML.PlotsCluster.C155_no_labels",
    "CML.PlotsCluster.C155_one_feature"
   ],
   "note": "Proved: exactly when the figure is drawn (C155_drawn_iff) and what the lines then are (C155_outlines_partial, C155_centroid_inside). Fails for clusters of one sample (C155_single_sample, C155_trained_not_drawn), for instances whose n_clusters is not that of the loaded weights (C155_loaded_fewer, C155_loaded_more), and data outside the unit square is not visible (C155_invisible)."
  },
  {
   "property": "C156",
   "status": "proved",
   "theorems": [
    "CML.PlotsCluster.C156_refused",
    "CML.PlotsCluster.C156_drawn",
    "CML.PlotsCluster.C156_other_samples",
    "CML.PlotsCluster.C156_one_column",
    "CML.PlotsCluster.C156_invisible"
   ],
   "note": "About the data handed to matplotlib."
  },
  {
   "property": "C157",
   "status": "partial",
   "theorems": [
    "CML.PlotsGrid.C157_refused",
    "CML.PlotsGrid.C157_drawn",
    "CML.PlotsGrid.C157_raster",
    "CML.PlotsGrid.C157_boundary_near",
    "CML.PlotsGrid.C157_rings",
    "CML.PlotsGrid.C157_samples",
    "CML.PlotsGrid.C157_window",
    "CML.PlotsGrid.C157_window_witness",
    "CML.PlotsGrid.C157_other_samples",
    "CML.PlotsGrid.C157_mismatch",
    "CML.PlotsGrid.C157_one_feature",
    "CML.PlotsGrid.C157_bad_answers"
   ],
   "note": "Proved: when it is drawn, what the raster, the rings and the markers are, and that a drawn boundary is near a zero of a continuous decision function. Fails outside of the fixed window [0, 1] × [0, 0.8] (C157_window, C157_window_witness) and, with IndexError, for other samples (C157_other_samples)."
  },
  {
   "property": "C158",
   "status": "partial",
   "theorems": [
    "CML.PlotsGrid.C158_refused",
    "CML.PlotsGrid.C158_drawn",
    "CML.PlotsGrid.C158_bagging",
    "CML.PlotsGrid.C158_adaboost",
    "CML.PlotsGrid.C158_window",
    "CML.PlotsGrid.C158_mismatch"
   ],
   "note": "Proved: the raster of the ensemble and of each estimator (C158_drawn, with C158_bagging and C158_adaboost). Fails outside of the fixed window [0, 1]² (C158_window)."
  },
  {
   "property": "C159",
   "status": "partial",
   "theorems": [
    "CML.PlotsGrid.C159_refused",
    "CML.PlotsGrid.C159_window",
    "CML.PlotsGrid.C159_samples",
    "CML.PlotsGrid.C159_errors",
    "CML.PlotsGrid.C159_naive_bayes_partial",
    "CML.PlotsGrid.C159_spode_partial",
    "CML.PlotsGrid.C159_discrete"
   ],
   "note": "Proved for two continuous attributes (C159_naive_bayes_partial, C159_spode_partial). Fails with KeyError as soon as an attribute was taken for discrete (C159_discrete), and for any number of attributes other than two (C159_refused)."
  },
  {
   "property": "C160",
   "status": "partial",
   "theorems": [
    "CML.Calls.C160_float_models_partial",
    "CML.Calls.C160_lda_partial",
    "CML.Calls.C160_one_row",
    "CML.Calls.C160_logistic_partial",
    "CML.Calls.C160_array_models_partial",
    "CML.Calls.C160_array_models_refuse",
    "CML.Calls.C160_tree_partial",
    "CML.Calls.C160_tree_lists",
    "CML.Calls.C160_tree_lists_raise",
    "CML.Calls.C160_row_is_model_row",
    "CML.Calls.C160_bayes_partial",
    "CML.Calls.C160_ada_table",
    "CML.Calls.C160_unsuitable_entries",
    "CML.Calls.C160_tree_lists_kinds",
    "CML.Calls.C160_tree_lists_transposed"
   ],
   "note": "Proved for the float models with any container (C160_float_models_partial), LDA and logistic regression from two rows on, network and ensembles on arrays, trees and naive Bayes on arrays and tables. Fails for one row in LDA and logistic regression (a number comes back, C160_one_row), for lists and tables in the network and the ensembles (C160_array_models_refuse), for lists of rows in trees and naive Bayes (C160_tree_lists, C160_tree_lists_raise)."
  },
  {
   "property": "C161",
   "status": "partial",
   "theorems": [
    "CML.Calls.C161_flat_float_partial",
    "CML.Calls.C161_flat_network_partial",
    "CML.Calls.C161_flat_logistic",
    "CML.Calls.C161_flat_svc",
    "CML.Calls.C161_flat_rbf",
    "CML.Calls.C161_flat_refused",
    "CML.Calls.C161_flat_tree_partial",
    "CML.Calls.C161_flat_mixed",
    "CML.Calls.C161_ensemble_errors",
    "CML.Calls.C161_short_row"
   ],
   "note": "Proved for k-means, GMM, LDA, the network, trees and naive Bayes. Fails for logistic regression, the SVC (C161_flat_svc: with the Gaussian kernel one answer per entry), the RBF network (one copy per entry), the ensembles and SPODE (C161_flat_refused), and mixed lists (C161_flat_mixed)."
  },
  {
   "property": "C162",
   "status": "partial",
   "theorems": [
    "CML.Calls.C162_by_name_partial",
    "CML.Calls.C162_same_columns_partial",
    "CML.Calls.C162_tree_by_position",
    "CML.Calls.C162_no_names"
   ],
   "note": "Proved for both Bayesian classifiers and for fit of decision trees (C162_by_name_partial). Fails for predict of decision trees, which takes columns by position (C162_tree_by_position)."
  },
  {
   "property": "C163",
   "status": "partial",
   "theorems": [
    "CML.Score.C163_wide_labels",
    "CML.Score.C163_one_column",
    "CML.Score.C163_array_labels_partial",
    "CML.Score.C163_list_labels",
    "CML.Score.C163_table_labels",
    "CML.Score.C163_one_row",
    "CML.Score.C163_one_hot_partial",
    "CML.Score.C163_integer_labels",
    "CML.Score.C163_one_hot_table"
   ],
   "note": "Proved for labels in arrays (C163_array_labels_partial, C163_one_hot_partial). Fails for lists and Series (C163_list_labels), tables (always 1: C163_table_labels; one-hot: KeyError), one row (C163_one_row) and integer labels of multi-output models (C163_integer_labels)."
  },
  {
   "property": "C164",
   "status": "partial",
   "theorems": [
    "CML.Eng.C164_matrix_partial",
    "CML.Eng.C164_gaussian_diagonal",
    "CML.Eng.C164_gaussian_sizes",
    "CML.Eng.C164_gaussian_one_row_partial"
   ],
   "note": "Proved for the linear, polynomial and sigmoid kernels, and for one row against many with the Gaussian kernel. Fails for the Gaussian kernel on two sets of rows: only the diagonal comes back (C164_gaussian_diagonal), or ValueError (C164_gaussian_sizes)."
  },
  {
   "property": "C165",
   "status": "partial",
   "theorems": [
    "CML.Bayes.C165_kept_position_beyond",
    "CML.Bayes.C165_fresh_and_empty",
    "CML.Bayes.C165_named_super_parent_partial",
    "CML.Bayes.C165_unknown_name_partial",
    "CML.Bayes.C165_unknown_name_accepted",
    "CML.Bayes.C165_position_has_a_reason",
    "CML.Bayes.C165_not_compiled",
    "CML.Bayes.C165_compiled"
   ],
   "note": "Proved when the name is a column, whatever the history (C165_named_super_parent_partial), and on the first fit (C165_unknown_name_partial). Fails after an earlier fit: the unknown name is accepted and the former position is used (C165_unknown_name_accepted); C165_position_has_a_reason says exactly where the position comes from."
  },
  {
   "property": "C166",
   "status": "partial",
   "theorems": [
    "CML.Bayes.C166_names_do_not_matter_partial",
    "CML.Bayes.C166_renaming_partial",
    "CML.Bayes.C166_reserved_name",
    "CML.Bayes.C166_equal_names"
   ],
   "note": "Proved for distinct names other than 'p_c_xi' (C166_names_do_not_matter_partial, C166_renaming_partial). Fails for an attribute called 'p_c_xi' (C166_reserved_name: TypeError) and for equal names (C166_equal_names)."
  },
  {
   "property": "C167",
   "status": "partial",
   "theorems": [
    "CML.Net.C167_sgd_loaded_partial",
    "CML.Net.C167_fit_restarts",
    "CML.Net.C167_adam_violated"
   ],
   "note": "Proved for SGD on a loaded network (C167_sgd_loaded_partial). Fails for every network that was not loaded (fit starts from fresh parameters, C167_fit_restarts), and for Adam on every one-layer network (C167_adam_violated): each call restarts the moments and the epoch counter."
  },
  {
   "property": "C168",
   "status": "partial",
   "theorems": [
    "CML.Data.C168_unchanged_partial",
    "CML.Data.C168_two_classes_iff",
    "CML.Data.C168_words_second_load",
    "CML.Data.C168_eleven_classes",
    "CML.Data.C168_ten_classes_partial",
    "CML.Data.C168_ints_iff",
    "CML.Data.C168_ints_second_load"
   ],
   "note": "False: two classes of answer words lose their names (C168_words_second_load, exact condition C168_two_classes_iff), EVERY frame with eleven or more word classes has classes merged by the second load (C168_eleven_classes), integer classes are renumbered in place (C168_ints_iff). Proved: same y for three to ten word classes (C168_ten_classes_partial), nothing changes for test or unsupervised sets and two-class integers (C168_unchanged_partial). Feature columns with fillna=False: see C107."
  },
  {
   "property": "C169",
   "status": "partial",
   "theorems": [
    "CML.Bagging.C169_shared_seed",
    "CML.Bagging.C169_explicit_seed_partial",
    "CML.Bagging.C169_generator"
   ],
   "note": "False: C169_shared_seed (the default is computed once, at import). Proved: an explicit seed is used (C169_explicit_seed_partial)."
  },
  {
   "property": "C170",
   "status": "partial",
   "theorems": [
    "CML.Frames.C170_values_kept_partial",
    "CML.Frames.C170_fit_with_names_partial",
    "CML.Frames.C170_fit_one_dependent_partial",
    "CML.Frames.C170_predict_partial",
    "CML.Frames.C170_predict_relabels",
    "CML.Frames.C170_fit_relabels",
    "CML.Frames.C170_labels_relabelled",
    "CML.Frames.C170_pairs_broken",
    "CML.Frames.C170_no_validation",
    "CML.Frames.C170_validation_relabelled",
    "CML.Frames.C170_new_table",
    "CML.Frames.C170_new_table_frame",
    "CML.Frames.C170_new_table_values",
    "CML.Frames.C170_wrong_width",
    "CML.Frames.C170_repeated_columns",
    "CML.Frames.C170_unconvertible_labels",
    "CML.Frames.C170_two_tables"
   ],
   "note": "False of the row labels: without attribute names pd.DataFrame(frame) shares the caller's table and reset_index(inplace=True) relabels it, C170_fit_relabels, C170_predict_relabels, C170_labels_relabelled, C170_validation_relabelled; rows and labels of a pair filtered alike no longer match, C170_pairs_broken. Proved: values and names are kept by every sequence of calls (C170_values_kept_partial); with attribute names the frames are untouched (C170_fit_with_names_partial, C170_predict_partial)."
  },
  {
   "property": "C171",
   "status": "partial",
   "theorems": [
    "CML.Failed.C171_logistic_completes",
    "CML.Failed.C171_logistic_failed",
    "CML.Failed.C171_logistic_forgets",
    "CML.Failed.C171_logistic_other_width",
    "CML.Failed.C171_logistic_loaded_partial",
    "CML.Failed.C171_lda_completes",
    "CML.Failed.C171_lda_failed",
    "CML.Failed.C171_lda_lengths_partial",
    "CML.Failed.C171_lda_other_width",
    "CML.Failed.C171_lda_two_samples",
    "CML.Failed.C171_lda_changed",
    "CML.Failed.C171_kmeans_completes",
    "CML.Failed.C171_kmeans_init_partial",
    "CML.Failed.C171_kmeans_forgets",
    "CML.Failed.C171_kmeans_changed",
    "CML.Failed.C171_mixture_means_partial",
    "CML.Failed.C171_mixture_failed",
    "CML.Failed.C171_mixture_coefficients",
    "CML.Failed.C171_mixture_replaced",
    "CML.Failed.C171_bayes_failed",
    "CML.Failed.C171_bayes_changed",
    "CML.Failed.C171_bagging_completes",
    "CML.Failed.C171_bagging_failed",
    "CML.Failed.C171_bagging_first_partial",
    "CML.Failed.C171_bagging_changed",
    "CML.Failed.C171_adaboost_partial",
    "CML.Failed.C171_adaboost_completes",
    "CML.Failed.C171_network_completes",
    "CML.Failed.C171_network_failed",
    "CML.Failed.C171_network_forgets",
    "CML.Failed.C171_logistic_loaded_other",
    "CML.Failed.C171_logistic_loaded_empty",
    "CML.Failed.C171_adaboost_twice"
   ],
   "note": "False for all classes but AdaBoost. LogisticRegression: C171_logistic_failed, C171_logistic_forgets (collinear data: the parameters are now random ones), C171_logistic_other_width. LDA: C171_lda_failed (old projection, new means), C171_lda_two_samples, C171_lda_changed. KMeans: C171_kmeans_forgets, C171_kmeans_changed. GaussianMixture: C171_mixture_failed. NaiveBayes: C171_bayes_failed, C171_bayes_changed. Bagging: C171_bagging_failed, C171_bagging_changed. Network: C171_network_failed, C171_network_forgets. Proved: AdaBoost (C171_adaboost_partial), errors found before the first assignment (C171_lda_lengths_partial, C171_kmeans_init_partial, C171_mixture_means_partial, C171_bagging_first_partial, C171_logistic_loaded_partial)."
  },
  {
   "property": "C172",
   "status": "partial",
   "theorems": [
    "CML.Failed.C172_logistic_partial",
    "CML.Failed.C172_lda_partial",
    "CML.Failed.C172_kmeans_partial",
    "CML.Failed.C172_kmeans_no_epoch",
    "CML.Failed.C172_bayes_partial",
    "CML.Failed.C172_bagging_trace",
    "CML.Failed.C172_adaboost_trace",
    "CML.Failed.C172_adaboost_first_round"
   ],
   "note": "False for the ensembles: C172_bagging_trace, C172_adaboost_trace, C172_adaboost_first_round, and for k-means with epochs=0 (C172_kmeans_no_epoch). Proved for logistic regression, LDA, k-means with at least one epoch and naive Bayes (C172_*_partial)."
  },
  {
   "property": "C173",
   "status": "partial",
   "theorems": [
    "CML.Comp.C173_network_half",
    "CML.Comp.C173_next_fit",
    "CML.Comp.C173_metric_half",
    "CML.Comp.C173_rbf_half",
    "CML.Comp.C173_violated",
    "CML.Comp.C173_kept_partial",
    "CML.Comp.C173_tree_partial",
    "CML.Comp.C173_success"
   ],
   "note": "False for the models with an optimizer: C173_network_half (new structure, old optimizer), C173_next_fit (the next fit trains the refused structure), C173_metric_half, C173_rbf_half, C173_violated. Proved for DecisionTreeClassifier (C173_tree_partial); for the others the parameters, marks, seed and metric survive (C173_kept_partial)."
  },
  {
   "property": "C174",
   "status": "partial",
   "theorems": [
    "CML.Comp.C174_wrong_optimizer",
    "CML.Comp.C174_wrong_initializer",
    "CML.Comp.C174_wrong_data",
    "CML.Comp.C174_table_complete",
    "CML.Comp.C174_watched",
    "CML.Comp.C174_logistic_partial",
    "CML.Comp.C174_network_partial",
    "CML.Comp.C174_rbf_partial",
    "CML.Comp.C174_violated",
    "CML.Comp.C174_more_refused",
    "CML.Comp.C174_exclusive"
   ],
   "note": "False: C174_violated (wrong optimizer, misspelt metric), C174_more_refused (loss 'log_likelihood', no layers, negative number of units). The exact set of configurations that can be trained is proved: C174_logistic_partial, C174_network_partial, C174_rbf_partial, with C174_exclusive. Errors from the shapes of losses and metrics are excluded by Watch.Clean."
  },
  {
   "property": "C175",
   "status": "proved",
   "theorems": [
    "CML.Comp.C175_fit_before_compile"
   ],
   "note": ""
  },
  {
   "property": "C176",
   "status": "partial",
   "theorems": [
    "CML.Comp.C176_wrong_optimizer",
    "CML.Comp.C176_kept_partial",
    "CML.Comp.C176_violated"
   ],
   "note": "False when the new optimizer is made for another family (C176_violated: predict then raises for every x); proved within a family (C176_kept_partial)."
  },
  {
   "property": "C177",
   "status": "partial",
   "theorems": [
    "CML.Comp.C177_bad_seed",
    "CML.Comp.C177_fresh_partial",
    "CML.Comp.C177_rbf_partial",
    "CML.Comp.C177_second_compile",
    "CML.Comp.C177_violated"
   ],
   "note": "False for a second compile and fit on one instance of LogisticRegression and BackPropagationNeuralNetwork: C177_second_compile, C177_violated. Proved for new instances (C177_fresh_partial) and for RBF networks always (C177_rbf_partial)."
  },
  {
   "property": "C178",
   "status": "partial",
   "theorems": [
    "CML.Comp.C178_user_seed_ignored",
    "CML.Comp.C178_violated",
    "CML.Comp.C178_object_partial"
   ],
   "note": "False: C178_user_seed_ignored, C178_violated. Proved when an initializer object is passed (C178_object_partial)."
  },
  {
   "property": "C179",
   "status": "proved",
   "theorems": [
    "CML.KMeans.C179_training_ends",
    "CML.KMeans.C179_more_epochs",
    "CML.KMeans.C179_negative_tolerance"
   ],
   "note": "the bound is n_clusters ^ n_samples + 3 epochs; C179_negative_tolerance shows that the hypothesis on the tolerance is needed"
  },
  {
   "property": "C180",
   "status": "proved",
   "theorems": [
    "CML.KMeans.C180_units_and_origin",
    "CML.KMeans.C180_predict"
   ],
   "note": ""
  },
  {
   "property": "C181",
   "status": "proved",
   "theorems": [
    "CML.KMeans.C181_sample_order",
    "CML.KMeans.C181_samples_twice",
    "CML.KMeans.C181_centroid_order_matters"
   ],
   "note": "C181_centroid_order_matters: the order of the initial centroids does matter when a cluster is empty"
  },
  {
   "property": "C182",
   "status": "proved",
   "theorems": [
    "CML.SVC.C182_label_swap",
    "CML.SVC.C182_predictions"
   ],
   "note": "on the decision boundary itself both models answer 1"
  },
  {
   "property": "C183",
   "status": "proved",
   "theorems": [
    "CML.SVC.C183_origin",
    "CML.SVC.C183_units",
    "CML.SVC.C183_one_origin"
   ],
   "note": "C183_one_origin: with gamma='scale' the offsets must be the same for all features"
  },
  {
   "property": "C184",
   "status": "proved",
   "theorems": [
    "CML.LogReg.C184_gradient_descent",
    "CML.LogReg.C184_newton",
    "CML.LogReg.C184_sample_order"
   ],
   "note": ""
  },
  {
   "property": "C185",
   "status": "proved",
   "theorems": [
    "CML.LogReg.C185_newton_coordinates",
    "CML.LogReg.C185_gradient_descent_depends_on_units"
   ],
   "note": "C185_gradient_descent_depends_on_units: gradient descent has no such invariance"
  },
  {
   "property": "C186",
   "status": "proved",
   "theorems": [
    "CML.Small.C186_stump",
    "CML.Small.C186_two_levels",
    "CML.Ada.C186_adaboost"
   ],
   "note": ""
  },
  {
   "property": "C187",
   "status": "proved",
   "theorems": [
    "CML.Small.C187_two_levels",
    "CML.Small.C187_stump",
    "CML.Ada.C187_adaboost"
   ],
   "note": ""
  },
  {
   "property": "C188",
   "status": "proved",
   "theorems": [
    "CML.Ada.C188_rate",
    "CML.Ada.C188_perfect"
   ],
   "note": ""
  },
  {
   "property": "C189",
   "status": "proved",
   "theorems": [
    "CML.DTree.C189_gini",
    "CML.DTree.C189_entropy",
    "CML.DTree.C189_gain",
    "CML.DTree.C189_post_pruning",
    "CML.DTree.C189_whole_numbers"
   ],
   "note": "under the stated condition that the kind of no column changes; C189_whole_numbers shows that the condition matters"
  },
  {
   "property": "C190",
   "status": "proved",
   "theorems": [
    "CML.DTree.C190_gini",
    "CML.DTree.C190_post_pruning",
    "CML.DTree.C190_entropy_gain"
   ],
   "note": ""
  },
  {
   "property": "C191",
   "status": "proved",
   "theorems": [
    "CML.DTree.C191_gini",
    "CML.DTree.C191_entropy_gain"
   ],
   "note": ""
  },
  {
   "property": "C192",
   "status": "partial",
   "theorems": [
    "CML.LDA.C192_get_w",
    "CML.LDA.C192_origin_partial",
    "CML.LDA.C192_violated"
   ],
   "note": "proved with the exact formula get_w; the shipped backend get_w_v2 only does not depend on the origin (C192_origin_partial): the order of the features changes its answers, C192_violated"
  },
  {
   "property": "C193",
   "status": "proved",
   "theorems": [
    "CML.LDA.C193_order",
    "CML.LDA.C193_classes",
    "CML.LDA.C193_backends"
   ],
   "note": ""
  },
  {
   "property": "C194",
   "status": "proved",
   "theorems": [
    "CML.GMM.C194_origin_and_order",
    "CML.GMM.C194_affine",
    "CML.GMM.C194_all_epochs"
   ],
   "note": ""
  },
  {
   "property": "C195",
   "status": "proved",
   "theorems": [
    "CML.GMM.C195_samples",
    "CML.GMM.C195_components",
    "CML.GMM.C195_labels"
   ],
   "note": ""
  },
  {
   "property": "C196",
   "status": "partial",
   "theorems": [
    "CML.Progress.C196_minutes_partial",
    "CML.Progress.C196_seconds_partial",
    "CML.Progress.C196_half_second",
    "CML.Progress.C196_sixty",
    "CML.Progress.C196_total_partial",
    "CML.Progress.C196_per_step",
    "CML.Progress.C196_cc_whole_seconds",
    "CML.Progress.C196_cc_no_leading_zero",
    "CML.Progress.C196_cc_minutes_partial",
    "CML.Progress.C196_cc_total_partial"
   ],
   "note": "Proved: minutes, seconds (up to '60s'), elapsed time. False: the last half second before a minute reads 60s (C196_sixty); ms/step divides by all epochs, not by those done (C196_per_step); the C++ bar counts whole seconds and drops leading zeros (C196_cc_whole_seconds, C196_cc_no_leading_zero)."
  },
  {
   "property": "C197",
   "status": "partial",
   "theorems": [
    "CML.Progress.C197_line_iff",
    "CML.Progress.C197_finished",
    "CML.Progress.C197_violated"
   ],
   "note": "Exact condition C197_line_iff (no earlier line was longer) and C197_finished. False whenever the remaining time falls below a minute (C197_violated): the end of the old line stays, e.g. the metric 0.9500 reads 0.950099."
  },
  {
   "property": "C198",
   "status": "partial",
   "theorems": [
    "CML.Progress.C198_python",
    "CML.Progress.C198_cc_partial",
    "CML.Progress.C198_violated"
   ],
   "note": "Proved for the Python engine (C198_python). The C++ engine cuts the digits: error up to a whole unit (C198_cc_partial), C198_violated."
  },
  {
   "property": "C199",
   "status": "partial",
   "theorems": [
    "CML.Csv.C199_whole_numbers",
    "CML.Csv.C199_text_gap_first",
    "CML.Csv.C199_loads_partial"
   ],
   "note": "False: C199_whole_numbers (a column of whole numbers with a gap: ValueError), C199_text_gap_first (a text column with a gap before the first word: TypeError). Every other file loads and is complete (C199_loads_partial)."
  },
  {
   "property": "C200",
   "status": "partial",
   "theorems": [
    "CML.Csv.C200_whole_iff",
    "CML.Csv.C200_violated"
   ],
   "note": "True exactly for numbers of at most 32 (64) bits (C200_whole_iff); larger ones are silently reduced modulo 2^32 (C200_violated)."
  },
  {
   "property": "C201",
   "status": "partial",
   "theorems": [
    "CML.Csv.C201_violated",
    "CML.Csv.C201_mixed_partial"
   ],
   "note": "False for every file that holds only whole numbers, also written 1.0 (C201_violated: ones at the maximum, zeros elsewhere). Proved for files with a column that is not whole (C201_mixed_partial with C104_float_partial)."
  },
  {
   "property": "C202",
   "status": "proved",
   "theorems": [
    "CML.Comp.C202_gradient_descent",
    "CML.Comp.C202_newton",
    "CML.Comp.C202_predict_logistic",
    "CML.Comp.C202_sgd",
    "CML.Comp.C202_adam",
    "CML.Comp.C202_predict_network",
    "CML.Comp.C202_rbf",
    "CML.Comp.C202_predict_rbf",
    "CML.Comp.C202_loaded"
   ],
   "note": "Gradient descent, Newton, SGD, Adam and the RBF optimiser; loaded weights; predict of the three families with the explicit logistic formula. Rounding is left out; watched training assumes that computing loss and metric does not raise (Watch.Clean), the exceptions otherwise are C174_watched."
  },
  {
   "property": "C203",
   "status": "proved",
   "theorems": [
    "CML.Prep.C203_units",
    "CML.Prep.C203_order",
    "CML.Prep.C203_table"
   ],
   "note": "Exact arithmetic."
  },
  {
   "property": "C204",
   "status": "partial",
   "theorems": [
    "CML.Prep.C204_units",
    "CML.Prep.C204_origin_partial",
    "CML.Prep.C204_order_partial",
    "CML.Prep.C204_violated",
    "CML.Prep.C204_table"
   ],
   "note": "False: C204_violated (for all data with positive variance the values are the same iff a = 1; they are divided by a, C204_units). Proved: independence of the origin and of the order (C204_origin_partial, C204_order_partial)."
  },
  {
   "property": "C205",
   "status": "proved",
   "theorems": [
    "CML.Prep.C205_renaming",
    "CML.Prep.C205_order"
   ],
   "note": ""
  },
  {
   "property": "C206",
   "status": "proved",
   "theorems": [
    "CML.Metrics.C206_binary",
    "CML.Metrics.C206_categorical",
    "CML.C206_losses",
    "CML.C206_class_order"
   ],
   "note": "Exact arithmetic; in floating point the sums may round differently."
  },
  {
   "property": "C207",
   "status": "partial",
   "theorems": [
    "CML.Bayes.C207_sorted_partial",
    "CML.Bayes.C207_witness"
   ],
   "note": "False: C207_witness (three samples, for every order value_counts may return, with and without smoothing). Proved: for continuous columns and for discrete columns whose values appear most frequent first in both orders (C207_sorted_partial)."
  },
  {
   "property": "C208",
   "status": "proved",
   "theorems": [
    "CML.Bayes.C208_naive_bayes",
    "CML.Bayes.C208_one_dependent"
   ],
   "note": "Up to which exception is raised."
  },
  {
   "property": "C209",
   "status": "proved",
   "theorems": [
    "CML.Bayes.C209_one_dependent",
    "CML.Bayes.C209_averaged"
   ],
   "note": "A freshly created estimator; exact arithmetic."
  },
  {
   "property": "C210",
   "status": "partial",
   "theorems": [
    "CML.Bayes.C210_witness",
    "CML.Bayes.C210_all_parents_partial"
   ],
   "note": "False: C210_witness. Proved when every column can serve as super-parent (C210_all_parents_partial)."
  },
  {
   "property": "C211",
   "status": "proved",
   "theorems": [
    "CML.Net.C211_predictions",
    "CML.Net.C211_sgd",
    "CML.Net.C211_adam",
    "CML.Net.C211_hidden"
   ],
   "note": "Exact arithmetic; labels with one column per output."
  },
  {
   "property": "C212",
   "status": "proved",
   "theorems": [
    "CML.Net.C212_twins"
   ],
   "note": "Exact arithmetic."
  },
  {
   "property": "C213",
   "status": "proved",
   "theorems": [
    "CML.RBF.C213_predictions",
    "CML.RBF.C213_training",
    "CML.RBF.C213_moved_queries"
   ],
   "note": "Exact arithmetic; two features (the only number the optimiser accepts, C92) and labels of shape (n, 1) (C91)."
  },
  {
   "property": "C214",
   "status": "partial",
   "theorems": [
    "CML.Disp.C214_double_iff",
    "CML.Disp.C214_refused_iff",
    "CML.Disp.C214_single_everywhere",
    "CML.Disp.C214_rest_single",
    "CML.Disp.C214_violated_svc",
    "CML.Disp.C214_violated_others",
    "CML.Disp.C214_setting"
   ],
   "note": "exact: C214_double_iff, C214_refused_iff, C214_rest_single for '64-bit', C214_single_everywhere for '32-bit'; false for '64-bit' (C214_violated_*): the SVC's violations and clipping, the stopping tests of both clusterings, all losses and metrics, the multi-class gradient and the initial RBF weights run in single precision. Casters are those of pybind11 2.9-2.11."
  },
  {
   "property": "C215",
   "status": "proved",
   "theorems": [
    "CML.Disp.C215_matrices",
    "CML.Disp.C215_wrong_number",
    "CML.Disp.C215_two_matrices",
    "CML.Disp.C215_three_floats",
    "CML.Disp.C215_three_counts"
   ],
   "note": "for all argument tuples; what each caster takes is modelled from pybind11, not from /repo"
  },
  {
   "property": "C216",
   "status": "partial",
   "theorems": [
    "CML.Disp.C216_rounded",
    "CML.Disp.C216_box_iff",
    "CML.Disp.C216_box_partial",
    "CML.Disp.C216_violated"
   ],
   "note": "false for '64-bit' with C = 0.1 (C216_violated); exact condition C216_box_iff; C216_box_partial when the bounds are representable"
  },
  {
   "property": "C217",
   "status": "partial",
   "theorems": [
    "CML.Disp.C217_labels_iff",
    "CML.Disp.C217_bagging",
    "CML.Disp.C217_violated"
   ],
   "note": "exact condition C217_labels_iff; holds for the bagging call (C217_bagging); false for lists and for labels of another width (C217_violated)"
  },
  {
   "property": "C218",
   "status": "partial",
   "theorems": [
    "CML.Disp.C218_violated",
    "CML.Disp.C218_partial"
   ],
   "note": "false for the naive Bayes classifier in '64-bit' (C218_violated, every count); C218_partial for '32-bit' and the one-dependent estimators"
  },
  {
   "property": "C219",
   "status": "partial",
   "theorems": [
    "CML.Disp.C219_version_partial",
    "CML.Disp.C219_violated_clusters",
    "CML.Disp.C219_violated_seed",
    "CML.Disp.C219_violated_initializers"
   ],
   "note": "false (C219_violated_*); C219_version_partial without NumPy integers"
  },
  {
   "property": "C220",
   "status": "proved",
   "theorems": [
    "CML.Disp.C220_convex_hull",
    "CML.Disp.C220_get_w_v1",
    "CML.Disp.C220_calculate_centroids",
    "CML.Disp.C220_get_prior_probability",
    "CML.Disp.C220_calculate_error",
    "CML.Disp.C220_select_second_alpha",
    "CML.Disp.C220_compare_differences",
    "CML.Disp.C220_init_centroids",
    "CML.Disp.C220_initializers",
    "CML.Disp.C220_rbf_initializer",
    "CML.Disp.C220_wrong_number"
   ],
   "note": "Exact classification for each binding. Consequences shown in examples: a Python tolerance always means single precision; float32 data with more than 2^32 clusters runs in double precision; compare_differences accepts None."
  },
  {
   "property": "C221",
   "status": "partial",
   "theorems": [
    "CML.Init.C221_parameters",
    "CML.Init.C221_centres_partial",
    "CML.Init.C221_even_partial",
    "CML.Init.C221_violated",
    "CML.Init.C221_not_reproducible"
   ],
   "note": "Proved: shapes and values of all four entries, weights/threshold/centres reproducible always, beta reproducible after an even number of hidden units. False in general: with an odd number of hidden units the second network of the same seed gets a shifted beta (C221_violated, C221_not_reproducible)."
  },
  {
   "property": "C222",
   "status": "partial",
   "theorems": [
    "CML.Init.C222_python_partial",
    "CML.Init.C222_violated"
   ],
   "note": "Proved for the Python engine. False on the C++ engine: both matrices are drawn from engines seeded with the same number, so beta is the stretched image of the centres' first coordinates (C222_violated)."
  },
  {
   "property": "C223",
   "status": "partial",
   "theorems": [
    "CML.Hist.C223_cc",
    "CML.Hist.C223_cc_refused",
    "CML.Hist.C223_python_partial",
    "CML.Hist.C223_violated"
   ],
   "note": "Proved for the C++ engine in full (attributes are read-only copies) and for the Python engine for programs that leave the lists alone. False on the Python engine: appending to history.loss changes the history (C223_violated)."
  },
  {
   "property": "C224",
   "status": "partial",
   "theorems": [
    "CML.Hist.C224_violated",
    "CML.Hist.C224_cc_partial"
   ],
   "note": "Proved for the C++ engine. False on the Python engine, where the list grows with later training (C224_violated)."
  },
  {
   "property": "C225",
   "status": "partial",
   "theorems": [
    "CML.Hist.C225_engines_partial",
    "CML.Hist.C225_violated"
   ],
   "note": "Proved for positional calls with numbers, the only calls the optimisers make. False for keyword arguments (the C++ binding names its second parameter metric_name) and for assigning the lists (C225_violated)."
  },
  {
   "property": "C226",
   "status": "partial",
   "theorems": [
    "CML.LDA.C226_get_w",
    "CML.LDA.C226_unique",
    "CML.LDA.C226_fit",
    "CML.LDA.C226_python_violated",
    "CML.LDA.C226_cc_violated",
    "CML.LDA.C226_python_partial"
   ],
   "note": "Proved for the exact projection function (`get_w`, `get_w_v1` of the backend), including uniqueness and at the level of fit. False of the function that `fit` uses on both engines: Python for every training set with correlated features and some distance of the classes (C226_python_violated), C++ for all data with two uncorrelated features of different spread whose centres differ in both (C226_cc_violated); proved on the Python engine for diagonal factors."
  },
  {
   "property": "C227",
   "status": "partial",
   "theorems": [
    "CML.SMO.C227_optimal_partial",
    "CML.SMO.C227_gap",
    "CML.SMO.C227_early_stop_partial",
    "CML.SMO.C227_violated"
   ],
   "note": "Proved: whenever all samples pass their KKT test with their true errors the result is optimal up to tol (C227_optimal_partial), and so at an early stop with up-to-date cache and no stuck sample. False in general: on coarse data training stops by itself with all multipliers 0, which is never near-optimal (C227_violated, for every such data set)."
  },
  {
   "property": "C228",
   "status": "partial",
   "theorems": [
    "CML.SMO.C228_idle_exact",
    "CML.SVC.C228_unscaled_violated",
    "CML.SVC.C228_small_C_violated",
    "CML.SVC.C228_learns_partial"
   ],
   "note": "Exact characterisation (C228_idle_exact): training is idle iff tol >= 1 or the data are coarse, i.e. all pairs of samples of different labels have squared feature-space distance 0 or above 200000, or C < 1e-5. Otherwise proved (C228_learns_partial). So the claim is false for unscaled data and for small C (C228_unscaled_violated, C228_small_C_violated)."
  },
  {
   "property": "C229",
   "status": "partial",
   "theorems": [
    "CML.SMO.C229_never_ends",
    "CML.SMO.C229_ends_partial",
    "CML.SVC.C229_fit_never_returns"
   ],
   "note": "Proved for all problems whose cached errors are right in every reachable state (C229_ends_partial; met e.g. by two points). False in general: three separable points on a line, linear kernel, default C and tol: training never returns, whatever the permutations (C229_never_ends, C229_fit_never_returns)."
  },
  {
   "property": "C230",
   "status": "proved",
   "theorems": [
    "CML.DTree.C230_paths",
    "CML.DTree.C230_depth",
    "CML.DTree.C230_discrete"
   ],
   "note": "Any rounding of the dividing points is allowed, since a one-sided split makes fit raise."
  },
  {
   "property": "C231",
   "status": "partial",
   "theorems": [
    "CML.DTree.C231_leaves_partial",
    "CML.DTree.C231_bound",
    "CML.DTree.C231_violated"
   ],
   "note": "False when attributes are tested by value (C231_violated: 5 samples, 7 leaves). Proved for trees without such tests, and in general the bound samples times the product of the numbers of values (C231_bound)."
  },
  {
   "property": "C232",
   "status": "proved",
   "theorems": [
    "CML.DTree.C232_post",
    "CML.DTree.C232_pre"
   ],
   "note": "True leaf counts and depths (the recorded height is the subject of C27 and C28)."
  },
  {
   "property": "C233",
   "status": "partial",
   "theorems": [
    "CML.LogReg.C233_descent_partial",
    "CML.LogReg.C233_violated"
   ],
   "note": "False (C233_violated): from all initial parameters with large scores on four noisy rows, every epoch increases the loss, without bound. Proved for epochs that change no score by more than 1 (strictly smaller loss unless nothing changes)."
  },
  {
   "property": "C234",
   "status": "partial",
   "theorems": [
    "CML.LogReg.C234_newton_succeeds_iff",
    "CML.LogReg.C234_newton_never_fails_partial",
    "CML.LogReg.C234_violated",
    "CML.LogReg.C234_dependent"
   ],
   "note": "Exactly characterised (C234_newton_succeeds_iff): an epoch succeeds iff attributes and constant are linearly independent. Otherwise every fit with at least one epoch raises (C234_violated), e.g. with fewer samples than parameters or a constant or repeated attribute (C234_dependent). Exact arithmetic: rounding may turn a singular matrix into a nearly singular one."
  },
  {
   "property": "C235",
   "status": "proved",
   "theorems": [
    "CML.LogReg.C235_quadratic"
   ],
   "note": "Exact arithmetic."
  },
  {
   "property": "C236",
   "status": "proved",
   "theorems": [
    "CML.Net.C236_step_bound",
    "CML.Net.C236_total_drift"
   ],
   "note": "Exact arithmetic. The first epoch moves every entry by less than learning_rate (C52_first_step)."
  },
  {
   "property": "C237",
   "status": "proved",
   "theorems": [
    "CML.LogReg.C237_epochs_suffice",
    "CML.LogReg.C237_loss_tends_to_zero",
    "CML.LogReg.C237_eventually_correct",
    "CML.LogReg.C237_parameters_unbounded"
   ],
   "note": "Exact arithmetic."
  },
  {
   "property": "C238",
   "status": "partial",
   "theorems": [
    "CML.LogReg.C238_small_rate_partial",
    "CML.LogReg.C238_violated"
   ],
   "note": "False (C238_violated): with one attribute of size a and learning_rate*a^2 > 2 (a = 15 for the default), an epoch increases the loss arbitrarily close to the best parameters, and training from some initial parameters alternates for ever between two parameter vectors. Proved (C238_small_rate_partial) for learning_rate <= 4 / sum(|x_i|^2 + 1)."
  },
  {
   "property": "C239",
   "status": "partial",
   "theorems": [
    "CML.GMM.C239_violated",
    "CML.GMM.C239_flat",
    "CML.GMM.C239_trains_partial"
   ],
   "note": "Exactly characterised. False on flat data, i.e. if a linear combination of the attributes is constant (C239_violated, for all of them; C239_flat: constant or repeated attribute, at most as many samples as attributes): the first epoch makes all covariances singular and the second, or predict, raises LinAlgError. Otherwise training always succeeds and the covariances stay positive definite (C239_trains_partial). Exact arithmetic."
  },
  {
   "property": "C240",
   "status": "partial",
   "theorems": [
    "CML.SMO.C240_margin_partial",
    "CML.SMO.C240_error_count_partial",
    "CML.SVC.C240_classifier_partial",
    "CML.SVC.C240_violated"
   ],
   "note": "False in general (C240_violated: on coarse data all samples of label -1 are misclassified without any support vector). Proved for states in which all samples pass their KKT test with their true errors (C240_margin_partial, C240_error_count_partial, C240_classifier_partial; see C227 for when a stop implies that)."
  },
  {
   "property": "C241",
   "status": "proved",
   "theorems": [
    "CML.SVC.C241_linear",
    "CML.SVC.C241_convex"
   ],
   "note": "Exact arithmetic."
  },
  {
   "property": "C242",
   "status": "proved",
   "theorems": [
    "CML.SVC.C242_far_rows",
    "CML.SVC.C242_after_fit"
   ],
   "note": "Exact arithmetic."
  },
  {
   "property": "C243",
   "status": "partial",
   "theorems": [
    "CML.KMeans.C243_kmeans_partial",
    "CML.KMeans.C243_kmeans_predict_partial",
    "CML.SVC.C243_svc_partial",
    "CML.SVC.C243_auto_gamma_violated",
    "CML.LogReg.C243_violated"
   ],
   "note": "Proved for k-means (fit and predict) and the RBF support vector classifier with a numeric gamma. False for gamma='auto' (C243_auto_gamma_violated: other kernel value for every pair of different rows) and for Newton's method and Gaussian mixtures, which then raise on every data set (C243_violated); naive Bayes raises too (C80_single_value). Trees, networks and gradient descent are not covered."
  },
  {
   "property": "C244",
   "status": "partial",
   "theorems": [
    "CML.Prep.C244_minmax_partial",
    "CML.Prep.C244_standard_violated",
    "CML.Prep.C244_imputer_partial"
   ],
   "note": "Proved for the min-max scaler (data with two different values) and the imputer (every table, if converting a converted number changes nothing). False for the standard scaler: the second call undoes the division of the first, the result is the same only when the variance was 1 (C244_standard_violated, all data with positive variance)."
  },
  {
   "property": "C245",
   "status": "partial",
   "theorems": [
    "CML.Bayes.C245_naive_bayes_partial",
    "CML.Bayes.C245_one_dependent_partial",
    "CML.Bayes.C245_averaged_partial",
    "CML.Bayes.C245_witness"
   ],
   "note": "Proved for naive Bayes and the one-dependent estimator, for every attribute its own renaming, and for the averaged estimator when all attributes use the same renaming. False for the averaged estimator otherwise (C245_witness): the values of one attribute are compared with those of another."
  },
  {
   "property": "C246",
   "status": "partial",
   "theorems": [
    "CML.Bayes.C246_origin_partial",
    "CML.Bayes.C246_answer",
    "CML.Bayes.C246_violated_iff"
   ],
   "note": "The origin is proved irrelevant for all three classifiers (for the averaged one if discrete values are not numbers). The unit matters for naive Bayes: closed form of the answer in every unit (C246_answer, exact arithmetic) and the exact condition under which it changes with the unit (C246_violated_iff)."
  },
  {
   "property": "C247",
   "status": "proved",
   "theorems": [
    "CML.GMM.C247_mixture_step",
    "CML.GMM.C247_mixture",
    "CML.GMM.C247_start_kept",
    "CML.KMeans.C247_kmeans"
   ],
   "note": "C247_mixture_step and C247_mixture for mixtures of any shape and any density; C247_kmeans for k-means (for every reference point). C247_start_kept: the alternative 'start returned unchanged' occurs."
  },
  {
   "property": "C248",
   "status": "partial",
   "theorems": [
    "CML.KMeans.C248_repeated_draw",
    "CML.KMeans.C248_one_row_drawn",
    "CML.KMeans.C248_draws",
    "CML.KMeans.C248_all_rows_partial"
   ],
   "note": "False: rows are drawn with replacement (C248_repeated_draw: a draw with two equal and two different rows raises ValueError in the first epoch, for all data; C248_draws: at most n(n-1)...(n-k+1)+n of the n^k draws do not raise; C248_one_row_drawn: if all draws are one row every sample lands in cluster 0). C248_all_rows_partial: distinct rows covering all samples train in one epoch with cost 0."
  },
  {
   "property": "C249",
   "status": "proved",
   "theorems": [
    "CML.Hull.C249_order"
   ],
   "note": "C249_order, including the exceptions."
  },
  {
   "property": "C250",
   "status": "proved",
   "theorems": [
    "CML.Hull.C250_coords"
   ],
   "note": "C250_coords, including the exceptions."
  },
  {
   "property": "C251",
   "status": "proved",
   "theorems": [
    "CML.Hull.C251_same_set",
    "CML.Hull.C251_corners"
   ],
   "note": "C251_same_set and C251_corners, with Mathlib's convexHull as specification, duplicates included."
  },
  {
   "property": "C252",
   "status": "proved",
   "theorems": [
    "CML.LogReg.C252_gd_at_rest",
    "CML.LogReg.C252_newton_at_rest",
    "CML.LogReg.C252_average",
    "CML.LogReg.C252_total_error",
    "CML.LogReg.C252_calibrated"
   ],
   "note": "C252_gd_at_rest, C252_newton_at_rest, C252_average (any learning rate), C252_total_error, C252_calibrated."
  },
  {
   "property": "C253",
   "status": "proved",
   "theorems": [
    "CML.Net.C253_sgd",
    "CML.Net.C253_adam",
    "CML.Net.C253_all_silent",
    "CML.Net.C253_initial"
   ],
   "note": "C253_sgd, C253_adam, C253_all_silent, C253_initial."
  },
  {
   "property": "C254",
   "status": "partial",
   "theorems": [
    "CML.Repeat.C254_gradient_descent_partial",
    "CML.Repeat.C254_gradient_descent_false",
    "CML.Repeat.C254_newton"
   ],
   "note": "True with Newton's method (C254_newton). False with gradient descent: r copies act as a learning rate r times as large (C254_gradient_descent_partial), so one epoch agrees only if it does not move (C254_gradient_descent_false)."
  },
  {
   "property": "C255",
   "status": "proved",
   "theorems": [
    "CML.Repeat.C255_inverse",
    "CML.Repeat.C255_python",
    "CML.Repeat.C255_cc",
    "CML.Repeat.C255_predictions"
   ],
   "note": "C255_inverse, C255_python, C255_cc, C255_predictions. For the two SVD versions the decomposition of a multiple is assumed to have the same singular vectors."
  },
  {
   "property": "C256",
   "status": "proved",
   "theorems": [
    "CML.Repeat.C256_mixture",
    "CML.Repeat.C256_kmeans"
   ],
   "note": "C256_kmeans, C256_mixture."
  },
  {
   "property": "C257",
   "status": "proved",
   "theorems": [
    "CML.Repeat.C257_gini",
    "CML.Repeat.C257_entropy_gain"
   ],
   "note": "C257_gini, C257_entropy_gain; the majority label and the type of a column are assumed not to depend on the copies."
  },
  {
   "property": "C258",
   "status": "partial",
   "theorems": [
    "CML.Repeat.C258_copies_beat_every_rule_partial",
    "CML.Repeat.C258_never_worse_partial",
    "CML.Repeat.C258_stump_false"
   ],
   "note": "False (C258_stump_false). Proved: copies never make it worse (C258_never_worse_partial); with two or more copies it is the best of all threshold rules (C258_copies_beat_every_rule_partial)."
  },
  {
   "property": "C259",
   "status": "partial",
   "theorems": [
    "CML.Repeat.C259_unsmoothed_partial",
    "CML.Repeat.C259_smoothed_iff",
    "CML.Repeat.C259_smoothed_false"
   ],
   "note": "True without smoothing (C259_unsmoothed_partial). False with smoothing (C259_smoothed_false; the estimates agree iff C259_smoothed_iff)."
  },
  {
   "property": "C260",
   "status": "proved",
   "theorems": [
    "CML.Repeat.C260_binary_accuracy",
    "CML.Repeat.C260_categorical_accuracy",
    "CML.Repeat.C260_standard",
    "CML.Repeat.C260_min_max"
   ],
   "note": "C260_binary_accuracy, C260_categorical_accuracy, C260_standard, C260_min_max."
  },
  {
   "property": "C261",
   "status": "proved",
   "theorems": [
    "CML.DTree.C261_gini",
    "CML.DTree.C261_entropy_gain",
    "CML.DTree.C261_new_row"
   ],
   "note": ""
  },
  {
   "property": "C262",
   "status": "proved",
   "theorems": [
    "CML.KMeans.C262_kmeans",
    "CML.LDA.C262_lda",
    "CML.LogReg.C262_logreg",
    "CML.SVC.C262_svc",
    "CML.Small.C262_stump",
    "CML.DTree.C262_tree_not_convex"
   ],
   "note": ""
  },
  {
   "property": "C263",
   "status": "proved",
   "theorems": [
    "CML.Ada.C263_ada",
    "CML.Bagging.C263_bagging"
   ],
   "note": ""
  },
  {
   "property": "C264",
   "status": "proved",
   "theorems": [
    "CML.GMM.C264_gmm",
    "CML.KMeans.C264_kmeans"
   ],
   "note": ""
  },
  {
   "property": "C265",
   "status": "proved",
   "theorems": [
    "CML.Failed.C265_lda",
    "CML.Failed.C265_kmeans",
    "CML.Failed.C265_logistic",
    "CML.Failed.C265_bagging",
    "CML.Failed.C265_adaboost",
    "CML.Failed.C265_incomplete_files",
    "CML.Failed.C265_incomplete_logistic"
   ],
   "note": "LDA, k-means, logistic regression, bagging and AdaBoost."
  },
  {
   "property": "C266",
   "status": "partial",
   "theorems": [
    "CML.Failed.C266_lda",
    "CML.Failed.C266_kmeans",
    "CML.Failed.C266_logistic_partial",
    "CML.Failed.C266_logistic_violated",
    "CML.Failed.C266_bagging_partial",
    "CML.Failed.C266_bagging_accumulates",
    "CML.Failed.C266_bagging_violated",
    "CML.Failed.C266_adaboost_load_partial",
    "CML.Failed.C266_adaboost_frozen",
    "CML.Failed.C266_adaboost_partial"
   ],
   "note": "Proved for LDA and k-means, and for load_weights everywhere; logistic regression only without an earlier load, bagging and AdaBoost only without earlier members."
  },
  {
   "property": "C267",
   "status": "partial",
   "theorems": [
    "CML.SVC.C267_rotation_partial",
    "CML.SVC.C267_kernels",
    "CML.SVC.C267_same_problem",
    "CML.SVC.C267_origin_violated"
   ],
   "note": "Rotations and reflections: proved for all inner-product kernels. Origin: proved for the optimisation problem; false for the training."
  },
  {
   "property": "C268",
   "status": "partial",
   "theorems": [
    "CML.SVC.C268_form_partial",
    "CML.SVC.C268_mirror",
    "CML.SVC.C268_even_violated",
    "CML.SVC.C268_odd_violated"
   ],
   "note": "What the classifier can represent is proved: a constant plus a form of degree p."
  },
  {
   "property": "C269",
   "status": "partial",
   "theorems": [
    "CML.SVC.C269_same_problem_partial",
    "CML.SVC.C269_order_violated"
   ],
   "note": "Proved for the optimisation problem; false for the training."
  },
  {
   "property": "C270",
   "status": "proved",
   "theorems": [
    "CML.LogReg.C270_gradient_descent",
    "CML.LogReg.C270_same_parameters"
   ],
   "note": "For runs that came to rest; C84/C233-C238 say when they do."
  },
  {
   "property": "C271",
   "status": "proved",
   "theorems": [
    "CML.C271_binary",
    "CML.C271_categorical",
    "CML.C271_hard_labels"
   ],
   "note": "Probabilities strictly between 0 and 1 (otherwise the loss is not finite)."
  },
  {
   "property": "C272",
   "status": "partial",
   "theorems": [
    "CML.Bagging.C272_neighbours_violated",
    "CML.Bagging.C272_apart_partial"
   ],
   "note": "Proved for seeds that are at least as far apart as the ensembles are large."
  },
  {
   "property": "C273",
   "status": "proved",
   "theorems": [
    "CML.Bagging.C273_bagging_order",
    "CML.Bagging.C273_bagging_monotone",
    "CML.Bagging.C273_bagging_union",
    "CML.Ada.C273_ada_order"
   ],
   "note": "Bagging and AdaBoost."
  },
  {
   "property": "C274",
   "status": "proved",
   "theorems": [
    "CML.Kern.C274_positive_definite",
    "CML.Kern.C274_interpolation",
    "CML.SVC.C274_unique_optimum"
   ],
   "note": "Exact arithmetic."
  },
  {
   "property": "C275",
   "status": "proved",
   "theorems": [
    "CML.Float.C275_scaled",
    "CML.Float.C275_degenerate"
   ],
   "note": "For every rounding in the sense of IsRounding; IEEE round to nearest is one (f32_isRounding, f64_isRounding). No overflow."
  },
  {
   "property": "C276",
   "status": "partial",
   "theorems": [
    "CML.Float.C276_inverse_partial",
    "CML.Float.C276_lost"
   ],
   "note": "The minimum is restored and the order kept; the other values need not be restored."
  },
  {
   "property": "C277",
   "status": "partial",
   "theorems": [
    "CML.Float.C277_rows_partial",
    "CML.Float.C277_largest_row_partial",
    "CML.Float.C277_nan_iff",
    "CML.Float.C277_lost",
    "CML.Float.C277_tie",
    "CML.Float.C277_empty"
   ],
   "note": "Proved for rows whose exponentials do not all underflow, in particular for a single row and the row with the largest entry; exactly which rows fail is proved for single precision."
  },
  {
   "property": "C278",
   "status": "partial",
   "theorems": [
    "CML.Float.C278_weights_partial",
    "CML.Float.C278_first_total",
    "CML.Float.C278_posteriors_partial",
    "CML.Float.C278_one_format_partial",
    "CML.Float.C278_above_one"
   ],
   "note": "Non-negative and ordered always, at most 1 in one format, total within explicit bounds of 1; or all NaN if everything underflows."
  },
  {
   "property": "C279",
   "status": "partial",
   "theorems": [
    "CML.Float.C279_accepted_partial",
    "CML.Float.C279_refused",
    "CML.Float.C279_wrong_accepted",
    "CML.Float.C279_count"
   ],
   "note": "Proved for multiples of 2^-k."
  },
  {
   "property": "C280",
   "status": "partial",
   "theorems": [
    "CML.DTree.C280_between",
    "CML.DTree.C280_succeeds_partial",
    "CML.DTree.C280_diverges",
    "CML.DTree.C280_neighbours"
   ],
   "note": "Proved whenever the stored dividing points separate; otherwise exactly the recursion fails."
  },
  {
   "property": "C281",
   "status": "partial",
   "theorems": [
    "CML.Float.C281_range_partial",
    "CML.Float.C281_saturates",
    "CML.Float.C281_half",
    "CML.Float.C281_inside_partial"
   ],
   "note": "Range and monotonicity (not strict)."
  },
  {
   "property": "C282",
   "status": "partial",
   "theorems": [
    "CML.Float.C282_second_partial",
    "CML.Float.C282_first_partial",
    "CML.Float.C282_negative",
    "CML.Float.C282_crossed"
   ],
   "note": "Within explicit multiples of the rounding error, unless the computed bounds cross."
  },
  {
   "property": "C283",
   "status": "proved",
   "theorems": [
    "CML.Float.C283_accuracy",
    "CML.Float.C283_stump_error",
    "CML.Float.C283_f64"
   ],
   "note": "For every rounding with errors small against 1/n; double precision up to 2^50 samples."
  },
  {
   "property": "C284",
   "status": "partial",
   "theorems": [
    "CML.Float.C284_order_partial",
    "CML.Float.C284_two_equal_partial",
    "CML.Float.C284_constant"
   ],
   "note": "Order kept; equal values for arrays of one or two."
  },
  {
   "property": "C285",
   "status": "partial",
   "theorems": [
    "CML.Hull.C285_same_partial",
    "CML.Hull.C285_formats_partial",
    "CML.Hull.C285_hull_partial",
    "CML.Hull.C285_closed",
    "CML.Hull.C285_right_turn",
    "CML.Hull.C285_outside"
   ],
   "note": "proved for integer coordinates up to 1448 (single precision) and 33554431 (double precision): same result as exact arithmetic; for every rounding: closed chain of input points, returned for the same sets. False in general (C285_right_turn, C285_outside)"
  },
  {
   "property": "C286",
   "status": "partial",
   "theorems": [
    "CML.Float.C286_nearly_nearest_partial",
    "CML.Float.C286_clear_partial",
    "CML.Float.C286_second_nearest",
    "CML.Float.C286_own_centroid"
   ],
   "note": "Nearest up to the factor ((1+u)/(1-u))^(depth+5) of the squared distance and underflow; found if clearly nearest. Exactly false (C286_second_nearest, C286_own_centroid)."
  },
  {
   "property": "C287",
   "status": "partial",
   "theorems": [
    "CML.Float.C287_error_partial",
    "CML.Float.C287_two_partial",
    "CML.Float.C287_outside"
   ],
   "note": "Explicit error bound for all clusters; between the samples for clusters of one or two. False for three equal samples (C287_outside)."
  },
  {
   "property": "C288",
   "status": "proved",
   "theorems": [
    "CML.Float.C288_weights",
    "CML.Float.C288_single"
   ],
   "note": ""
  },
  {
   "property": "C289",
   "status": "proved",
   "theorems": [
    "CML.DTree.C289_gini",
    "CML.DTree.C289_entropy",
    "CML.DTree.C289_gain",
    "CML.DTree.C289_zero"
   ],
   "note": ""
  },
  {
   "property": "C290",
   "status": "partial",
   "theorems": [
    "CML.DTree.C290_gini_partial",
    "CML.DTree.C290_entropy_partial",
    "CML.DTree.C290_gain_partial",
    "CML.DTree.C290_lost"
   ],
   "note": "C290_gini_partial, C290_entropy_partial, C290_gain_partial: proved if storing the dividing point does not change it (library precision at least that of the columns). C290_lost: 64-bit values 1 and 1+2^-30 in 32-bit mode exceed every recursion limit although one comparison separates them."
  },
  {
   "property": "C291",
   "status": "partial",
   "theorems": [
    "CML.Bayes.C291_partial",
    "CML.Bayes.C291_far_beats_near",
    "CML.Bayes.C291_far_beats_near_double"
   ],
   "note": "C291_partial: holds for every rounding unless the farther value gets the constant 1e-36 and the nearer one a smaller number. C291_far_beats_near (single) and C291_far_beats_near_double: fails for every mean and every variance up to 2^100."
  },
  {
   "property": "C292",
   "status": "partial",
   "theorems": [
    "CML.Bayes.C292_exact_partial",
    "CML.Bayes.C292_rounded_partial",
    "CML.Bayes.C292_nearer_loses"
   ],
   "note": "C292_exact_partial: holds without rounding. C292_rounded_partial: in every rounding class 0 is only predicted for values nearer to its mean if no density is replaced. C292_nearer_loses: in single precision, for all such data with means at least 8 variances apart, an interval of values on the far side of the mean of class 0 is classified as 1."
  },
  {
   "property": "C293",
   "status": "proved",
   "theorems": [
    "CML.Net.C293_sgd",
    "CML.Net.C293_sgd_binary",
    "CML.Net.C293_adam",
    "CML.Net.C293_adam_binary"
   ],
   "note": ""
  },
  {
   "property": "C294",
   "status": "partial",
   "theorems": [
    "CML.RBF.C294_perfect_fit_lost",
    "CML.RBF.C294_zero_weights_partial"
   ],
   "note": "C294_perfect_fit_lost: fails for every perfect network with non-negative labels, a unit of non-zero weight and a sample of positive label away from its centre, for every positive learning rate: the error rises from 0. C294_zero_weights_partial: holds for networks whose output weights are zero (fresh ones)."
  },
  {
   "property": "C295",
   "status": "partial",
   "theorems": [
    "CML.Float.C295_confident_nan",
    "CML.Float.C295_confident_infinite",
    "CML.Float.C295_moderate_partial"
   ],
   "note": "C295_confident_nan: fails for every right answer with a logit of 18 or more (NaN in both engines, whatever the other samples). C295_confident_infinite: infinite for a wrong one. C295_moderate_partial: holds while all logits lie between -16 and 16."
  },
  {
   "property": "C296",
   "status": "proved",
   "theorems": [
    "CML.SVC.C296_refuses",
    "CML.SVC.C296_answers",
    "CML.SVC.C296_as_new",
    "CML.SVC.C296_load"
   ],
   "note": ""
  },
  {
   "property": "C297",
   "status": "partial",
   "theorems": [
    "CML.SVC.C297_compiled_partial",
    "CML.SVC.C297_file_parameters",
    "CML.SVC.C297_violated"
   ],
   "note": "C297_file_parameters: a fit after load_weights always trains with the parameters of the file, for every earlier compile; C297_violated: with different answers on the training samples. C297_compiled_partial: C and tol are used as long as no file is loaded, the kernel by the first fit after compile (C125_refit_stale: later fits keep gamma and kernel of the first)."
  },
  {
   "property": "C298",
   "status": "proved",
   "theorems": [
    "CML.DTree.C298_criterion",
    "CML.DTree.C298_gain",
    "CML.DTree.C298_one_column"
   ],
   "note": ""
  },
  {
   "property": "C299",
   "status": "partial",
   "theorems": [
    "CML.Bayes.C299_near_partial",
    "CML.Bayes.C299_turned_away"
   ],
   "note": "C299_near_partial: any number of attributes, rows with n (x - mean)^2 <= (n + 1) variance in each attribute. C299_turned_away: fails for ALL pairs of classes of n >= 2 samples with equal variance v and means 2 D apart, 4 (n + 1) v <= D^2 <= v^2: the value half way is answered 1, and 0 once it is learned as 1."
  },
  {
   "property": "C300",
   "status": "proved",
   "theorems": [
    "CML.Ops.C300_unbiased",
    "CML.Ops.C300_left_out",
    "CML.Ops.C300_one_row",
    "CML.Ops.C300_limit"
   ],
   "note": "np.random.choice is taken to draw all index arrays with equal probability; the theorems are about the sums over all of them."
  },
  {
   "property": "C301",
   "status": "proved",
   "theorems": [
    "CML.DTree.C301_most_frequent",
    "CML.DTree.C301_best",
    "CML.DTree.C301_beats_majority",
    "CML.DTree.C301_discrete"
   ],
   "note": ""
  },
  {
   "property": "C302",
   "status": "partial",
   "theorems": [
    "CML.DTree.C302_best_partial",
    "CML.DTree.C302_small_partial",
    "CML.DTree.C302_violated"
   ],
   "note": "C302_best_partial: best of all if no remaining inner node would be right more often as a leaf; C302_small_partial: in particular if the result is a leaf or a node with leaves only. C302_violated: a fitted tree where post-pruning keeps a tree with 1 of 4 validation rows right although the leaf at the root has 3 right."
  },
  {
   "property": "C303",
   "status": "partial",
   "theorems": [
    "CML.Float.C303_dot_partial",
    "CML.Float.C303_svc_partial",
    "CML.Float.C303_linear_partial",
    "CML.Float.C303_svc_wrong",
    "CML.Float.C303_logistic_partial",
    "CML.Float.C303_logistic_f32_partial",
    "CML.Float.C303_logistic_wrong"
   ],
   "note": "C303_dot_partial: error bound for every order and fusing. C303_svc_partial, C303_linear_partial, C303_logistic_partial, C303_logistic_f32_partial: the class is right if the exact value exceeds the explicit bound. C303_svc_wrong, C303_logistic_wrong: single precision cases where it is not."
  },
  {
   "property": "C304",
   "status": "partial",
   "theorems": [
    "CML.Float.C304_clear_partial",
    "CML.Float.C304_wrong"
   ],
   "note": "C304_clear_partial: right if the distances differ by more than the explicit bound. C304_wrong: a single precision case with the farther class."
  },
  {
   "property": "C305",
   "status": "proved",
   "theorems": [
    "CML.Ada.C305_margins",
    "CML.Ada.C305_rate",
    "CML.Ada.C305_all_margins"
   ],
   "note": "C305_margins: the product bound for every learner; C305_rate: exponential rate for the default learner; C305_all_margins: all margins above theta after enough rounds."
  },
  {
   "property": "C306",
   "status": "proved",
   "theorems": [
    "CML.Bagging.C306_bagging",
    "CML.Bagging.C306_bagging_perfect",
    "CML.Bagging.C306_worse_than_all",
    "CML.Ada.C306_boosting"
   ],
   "note": "C306_bagging, C306_bagging_perfect, C306_boosting; C306_worse_than_all shows that a factor above 1 is needed: an ensemble can be worse than each member."
  },
  {
   "property": "C307",
   "status": "proved",
   "theorems": [
    "CML.DTree.C307_boxes",
    "CML.DTree.C307_fit",
    "CML.DTree.C307_between"
   ],
   "note": "C307_boxes, C307_fit (at most as many boxes as samples), C307_between."
  },
  {
   "property": "C308",
   "status": "proved",
   "theorems": [
    "CML.SMO.C308_leave_out",
    "CML.SMO.C308_add",
    "CML.SMO.C308_support_needed"
   ],
   "note": "C308_leave_out, C308_add, C308_support_needed. That training reaches multipliers optimal up to the tolerance is C227 (partial)."
  },
  {
   "property": "C309",
   "status": "proved",
   "theorems": [
    "CML.DTree.C309_contradiction",
    "CML.DTree.C309_equal_rows",
    "CML.DTree.C309_iff"
   ],
   "note": "C309_contradiction, C309_equal_rows, C309_iff. The rule for continuous columns is a parameter of which only 'a column with a value that is no integer is continuous' is used."
  },
  {
   "property": "C310",
   "status": "proved",
   "theorems": [
    "CML.KMeans.C310_means",
    "CML.KMeans.C310_halfspaces",
    "CML.KMeans.C310_range",
    "CML.KMeans.C310_one_point"
   ],
   "note": "C310_means, C310_halfspaces, C310_range, C310_one_point."
  },
  {
   "property": "C311",
   "status": "partial",
   "theorems": [
    "CML.RBF.C311_bounded_partial",
    "CML.RBF.C311_far_partial",
    "CML.RBF.C311_unbounded",
    "CML.RBF.C311_first_epoch"
   ],
   "note": "Proved for non-negative (bounded) and positive (far) widths; false in general: C311_unbounded, C311_first_epoch."
  },
  {
   "property": "C312",
   "status": "proved",
   "theorems": [
    "CML.Failed.C312_ready"
   ],
   "note": "C312_ready."
  },
  {
   "property": "C313",
   "status": "partial",
   "theorems": [
    "CML.Failed.C313_fresh_partial",
    "CML.Failed.C313_structure_ignored",
    "CML.Failed.C313_continues",
    "CML.Failed.C313_load_partial",
    "CML.Failed.C313_layers_left",
    "CML.Failed.C313_violated"
   ],
   "note": "Proved for instances that never loaded a file (C313_fresh_partial) and for files with at least as many layers (C313_load_partial); otherwise false: C313_structure_ignored, C313_continues, C313_layers_left, C313_violated."
  },
  {
   "property": "C314",
   "status": "proved",
   "theorems": [
    "CML.Failed.C314_ready"
   ],
   "note": "C314_ready. Simplification: in an incomplete file p_0 and p_1 are missing together."
  },
  {
   "property": "C315",
   "status": "partial",
   "theorems": [
    "CML.Failed.C315_fit_partial",
    "CML.Failed.C315_load_partial",
    "CML.Failed.C315_compile_after_fit"
   ],
   "note": "Proved for compile and fit, and for load; false for compile after fit: C315_compile_after_fit."
  },
  {
   "property": "C316",
   "status": "proved",
   "theorems": [
    "CML.Failed.C316_ready"
   ],
   "note": "C316_ready. Tree generation, pruning and prediction are parameters (modelled in Tree); tables are assumed to fit the attribute names."
  },
  {
   "property": "C317",
   "status": "partial",
   "theorems": [
    "CML.Failed.C317_fresh_partial",
    "CML.Failed.C317_load_partial",
    "CML.Failed.C317_refused",
    "CML.Failed.C317_data_ignored",
    "CML.Failed.C317_load_then_fit"
   ],
   "note": "Proved for instances that never loaded a file (C317_fresh_partial) and for loads that complete (C317_load_partial); otherwise false: C317_refused, C317_data_ignored, C317_load_then_fit."
  },
  {
   "property": "C318",
   "status": "partial",
   "theorems": [
    "CML.Failed.C318_mixture_partial",
    "CML.Failed.C318_mixture_violated",
    "CML.Failed.C318_rbf"
   ],
   "note": "Proved for RBF networks (C318_rbf); for mixtures C318_mixture_partial says exactly when predict stops refusing; the property is false for them: C318_mixture_violated."
  },
  {
   "property": "C319",
   "status": "partial",
   "theorems": [
    "CML.Failed.C319_mixture_partial",
    "CML.Failed.C319_rbf_partial",
    "CML.Failed.C319_rbf_load_partial",
    "CML.Failed.C319_rbf_ignored",
    "CML.Failed.C319_rbf_violated"
   ],
   "note": "Proved for mixtures, and for RBF networks that never loaded a file or load one; false for compile and fit of RBF networks after a load: C319_rbf_ignored, C319_rbf_violated."
  },
  {
   "property": "C320",
   "status": "partial",
   "theorems": [
    "CML.Persist.C320_all_writes",
    "CML.Persist.C320_refused_partial",
    "CML.Persist.C320_neither_old_nor_new",
    "CML.Persist.C320_network_indistinguishable",
    "CML.Persist.C320_network_accepted"
   ],
   "note": "Proved: refused at every point of interruption for all models but the two networks, and for these until the weights are written (C320_refused_partial). False for the networks (C320_network_indistinguishable, C320_network_accepted), and the old model is lost (C320_neither_old_nor_new). Files that the HDF5 library itself leaves unreadable are not modelled."
  },
  {
   "property": "C321",
   "status": "proved",
   "theorems": [
    "CML.DTree.C321_criterion",
    "CML.DTree.C321_gain"
   ],
   "note": "Both criteria (impurity minimum, information gain). The repetition must stand behind the original: in front of it a tie with a third attribute can be decided differently (example in Props/TreeTwice)."
  },
  {
   "property": "C322",
   "status": "proved",
   "theorems": [
    "CML.Small.C322_two_levels",
    "CML.Small.C322_stump",
    "CML.Ada.C322_adaboost"
   ],
   "note": "Stump, two-level tree and AdaBoost over its default learner."
  },
  {
   "property": "C323",
   "status": "proved",
   "theorems": [
    "CML.SVC.C323_svc",
    "CML.LogReg.C323_gradient_descent",
    "CML.LogReg.C323_merge_onto"
   ],
   "note": "Exact arithmetic. For gradient descent the initial parameters correspond by merge, which is onto (C323_merge_onto)."
  },
  {
   "property": "C324",
   "status": "partial",
   "theorems": [
    "CML.LogReg.C324_violated",
    "CML.LDA.C324_lda_violated",
    "CML.Small.C324_small_trees_partial"
   ],
   "note": "False for Newton's method, Gaussian mixtures with the default covariances (C324_violated) and discriminant analysis (C324_lda_violated), for every data set. True for stumps, two-level trees and AdaBoost (C324_small_trees_partial). Exact arithmetic: in floating point the smallest singular value can come out as a tiny number instead of zero, and the direction is then arbitrary."
  },
  {
   "property": "C325",
   "status": "proved",
   "theorems": [
    "CML.Failed.C325_spode",
    "CML.Failed.C325_spode_fit",
    "CML.Failed.C325_aode",
    "CML.Failed.C325_width",
    "CML.Failed.C325_aode_elements"
   ],
   "note": "C325_spode, C325_spode_fit, C325_aode. Attribute names given to the constructor and distinct."
  },
  {
   "property": "C326",
   "status": "partial",
   "theorems": [
    "CML.Failed.C326_spode_first_partial",
    "CML.Failed.C326_spode_load_partial",
    "CML.Failed.C326_spode_compile",
    "CML.Failed.C326_spode_fit_adds",
    "CML.Failed.C326_spode_stale",
    "CML.Failed.C326_spode_never_drops",
    "CML.Failed.C326_spode_witness",
    "CML.Failed.C326_aode_first_partial",
    "CML.Failed.C326_aode_load_partial",
    "CML.Failed.C326_aode_fit_adds",
    "CML.Failed.C326_aode_failed_fit",
    "CML.Failed.C326_aode_witness"
   ],
   "note": "Proved for the first training (C326_spode_first_partial; for the averaged estimator also after loads, C326_aode_first_partial), for loads (C326_spode_load_partial, C326_aode_load_partial) and compile (C326_spode_compile); false otherwise: C326_spode_fit_adds, C326_spode_stale, C326_spode_never_drops, C326_spode_witness, C326_aode_fit_adds, C326_aode_failed_fit, C326_aode_witness."
  },
  {
   "property": "C327",
   "status": "proved",
   "theorems": [
    "CML.C327_binary_accuracy",
    "CML.C327_score",
    "CML.C327_categorical_accuracy",
    "CML.C327_binary_crossentropy",
    "CML.C327_categorical_crossentropy",
    "CML.C327_crossentropy",
    "CML.C327_log_likelihood"
   ],
   "note": "C327_binary_accuracy (both engines), C327_score, C327_categorical_accuracy, C327_binary_crossentropy, C327_categorical_crossentropy, C327_crossentropy, C327_log_likelihood."
  },
  {
   "property": "C328",
   "status": "partial",
   "theorems": [
    "CML.C328_mean_squared_error_partial",
    "CML.C328_witness"
   ],
   "note": "C328_mean_squared_error_partial: it holds exactly if one batch has total residual zero; false otherwise (C328_witness)."
  },
  {
   "property": "C329",
   "status": "partial",
   "theorems": [
    "CML.Bayes.C329_counted_twice",
    "CML.Bayes.C329_supported_partial",
    "CML.Bayes.C329_witness"
   ],
   "note": "C329_counted_twice is the exact law; C329_supported_partial: answers that the attribute supports do not change; false otherwise (C329_witness)."
  },
  {
   "property": "C330",
   "status": "proved",
   "theorems": [
    "CML.Failed.C330_lda",
    "CML.Failed.C330_kmeans",
    "CML.Failed.C330_mixture",
    "CML.Failed.C330_rbf",
    "CML.Failed.C330_network",
    "CML.Failed.C330_nb",
    "CML.Failed.C330_spode",
    "CML.Failed.C330_aode",
    "CML.Failed.C330_tree",
    "CML.Failed.C330_tree_unknown",
    "CML.SVC.C330_svc",
    "CML.SVC.C330_svc_unknown"
   ],
   "note": "C330_lda, C330_kmeans, C330_mixture, C330_rbf, C330_network, C330_nb, C330_spode, C330_aode, C330_tree, C330_svc; unknown names: C330_tree_unknown, C330_svc_unknown."
  },
  {
   "property": "C331",
   "status": "proved",
   "theorems": [
    "CML.Failed.C331_columns",
    "CML.Failed.C331_no_super_parent",
    "CML.Failed.C331_tree",
    "CML.Failed.C331_networks"
   ],
   "note": "C331_columns, C331_no_super_parent, C331_tree, C331_networks. The averaged estimator is not part of it: see C326_aode_failed_fit."
  },
  {
   "property": "C332",
   "status": "partial",
   "theorems": [
    "CML.Hull.C332_idempotent_partial",
    "CML.Hull.C332_closed_refused",
    "CML.Hull.C332_inner_points"
   ],
   "note": "C332_idempotent_partial for the vertices without the repeated first one, C332_inner_points; false for the closed chain that is returned: C332_closed_refused."
  },
  {
   "property": "C333",
   "status": "proved",
   "theorems": [
    "CML.C333_softmax",
    "CML.C333_losses",
    "CML.C333_decision"
   ],
   "note": "C333_softmax, C333_losses, C333_decision; exact arithmetic."
  },
  {
   "property": "C334",
   "status": "proved",
   "theorems": [
    "CML.KMeans.C334_kmeans",
    "CML.LogReg.C334_logistic",
    "CML.LDA.C334_lda",
    "CML.SVC.C334_svc_rbf",
    "CML.DTree.C334_tree",
    "CML.DTree.C334_tree_training",
    "CML.Small.C334_stump"
   ],
   "note": "C334_kmeans, C334_logistic (with the exact radius), C334_lda, C334_svc_rbf, C334_tree, C334_tree_training, C334_stump; exact arithmetic."
  },
  {
   "property": "C335",
   "status": "proved",
   "theorems": [
    "CML.Bayes.C335_same_answers",
    "CML.Bayes.C335_constant_refused"
   ],
   "note": "C335_same_answers, C335_constant_refused; for data on which naive Bayes attaches its counts to the right values (C41), the super-parent as first column."
  },
  {
   "property": "C336",
   "status": "proved",
   "theorems": [
    "CML.KMeans.C336_separated",
    "CML.KMeans.C336_bad_start"
   ],
   "note": "C336_separated; the start matters: C336_bad_start; exact arithmetic."
  },
  {
   "property": "C337",
   "status": "partial",
   "theorems": [
    "CML.Bayes.C337_discrete_partial",
    "CML.Bayes.C337_witness"
   ],
   "note": "C337_discrete_partial for discrete attributes whose values appear in the order of their frequencies; false for continuous attributes: C337_witness."
  },
  {
   "property": "C338",
   "status": "proved",
   "theorems": [
    "CML.Repeat.C338_fades",
    "CML.Repeat.C338_shrinks"
   ],
   "note": "C338_fades, C338_shrinks; exact arithmetic, densities rounded."
  },
  {
   "property": "C339",
   "status": "proved",
   "theorems": [
    "CML.GMM.C339_common",
    "CML.GMM.C339_nearest",
    "CML.GMM.C339_not_convex"
   ],
   "note": "C339_common, C339_nearest; the condition is needed: C339_not_convex; exact arithmetic."
  },
  {
   "property": "C340",
   "status": "partial",
   "theorems": [
    "CML.LDA.C340_mahalanobis_partial",
    "CML.LDA.C340_fit_partial",
    "CML.LDA.C340_violated",
    "CML.LDA.C340_mixture_partial"
   ],
   "note": "For projection functions that solve their equation, as get_w does; false of the Python engine, which uses get_w_v2 (C340_violated), and of the C++ engine (C147)."
  },
  {
   "property": "C341",
   "status": "proved",
   "theorems": [
    "CML.C341_binary",
    "CML.C341_one_class",
    "CML.C341_categorical",
    "CML.C341_mean_squared_error",
    "CML.Metrics.C341_accuracy",
    "CML.LogReg.C341_logistic_regression"
   ],
   "note": "C341_binary, C341_one_class, C341_categorical, C341_mean_squared_error, C341_accuracy, C341_logistic_regression; exact arithmetic."
  },
  {
   "property": "C342",
   "status": "partial",
   "theorems": [
    "CML.DTree.C342_criterion_partial",
    "CML.DTree.C342_gain_partial",
    "CML.DTree.C342_violated",
    "CML.DTree.C342_root_criterion",
    "CML.DTree.C342_root_gain"
   ],
   "note": "True for trees no question of which is tied with another attribute (C342_criterion_partial, C342_gain_partial); the impurity after the first question never depends on the order (C342_root_criterion, C342_root_gain); false with ties, where the first column wins (C342_violated)."
  },
  {
   "property": "C343",
   "status": "partial",
   "theorems": [
    "CML.Small.C343_two_levels_partial",
    "CML.Small.C343_root_value",
    "CML.Small.C343_stump_partial",
    "CML.Small.C343_stump_mistakes",
    "CML.Small.C343_violated",
    "CML.Ada.C343_adaboost_partial"
   ],
   "note": "True for models no question of which is tied with a question about another attribute (C343_two_levels_partial, C343_stump_partial, C343_adaboost_partial: in every round); the number of training mistakes of the stump (C343_stump_mistakes) and the Gini index of the first question of a two-level tree (C343_root_value) never depend on the order; false with ties, where the first column wins (C343_violated)."
  }
 ]
}