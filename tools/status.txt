{
"C01":("proved","All arrays, all draws; mismatch branch included."),
"C04":("proved","Python and C++ versions."),
"C05":("proved","All arrays with >= 1 dimension; the 0-d array raises IndexError (C05_zero_dim). The C++ version agrees when the float32 conversion separates the values; C05_cc_disagrees is a witness that it does not in general."),
"C06":("proved","Exact arithmetic; all kernels, permutations, epochs."),
"C07":("proved","Exact arithmetic."),
"C08":("proved","Early-stop condition is stated with the error value the algorithm uses (true error on the boundary, cached error strictly inside the box)."),
"C09":("partial","Proved in full for the Python function and its use in training. The C++ function violates the claim (C09_cc_wrong); C09_cc_select_second_partial covers the inputs on which it is right."),
"C10":("partial","Proved for states with a coherent error cache; false in general (C10_dual_can_decrease), because of the stale cache."),
"C11":("partial","False in general (C11_cache_stale); proved for samples already inside the box when both updated multipliers were already positive."),
"C12":("proved","Any strictly increasing root; Real.sqrt is one."),
"C13":("partial","Label half proved in full; the mean half is false when a cluster is empty (C13_stop_with_empty_cluster), proved when all labels occur."),
"C14":("proved","Per iteration and for a whole fit."),
"C15":("partial","False: collapse and failure witnesses. Proved: finite centroids, n_clusters or 1; n_clusters when no cluster becomes empty."),
"C16":("partial","False for one cluster or one feature because of np.squeeze; proved otherwise, including all refusals."),
"C17":("proved","For every density that is positive where defined; the density of the code is one (C17_density_positive)."),
"C18":("proved","Runs free of singular covariances; C18_steps_defined shows nothing else can go wrong."),
"C19":("proved",""),
"C20":("proved",""),
"C02":("partial","Proved whenever ConvexHull returns, which is exactly when there are two or more points and only one has the smallest x (C02_returns_iff). Fails otherwise: a second point with the smallest x raises OverflowError (C02_vertical), since the slope np.inf is converted to int32."),
"C03":("partial","Proved for distinct points whenever ConvexHull returns; false with duplicates (C03_duplicates_wrong); with two leftmost points nothing is returned (C02_vertical)."),
"C21":("partial","Proved for attributes the tree tests by value; false for numerical attributes that a subset makes look discrete (C21_numeric_keyError)."),
"C22":("proved",""),
"C23":("proved","Also with continuous attributes; success proved for exact dividing points, with C23_rounding_diverges as the rounding caveat."),
"C24":("proved","Any impurity function; exact arithmetic."),
"C25":("partial","Leaf counts in full; heights are wrong for continuous nodes with two inner branches (C25_height_wrong)."),
"C26":("proved","All trees; success proved for fitted trees."),
"C27":("partial","Leaf counts in full; heights false (C27_height_wrong), proved for level branches."),
"C28":("partial","Completion and heights are false (C28_continuous_fails, C28_unseen_fails, C28_height_wrong); leaf counts proved."),
"C71":("partial","Sum and length proved; non-negativity is not checked by the code (C71_negative_accepted)."),
"C72":("proved",""),
"C56":("partial","False for labels outside {-1,0,1} and for missing labels: such rows are counted as correct (C56_other_label_counted_correct, C56_short_labels); proved for the labels the library uses."),
"C57":("proved",""),
"C73":("partial","False with three classes (C73_three_classes); proved for labels in {-1,0,1}."),
"C29":("proved","C29_single_sample records that with one sample no stump exists."),
"C30":("proved",""),
"C31":("proved",""),
"C74":("proved",""),
"C32":("proved","Every base learner; C32_two_level_trees instantiates the default one."),
"C33":("proved",""),
"C34":("proved",""),
"C35":("proved","C35_zero_sum_nan and C35_negative_sum_flips show what happens without positive sum."),
"C36":("proved",""),
"C75":("partial","False: AdaBoost raises AttributeError, Bagging accumulates; the first fit is right."),
"C76":("partial","False if all rounds have error 1/2 (C76_equal_rows_nan); proved for the default learner as soon as one round has error below 1/2."),
"C37":("partial","False with smoothing if one class is absent (C37_one_class); everything else proved."),
"C38":("proved","Naive Bayes and one-dependent estimators."),
"C39":("proved",""),
"C40":("proved",""),
"C41":("partial","False for naive Bayes if frequencies and first appearance order differ (C41_swapped); proved if they agree, and for one-dependent estimators."),
"C42":("partial","Labels proved; the probabilities are quotients of logarithms and order the classes the wrong way (C42_probability_inverted)."),
"C43":("partial","False (C43_refit_accumulates, C43_witness); the first fit is right."),
"C77":("partial","False unless the variance is 1: the variance is used as standard deviation."),
"C78":("partial","False in general (C78_always_one); proved for discrete columns without common values."),
"C79":("partial","False (C79_all_values); true if the super-parent has one value."),
"C80":("partial","False for columns with one distinct value (C80_single_value); proved otherwise."),
'C44':('proved', 'Also positive on every direction along which the data vary; means are centres of gravity.'),
'C45':('partial', 'True of the deprecated get_w_v1. False of get_w (= get_w_v2) for every non-diagonal scatter matrix (C45_v2_violated, C45_v2_zero) and of the C++ backend (C45_cc_violated); true for diagonal SVD factors and for one feature.'),
'C46':('proved', ''),
'C81':('partial', 'Proved with get_w_v1 (C81_means_classified); false with the shipped get_w (C81_violated).'),
'C82':('partial', 'False (C82_violated); proved: with both classes the model holds the class means.'),
'C47':('proved', 'Gradient and Hessian as Frechet derivatives, for every label vector; for labels 0/1 the loss is the negative log-likelihood.'),
'C48':('proved', ''),
'C50':('proved', 'Exact exponential; see C86 for underflow.'),
'C58':('proved', 'np.log at 0 is outside the model: hypotheses give positive arguments.'),
'C59':('partial', 'False (C59_violated, C59_zero_iff); proved for one sample, non-negativity, and bounds.'),
'C83':('proved', ''),
'C84':('proved', ''),
'C85':('proved', ''),
'C86':('partial', 'False (C86_underflow); proved for matrices of bounded spread.'),
'C87':('partial', 'False of the Python backend (C87_violated); proved: repeating the call gives the same result.'),
'C49':('proved', 'initialiser shapes; forward succeeds on any batch and equals the textbook network; wrong width refused; SGD training of any length keeps all shapes and never raises.'),
'C51':('proved', 'strengthened to the whole network: backward is the gradient of the mean cross-entropy w.r.t. all weights and biases, any depth and batch, away from the ReLU kink; one SGD epoch moves along it.'),
'C52':('proved', 'per array entry (all operations are elementwise) and, C52_network, for whole networks of any depth: every weight and bias follows the textbook Adam sequence of its own gradients.'),
'C88':('partial', "False as stated: C88_not_the_gradient. Proved: for one sample with label 0/1 (the SGD case) the code's gradient is the true gradient times a factor in [3/4, 2]."),
'C89':('partial', 'False as stated: C89_integer_labels_accepted (for every network and class number: no error, never the gradient). Proved: label widths other than 1 and k are refused.'),
'C90':('proved', 'exact arithmetic; overflow is not modelled.'),
'C53':('partial', 'False for beta: C53_beta_ignores_labels (for all data the code uses the gradient of the mean squared prediction), C53_beta_wrong. Proved for w and b.'),
'C91':('partial', 'False: C91_label_vector_refused (for all data). Proved for labels of shape (n,1): training never raises, keeps shapes and centres.'),
'C92':('partial', 'False: C92_two_features_only. Proved for two features.'),
'C93':('proved', ''),
'C54':('proved', 'Also for histories listed several times.'),
'C55':('partial', "Width and monotone filling proved for every rounding; 'full exactly at the last epoch' is false from 26 epochs on (C55_full_too_early); the C++ bar violates it everywhere (C55_cc_violated, C55_cc_never_full)."),
'C94':('proved', 'The update and the evaluation functions are parameters of the loop model.'),
'C95':('partial', 'True for SGD and Adam; false for logistic regression and RBF networks (C95_one_epoch_behind, C95_violated).'),
'C96':('partial', 'False after one verbose fit (C96_violated, for all sequences); proved for optimisers never used verbosely.'),
'C97':('partial', 'Binding proved for values that are not parameter names; omitted arguments hold their own name as a string (C97_omitted).'),
'C60':('proved', 'Also for the polynomial kernel with gamma >= 0; the curvature result holds for every PSD kernel.'),
'C98':('partial', 'False for the default parameters in every dimension: C98_not_psd, C98_negative_curvature. Symmetry and boundedness proved.'),
'C61':('proved', 'Constant and empty data are characterised too (C61_constant).'),
'C62':('partial', 'Variance 1 is false: C62_variance (the variance becomes 1/variance, for all data). Mean 0 and inverse proved.'),
'C63':('proved', 'For fresh and reused encoders; also DummyEncoder.'),
'C64':('proved', 'Also that three classes are merged silently (outside the claim).'),
'C65':('partial', 'Present values undergo a conversion to single precision: C65_precision_lost shows that integers above 2^24 change for every such conversion. Proved in full otherwise (numeric and categorical columns).'),
'C66':('partial', "False: C66_violated ('Yes'/'no'), integer labels other than 0/1 (C66_ints_iff); exact conditions proved (C66_strings_iff, C66_words_iff)."),
'C67':('partial', 'False for negative labels and for numeral strings (C67_violated, C67_strings_violated); exact condition C67_iff.'),
'C99':('partial', 'False: C99_default_axis_refused (all non-square tables), C99_square_wrong_row, C99_violated. Proved for axis=0 and for a single row.'),
'C100':('partial', 'False: C100_stale (all pairs of labels).'),
'C101':('partial', 'False for two integer classes other than 0/1: C101_ints_refused (KeyError). Proved for documented words and for three or more non-negative classes; C101_encode for any agreeing dictionary.'),
'C102':('partial', 'False: C102_tensor_modes, C102_no_labels, C102_classes_forgotten.'),
'C103':('partial', 'False: C103_stale, C103_violated.'),
'C104':('partial', 'False for integer tables: C104_integer_table. Proved for float tables.'),
'C105':('proved', 'Exact arithmetic.'),
'C106':('proved', ''),
'C107':('partial', 'False with fillna=False: C107_overwritten. Proved for the other settings.'),
'C68':('proved', "packaging's parser for the free-text cml_version is a parameter; the regular expression, its leftmost-longest match and the version order are proved against independent specifications."),
'C69':('partial', 'False for get_loss and get_metric: C69_violated, C69_loss_accepts_anything, C69_metric_none. Proved for the other five getters.'),
'C70':('partial', 'False for the decision stump and two-level tree (C70_stump_unguarded: AttributeError). Proved for the 13 guarded classes over all histories of calls.'),
'C108':('proved', 'Also the exact behaviour of initializers (glorot_normal yields XavierNormal).'),
'C109':('proved', 'For all 13 classes; library assumptions: pickle is faithful, packaging reads the version string as at least 0.5; documented backend names, and the loading tree classifier has no pruner unless the saved one had.'),
'C110':('partial', 'False: C110_degree_lost (every degree other than 3), C110_gamma_replaced, C110_metric_lost. Proved for default kernels (C110_default_kernel_partial) and optimizers (C110_optimizer).'),
'C111':('partial', 'False: C111_half_loaded, C111_svc_mixed. Proved for header failures, flags and attributes outside the program.'),
'C112':('partial', 'False: C112_old_content_lost, C112_violated. Other paths are untouched.'),
'C113':('partial', 'False: C113_too_many_samples, C113_too_many_support_vectors for any attribute size limit (HDF5: 64 KB).'),
'C114':('partial', 'False: C114_stale_layers, C114_number_of_components, C114_tree_pruning. Exact result proved (C114_fresh_instance_partial).'),
'C115':('partial', 'False for a tree classifier with loaded weights: C115_loaded_tree_not_trained. Proved otherwise.'),
'C116':('proved', 'Nodes, names, edges, texts, spacing and distinct places, for every fitted, post-pruned and pre-pruned tree. Coordinates are exact.'),
'C117':('partial', 'Proved for every unpruned tree and for post-pruned trees with level branches; false in general after post-pruning (C117_off_canvas), because the recorded height is too small.'),
'C118':('partial', 'The errors always cancel; both samples are on the margin if both multipliers end inside the box. False if only one does (C118_off_margin), because the code always averages the two candidate biases.'),
'C119':('proved', 'For every valid problem; labels must be +1/-1 and C >= 0 (needed for the masks).'),
'C120':('proved', "Exact arithmetic (the 1e-36 floor for underflowing densities is then never used); runs whose covariances stay invertible, as every completed run's do."),
'C121':('partial', 'False for one component or one feature: np.squeeze removes the axis and every array is refused (C121_one_refused). Proved otherwise; the exact condition is C121_exactly. Entries are not validated (C121_not_validated).'),
'C122':('proved', 'Gini over every ordered field, entropy over the reals.'),
'C123':('proved', 'Gini over every ordered field, entropy over the reals, with the equality case.'),
'C124':('proved', 'Exact arithmetic; kernels are parameters. Compiling a trained classifier again makes predict raise TypeError until the next fit (C124_recompiled).'),
'C125':('partial', 'Holds for the first fit (C125_first_fit_partial). False for later ones: fit replaces gamma by its value and the kernel name by an instance, so the old kernel is used for new data (C125_refit_stale).'),
'C126':('partial', 'True for +1. False for -1: every prediction is +1 (C126_negative_class_lost).'),
'C127':('proved', "The rounding of the keys '>= {:.3f}' is not modelled (branches are addressed by side)."),
'C128':('proved', 'When pre-pruning completes at all, which C28 shows to be false for continuous attributes; it may lower the score below that of the unpruned tree (C128_may_lower).'),
'C129':('proved', 'For every majority rule that returns a most frequent label.'),
'C28':('partial', 'False: IndexingError for continuous nodes, KeyError for unseen values, wrong heights. Proved: leaf counts, heights are never too low (C28_height_not_low_partial), and every kept bottom node has height 2 instead of 1 (C28_bottom_height).'),
'C130':('proved', 'Exact arithmetic. In the code comments the ReLU derivative is said to differ from the true one; it does not.'),
'C131':('proved', 'Rows are given as arrays; a DataFrame row is selected by column name (not modelled). Attribute names are supposed distinct.'),
'C132':('partial', "Pairs and refusals proved; uniformity is false: true only if the number of rows divides 2^30 (Linux), and rows beyond 16384 are never drawn on Windows. Eigen's integer Random is taken as rand() minus 2^(bits-1)."),
'C133':('partial', 'A defined C++ result is always the Python result; false when a centroid loses all its samples: Eigen does not broadcast, so the C++ behaviour is undefined where Python collapses or raises.'),
'C134':('partial', 'Agreement for two or more features and clusters; false for one feature, for fractional indices and for matrices whose size happens to be the number of clusters.'),
'C135':('proved', 'Exact arithmetic; marks 0 and 1.'),
'C136':('partial', 'False when one matrix has one row and the other none.'),
'C137':('proved', 'Exact arithmetic (the cast to 32 bits is left out); sizes are numpy integers.'),
'C138':('partial', 'Holds for networks; false for logistic regression, where the factor is sqrt(d).'),
'C139':('partial', "Holds only if the parameters are made directly after compiling: constructing an initialiser seeds numpy's global generator and calling it does not."),
'C140':('partial', 'Holds as long as only even-sized matrices have been drawn; false after an odd number of draws.'),
'C141':('partial', 'Holds for the Python engine; in the C++ engine every layer repeats the same numbers.'),
'C142':('partial', 'Agreement for matrices of one shape and, for the cross-entropies and the log-likelihood, label vectors. False for MeanSquaredError with a label vector (factor n^2), for prediction vectors, class numbers and BinaryCrossentropy of several columns.'),
'C143':('partial', 'False: correct certain predictions give NaN (0 * log 0) in both engines; the binary loss is finite exactly when all predictions lie strictly between 0 and 1.'),
'C144':('partial', 'One row against many and many rows of at least two features against one agree. False with one feature (C++ training calls are undefined or refused), for Gram matrices of several rows (flattened) and without support vectors.'),
'C145':('partial', 'Agreement on matrices of one shape; false for vectors (softmax, label vectors) and for a smaller second argument of Relu.diff.'),
'C146':('partial', 'The setting is read as documented; false for the C++ engine, which switches to 32 bits whenever an argument holds integers, as labels do.'),
'C147':('partial', 'Scatter, means and the one-feature predictions agree. The vector solves the equation in no dimension when the scatter stretches (or shrinks) every vector; for two uncorrelated features it is the scatter times the difference, off the textbook line; a separable data set is misclassified.'),
'C148':('partial', 'Agreement when rounding to float32 changes nothing and first characters determine the strings. False for words with the same first letter, numbers that round to integers, out-of-range floats, bool and unsigned arrays.'),
'C149':('partial', 'Closed left-turning chain always; agreement with Python (no second point on the vertical line through the leftmost) and enclosure for pairwise different slopes below the largest float. False for points straight above the leftmost (C149_vertical: Python raises), collinear points under an unstable sort and for slopes beyond the largest float.'),
'C150':('partial', 'Agreement below the range of the integer type; the density and the differences agree always. Counts that wrap around give estimates above 1.'),
'C151':('partial', 'Proved for timer and memory_monitor (every function, effect and exception), and for average_timer on functions without effect. Fails otherwise: average_timer repeats effects (C151_effects_repeated), and with repeat <= 0 never calls the function and raises ValueError (C151_never_called). C151_average_timer_partial says exactly what average_timer does.'),
'C152':('proved', 'Numbers before the rounding for printing; exact arithmetic.'),
'C153':('partial', 'Proved: refusal, samples, feet of the perpendiculars and the nearest-centre reading (two features, w0 != 0). Fails: w0 = 0 (no finite slope, nothing drawn: C153_vertical), falling directions w0*w1 < 0 lie outside the fixed window (C153_invisible), three or more features (C153_three_features).'),
'C154':('partial', 'Proved for two features with non-zero second weight. Fails: second weight 0 (vertical line not drawn, C154_vertical); three or more features are drawn silently with the third weight as intercept (C154_more_features); one feature raises IndexError (C154_one_feature).'),
'C155':('partial', 'Proved: exactly when the figure is drawn (C155_drawn_iff) and what the lines then are (C155_outlines_partial, C155_centroid_inside). Fails for clusters of one sample (C155_single_sample, C155_trained_not_drawn), for instances whose n_clusters is not that of the loaded weights (C155_loaded_fewer, C155_loaded_more), and data outside the unit square is not visible (C155_invisible).'),
'C156':('proved', 'About the data handed to matplotlib.'),
'C157':('partial', 'Proved: when it is drawn, what the raster, the rings and the markers are, and that a drawn boundary is near a zero of a continuous decision function. Fails outside of the fixed window [0, 1] × [0, 0.8] (C157_window, C157_window_witness) and, with IndexError, for other samples (C157_other_samples).'),
'C158':('partial', 'Proved: the raster of the ensemble and of each estimator (C158_drawn, with C158_bagging and C158_adaboost). Fails outside of the fixed window [0, 1]² (C158_window).'),
'C159':('partial', 'Proved for two continuous attributes (C159_naive_bayes_partial, C159_spode_partial). Fails with KeyError as soon as an attribute was taken for discrete (C159_discrete), and for any number of attributes other than two (C159_refused).'),
'C160':('partial', 'Proved for the float models with any container (C160_float_models_partial), LDA and logistic regression from two rows on, network and ensembles on arrays, trees and naive Bayes on arrays and tables. Fails for one row in LDA and logistic regression (a number comes back, C160_one_row), for lists and tables in the network and the ensembles (C160_array_models_refuse), for lists of rows in trees and naive Bayes (C160_tree_lists, C160_tree_lists_raise).'),
'C161':('partial', 'Proved for k-means, GMM, LDA, the network, trees and naive Bayes. Fails for logistic regression, the SVC (C161_flat_svc: with the Gaussian kernel one answer per entry), the RBF network (one copy per entry), the ensembles and SPODE (C161_flat_refused), and mixed lists (C161_flat_mixed).'),
'C162':('partial', 'Proved for both Bayesian classifiers and for fit of decision trees (C162_by_name_partial). Fails for predict of decision trees, which takes columns by position (C162_tree_by_position).'),
'C163':('partial', 'Proved for labels in arrays (C163_array_labels_partial, C163_one_hot_partial). Fails for lists and Series (C163_list_labels), tables (always 1: C163_table_labels; one-hot: KeyError), one row (C163_one_row) and integer labels of multi-output models (C163_integer_labels).'),
'C164':('partial', 'Proved for the linear, polynomial and sigmoid kernels, and for one row against many with the Gaussian kernel. Fails for the Gaussian kernel on two sets of rows: only the diagonal comes back (C164_gaussian_diagonal), or ValueError (C164_gaussian_sizes).'),
'C165':('partial', 'Proved when the name is a column, whatever the history (C165_named_super_parent_partial), and on the first fit (C165_unknown_name_partial). Fails after an earlier fit: the unknown name is accepted and the former position is used (C165_unknown_name_accepted); C165_position_has_a_reason says exactly where the position comes from.'),
'C166':('partial', "Proved for distinct names other than 'p_c_xi' (C166_names_do_not_matter_partial, C166_renaming_partial). Fails for an attribute called 'p_c_xi' (C166_reserved_name: TypeError) and for equal names (C166_equal_names)."),
'C167':('partial', 'Proved for SGD on a loaded network (C167_sgd_loaded_partial). Fails for every network that was not loaded (fit starts from fresh parameters, C167_fit_restarts), and for Adam on every one-layer network (C167_adam_violated): each call restarts the moments and the epoch counter.'),
'C168':('partial', 'False: two classes of answer words lose their names (C168_words_second_load, exact condition C168_two_classes_iff), EVERY frame with eleven or more word classes has classes merged by the second load (C168_eleven_classes), integer classes are renumbered in place (C168_ints_iff). Proved: same y for three to ten word classes (C168_ten_classes_partial), nothing changes for test or unsupervised sets and two-class integers (C168_unchanged_partial). Feature columns with fillna=False: see C107.'),
'C169':('partial', 'False: C169_shared_seed (the default is computed once, at import). Proved: an explicit seed is used (C169_explicit_seed_partial).'),
'C170':('partial', "False of the row labels: without attribute names pd.DataFrame(frame) shares the caller's table and reset_index(inplace=True) relabels it, C170_fit_relabels, C170_predict_relabels, C170_labels_relabelled, C170_validation_relabelled; rows and labels of a pair filtered alike no longer match, C170_pairs_broken. Proved: values and names are kept by every sequence of calls (C170_values_kept_partial); with attribute names the frames are untouched (C170_fit_with_names_partial, C170_predict_partial)."),
'C171':('partial', 'False for all classes but AdaBoost. LogisticRegression: C171_logistic_failed, C171_logistic_forgets (collinear data: the parameters are now random ones), C171_logistic_other_width. LDA: C171_lda_failed (old projection, new means), C171_lda_two_samples, C171_lda_changed. KMeans: C171_kmeans_forgets, C171_kmeans_changed. GaussianMixture: C171_mixture_failed. NaiveBayes: C171_bayes_failed, C171_bayes_changed. Bagging: C171_bagging_failed, C171_bagging_changed. Network: C171_network_failed, C171_network_forgets. Proved: AdaBoost (C171_adaboost_partial), errors found before the first assignment (C171_lda_lengths_partial, C171_kmeans_init_partial, C171_mixture_means_partial, C171_bagging_first_partial, C171_logistic_loaded_partial).'),
'C172':('partial', 'False for the ensembles: C172_bagging_trace, C172_adaboost_trace, C172_adaboost_first_round, and for k-means with epochs=0 (C172_kmeans_no_epoch). Proved for logistic regression, LDA, k-means with at least one epoch and naive Bayes (C172_*_partial).'),
'C173':('partial', 'False for the models with an optimizer: C173_network_half (new structure, old optimizer), C173_next_fit (the next fit trains the refused structure), C173_metric_half, C173_rbf_half, C173_violated. Proved for DecisionTreeClassifier (C173_tree_partial); for the others the parameters, marks, seed and metric survive (C173_kept_partial).'),
'C174':('partial', "False: C174_violated (wrong optimizer, misspelt metric), C174_more_refused (loss 'log_likelihood', no layers, negative number of units). The exact set of configurations that can be trained is proved: C174_logistic_partial, C174_network_partial, C174_rbf_partial, with C174_exclusive. Errors from the shapes of losses and metrics are excluded by Watch.Clean."),
'C175':('proved', ''),
'C176':('partial', 'False when the new optimizer is made for another family (C176_violated: predict then raises for every x); proved within a family (C176_kept_partial).'),
'C177':('partial', 'False for a second compile and fit on one instance of LogisticRegression and BackPropagationNeuralNetwork: C177_second_compile, C177_violated. Proved for new instances (C177_fresh_partial) and for RBF networks always (C177_rbf_partial).'),
'C178':('partial', 'False: C178_user_seed_ignored, C178_violated. Proved when an initializer object is passed (C178_object_partial).'),
'C179':('proved', 'the bound is n_clusters ^ n_samples + 3 epochs; C179_negative_tolerance shows that the hypothesis on the tolerance is needed'),
'C180':('proved', ''),
'C181':('proved', 'C181_centroid_order_matters: the order of the initial centroids does matter when a cluster is empty'),
'C182':('proved', 'on the decision boundary itself both models answer 1'),
'C183':('proved', "C183_one_origin: with gamma='scale' the offsets must be the same for all features"),
'C184':('proved', ''),
'C185':('proved', 'C185_gradient_descent_depends_on_units: gradient descent has no such invariance'),
'C186':('proved', ''),
'C187':('proved', ''),
'C188':('proved', ''),
'C189':('proved', 'under the stated condition that the kind of no column changes; C189_whole_numbers shows that the condition matters'),
'C190':('proved', ''),
'C191':('proved', ''),
'C192':('partial', 'proved with the exact formula get_w; the shipped backend get_w_v2 only does not depend on the origin (C192_origin_partial): the order of the features changes its answers, C192_violated'),
'C193':('proved', ''),
'C194':('proved', ''),
'C195':('proved', ''),
'C196':('partial', "Proved: minutes, seconds (up to '60s'), elapsed time. False: the last half second before a minute reads 60s (C196_sixty); ms/step divides by all epochs, not by those done (C196_per_step); the C++ bar counts whole seconds and drops leading zeros (C196_cc_whole_seconds, C196_cc_no_leading_zero)."),
'C197':('partial', 'Exact condition C197_line_iff (no earlier line was longer) and C197_finished. False whenever the remaining time falls below a minute (C197_violated): the end of the old line stays, e.g. the metric 0.9500 reads 0.950099.'),
'C198':('partial', 'Proved for the Python engine (C198_python). The C++ engine cuts the digits: error up to a whole unit (C198_cc_partial), C198_violated.'),
'C199':('partial', 'False: C199_whole_numbers (a column of whole numbers with a gap: ValueError), C199_text_gap_first (a text column with a gap before the first word: TypeError). Every other file loads and is complete (C199_loads_partial).'),
'C200':('partial', 'True exactly for numbers of at most 32 (64) bits (C200_whole_iff); larger ones are silently reduced modulo 2^32 (C200_violated).'),
'C201':('partial', 'False for every file that holds only whole numbers, also written 1.0 (C201_violated: ones at the maximum, zeros elsewhere). Proved for files with a column that is not whole (C201_mixed_partial with C104_float_partial).'),
'C202':('proved', 'Gradient descent, Newton, SGD, Adam and the RBF optimiser; loaded weights; predict of the three families with the explicit logistic formula. Rounding is left out; watched training assumes that computing loss and metric does not raise (Watch.Clean), the exceptions otherwise are C174_watched.'),
'C203':('proved', 'Exact arithmetic.'),
'C204':('partial', 'False: C204_violated (for all data with positive variance the values are the same iff a = 1; they are divided by a, C204_units). Proved: independence of the origin and of the order (C204_origin_partial, C204_order_partial).'),
'C205':('proved', ''),
'C206':('proved', 'Exact arithmetic; in floating point the sums may round differently.'),
'C207':('partial', 'False: C207_witness (three samples, for every order value_counts may return, with and without smoothing). Proved: for continuous columns and for discrete columns whose values appear most frequent first in both orders (C207_sorted_partial).'),
'C208':('proved', 'Up to which exception is raised.'),
'C209':('proved', 'A freshly created estimator; exact arithmetic.'),
'C210':('partial', 'False: C210_witness. Proved when every column can serve as super-parent (C210_all_parents_partial).'),
'C211':('proved', 'Exact arithmetic; labels with one column per output.'),
'C212':('proved', 'Exact arithmetic.'),
'C213':('proved', 'Exact arithmetic; two features (the only number the optimiser accepts, C92) and labels of shape (n, 1) (C91).'),
'C214':('partial', "exact: C214_double_iff, C214_refused_iff, C214_rest_single for '64-bit', C214_single_everywhere for '32-bit'; false for '64-bit' (C214_violated_*): the SVC's violations and clipping, the stopping tests of both clusterings, all losses and metrics, the multi-class gradient and the initial RBF weights run in single precision. Casters are those of pybind11 2.9-2.11."),
'C215':('proved', 'for all argument tuples; what each caster takes is modelled from pybind11, not from /repo'),
'C216':('partial', "false for '64-bit' with C = 0.1 (C216_violated); exact condition C216_box_iff; C216_box_partial when the bounds are representable"),
'C217':('partial', 'exact condition C217_labels_iff; holds for the bagging call (C217_bagging); false for lists and for labels of another width (C217_violated)'),
'C218':('partial', "false for the naive Bayes classifier in '64-bit' (C218_violated, every count); C218_partial for '32-bit' and the one-dependent estimators"),
'C219':('partial', 'false (C219_violated_*); C219_version_partial without NumPy integers'),
'C220':('proved', 'Exact classification for each binding. Consequences shown in examples: a Python tolerance always means single precision; float32 data with more than 2^32 clusters runs in double precision; compare_differences accepts None.'),
'C221':('partial', 'Proved: shapes and values of all four entries, weights/threshold/centres reproducible always, beta reproducible after an even number of hidden units. False in general: with an odd number of hidden units the second network of the same seed gets a shifted beta (C221_violated, C221_not_reproducible).'),
'C222':('partial', "Proved for the Python engine. False on the C++ engine: both matrices are drawn from engines seeded with the same number, so beta is the stretched image of the centres' first coordinates (C222_violated)."),
'C223':('partial', 'Proved for the C++ engine in full (attributes are read-only copies) and for the Python engine for programs that leave the lists alone. False on the Python engine: appending to history.loss changes the history (C223_violated).'),
'C224':('partial', 'Proved for the C++ engine. False on the Python engine, where the list grows with later training (C224_violated).'),
'C225':('partial', 'Proved for positional calls with numbers, the only calls the optimisers make. False for keyword arguments (the C++ binding names its second parameter metric_name) and for assigning the lists (C225_violated).'),
'C226':('partial', 'Proved for the exact projection function (`get_w`, `get_w_v1` of the backend), including uniqueness and at the level of fit. False of the function that `fit` uses on both engines: Python for every training set with correlated features and some distance of the classes (C226_python_violated), C++ for all data with two uncorrelated features of different spread whose centres differ in both (C226_cc_violated); proved on the Python engine for diagonal factors.'),
'C227':('partial', 'Proved: whenever all samples pass their KKT test with their true errors the result is optimal up to tol (C227_optimal_partial), and so at an early stop with up-to-date cache and no stuck sample. False in general: on coarse data training stops by itself with all multipliers 0, which is never near-optimal (C227_violated, for every such data set).'),
'C228':('partial', 'Exact characterisation (C228_idle_exact): training is idle iff tol >= 1 or the data are coarse, i.e. all pairs of samples of different labels have squared feature-space distance 0 or above 200000, or C < 1e-5. Otherwise proved (C228_learns_partial). So the claim is false for unscaled data and for small C (C228_unscaled_violated, C228_small_C_violated).'),
'C229':('partial', 'Proved for all problems whose cached errors are right in every reachable state (C229_ends_partial; met e.g. by two points). False in general: three separable points on a line, linear kernel, default C and tol: training never returns, whatever the permutations (C229_never_ends, C229_fit_never_returns).'),
'C230':('proved', 'Any rounding of the dividing points is allowed, since a one-sided split makes fit raise.'),
'C231':('partial', 'False when attributes are tested by value (C231_violated: 5 samples, 7 leaves). Proved for trees without such tests, and in general the bound samples times the product of the numbers of values (C231_bound).'),
'C232':('proved', 'True leaf counts and depths (the recorded height is the subject of C27 and C28).'),
'C233':('partial', 'False (C233_violated): from all initial parameters with large scores on four noisy rows, every epoch increases the loss, without bound. Proved for epochs that change no score by more than 1 (strictly smaller loss unless nothing changes).'),
'C234':('partial', 'Exactly characterised (C234_newton_succeeds_iff): an epoch succeeds iff attributes and constant are linearly independent. Otherwise every fit with at least one epoch raises (C234_violated), e.g. with fewer samples than parameters or a constant or repeated attribute (C234_dependent). Exact arithmetic: rounding may turn a singular matrix into a nearly singular one.'),
'C235':('proved', 'Exact arithmetic.'),
'C236':('proved', 'Exact arithmetic. The first epoch moves every entry by less than learning_rate (C52_first_step).'),
'C237':('proved', 'Exact arithmetic.'),
'C238':('partial', 'False (C238_violated): with one attribute of size a and learning_rate*a^2 > 2 (a = 15 for the default), an epoch increases the loss arbitrarily close to the best parameters, and training from some initial parameters alternates for ever between two parameter vectors. Proved (C238_small_rate_partial) for learning_rate <= 4 / sum(|x_i|^2 + 1).'),
'C239':('partial', 'Exactly characterised. False on flat data, i.e. if a linear combination of the attributes is constant (C239_violated, for all of them; C239_flat: constant or repeated attribute, at most as many samples as attributes): the first epoch makes all covariances singular and the second, or predict, raises LinAlgError. Otherwise training always succeeds and the covariances stay positive definite (C239_trains_partial). Exact arithmetic.'),
'C240':('partial', 'False in general (C240_violated: on coarse data all samples of label -1 are misclassified without any support vector). Proved for states in which all samples pass their KKT test with their true errors (C240_margin_partial, C240_error_count_partial, C240_classifier_partial; see C227 for when a stop implies that).'),
'C241':('proved', 'Exact arithmetic.'),
'C242':('proved', 'Exact arithmetic.'),
'C243':('partial', "Proved for k-means (fit and predict) and the RBF support vector classifier with a numeric gamma. False for gamma='auto' (C243_auto_gamma_violated: other kernel value for every pair of different rows) and for Newton's method and Gaussian mixtures, which then raise on every data set (C243_violated); naive Bayes raises too (C80_single_value). Trees, networks and gradient descent are not covered."),
'C244':('partial', 'Proved for the min-max scaler (data with two different values) and the imputer (every table, if converting a converted number changes nothing). False for the standard scaler: the second call undoes the division of the first, the result is the same only when the variance was 1 (C244_standard_violated, all data with positive variance).'),
'C245':('partial', 'Proved for naive Bayes and the one-dependent estimator, for every attribute its own renaming, and for the averaged estimator when all attributes use the same renaming. False for the averaged estimator otherwise (C245_witness): the values of one attribute are compared with those of another.'),
'C246':('partial', 'The origin is proved irrelevant for all three classifiers (for the averaged one if discrete values are not numbers). The unit matters for naive Bayes: closed form of the answer in every unit (C246_answer, exact arithmetic) and the exact condition under which it changes with the unit (C246_violated_iff).'),
'C247':('proved', "C247_mixture_step and C247_mixture for mixtures of any shape and any density; C247_kmeans for k-means (for every reference point). C247_start_kept: the alternative 'start returned unchanged' occurs."),
'C248':('partial', 'False: rows are drawn with replacement (C248_repeated_draw: a draw with two equal and two different rows raises ValueError in the first epoch, for all data; C248_draws: at most n(n-1)...(n-k+1)+n of the n^k draws do not raise; C248_one_row_drawn: if all draws are one row every sample lands in cluster 0). C248_all_rows_partial: distinct rows covering all samples train in one epoch with cost 0.'),
'C249':('proved', 'C249_order, including the exceptions.'),
'C250':('proved', 'C250_coords, including the exceptions.'),
'C251':('proved', "C251_same_set and C251_corners, with Mathlib's convexHull as specification, duplicates included."),
'C252':('proved', 'C252_gd_at_rest, C252_newton_at_rest, C252_average (any learning rate), C252_total_error, C252_calibrated.'),
'C253':('proved', 'C253_sgd, C253_adam, C253_all_silent, C253_initial.'),
'C254':('partial', "True with Newton's method (C254_newton). False with gradient descent: r copies act as a learning rate r times as large (C254_gradient_descent_partial), so one epoch agrees only if it does not move (C254_gradient_descent_false)."),
'C255':('proved', 'C255_inverse, C255_python, C255_cc, C255_predictions. For the two SVD versions the decomposition of a multiple is assumed to have the same singular vectors.'),
'C256':('proved', 'C256_kmeans, C256_mixture.'),
'C257':('proved', 'C257_gini, C257_entropy_gain; the majority label and the type of a column are assumed not to depend on the copies.'),
'C258':('partial', 'False (C258_stump_false). Proved: copies never make it worse (C258_never_worse_partial); with two or more copies it is the best of all threshold rules (C258_copies_beat_every_rule_partial).'),
'C259':('partial', 'True without smoothing (C259_unsmoothed_partial). False with smoothing (C259_smoothed_false; the estimates agree iff C259_smoothed_iff).'),
'C260':('proved', 'C260_binary_accuracy, C260_categorical_accuracy, C260_standard, C260_min_max.'),
'C261':('proved', ''),
'C262':('proved', ''),
'C263':('proved', ''),
'C264':('proved', ''),
'C265':('proved', 'LDA, k-means, logistic regression, bagging and AdaBoost.'),
'C266':('partial', 'Proved for LDA and k-means, and for load_weights everywhere; logistic regression only without an earlier load, bagging and AdaBoost only without earlier members.'),
'C267':('partial', 'Rotations and reflections: proved for all inner-product kernels. Origin: proved for the optimisation problem; false for the training.'),
'C268':('partial', 'What the classifier can represent is proved: a constant plus a form of degree p.'),
'C269':('partial', 'Proved for the optimisation problem; false for the training.'),
'C270':('proved', 'For runs that came to rest; C84/C233-C238 say when they do.'),
'C271':('proved', 'Probabilities strictly between 0 and 1 (otherwise the loss is not finite).'),
'C272':('partial', 'Proved for seeds that are at least as far apart as the ensembles are large.'),
'C273':('proved', 'Bagging and AdaBoost.'),
'C274':('proved', 'Exact arithmetic.'),
'C275':('proved', 'For every rounding in the sense of IsRounding; IEEE round to nearest is one (f32_isRounding, f64_isRounding). No overflow.'),
'C276':('partial', 'The minimum is restored and the order kept; the other values need not be restored.'),
'C277':('partial', 'Proved for rows whose exponentials do not all underflow, in particular for a single row and the row with the largest entry; exactly which rows fail is proved for single precision.'),
'C278':('partial', 'Non-negative and ordered always, at most 1 in one format, total within explicit bounds of 1; or all NaN if everything underflows.'),
'C279':('partial', 'Proved for multiples of 2^-k.'),
'C280':('partial', 'Proved whenever the stored dividing points separate; otherwise exactly the recursion fails.'),
'C281':('partial', 'Range and monotonicity (not strict).'),
'C282':('partial', 'Within explicit multiples of the rounding error, unless the computed bounds cross.'),
'C283':('proved', 'For every rounding with errors small against 1/n; double precision up to 2^50 samples.'),
'C284':('partial', 'Order kept; equal values for arrays of one or two.'),
'C285':('partial', 'proved for integer coordinates up to 1448 (single precision) and 33554431 (double precision): same result as exact arithmetic; for every rounding: closed chain of input points, returned for the same sets. False in general (C285_right_turn, C285_outside)'),
'C286':('partial', 'Nearest up to the factor ((1+u)/(1-u))^(depth+5) of the squared distance and underflow; found if clearly nearest. Exactly false (C286_second_nearest, C286_own_centroid).'),
'C287':('partial', 'Explicit error bound for all clusters; between the samples for clusters of one or two. False for three equal samples (C287_outside).'),
'C288':('proved', ''),
'C289':('proved', ''),
'C290':('partial', 'C290_gini_partial, C290_entropy_partial, C290_gain_partial: proved if storing the dividing point does not change it (library precision at least that of the columns). C290_lost: 64-bit values 1 and 1+2^-30 in 32-bit mode exceed every recursion limit although one comparison separates them.'),
'C291':('partial', 'C291_partial: holds for every rounding unless the farther value gets the constant 1e-36 and the nearer one a smaller number. C291_far_beats_near (single) and C291_far_beats_near_double: fails for every mean and every variance up to 2^100.'),
'C292':('partial', 'C292_exact_partial: holds without rounding. C292_rounded_partial: in every rounding class 0 is only predicted for values nearer to its mean if no density is replaced. C292_nearer_loses: in single precision, for all such data with means at least 8 variances apart, an interval of values on the far side of the mean of class 0 is classified as 1.'),
'C293':('proved', ''),
'C294':('partial', 'C294_perfect_fit_lost: fails for every perfect network with non-negative labels, a unit of non-zero weight and a sample of positive label away from its centre, for every positive learning rate: the error rises from 0. C294_zero_weights_partial: holds for networks whose output weights are zero (fresh ones).'),
'C295':('partial', 'C295_confident_nan: fails for every right answer with a logit of 18 or more (NaN in both engines, whatever the other samples). C295_confident_infinite: infinite for a wrong one. C295_moderate_partial: holds while all logits lie between -16 and 16.'),
'C296':('proved', ''),
'C297':('partial', 'C297_file_parameters: a fit after load_weights always trains with the parameters of the file, for every earlier compile; C297_violated: with different answers on the training samples. C297_compiled_partial: C and tol are used as long as no file is loaded, the kernel by the first fit after compile (C125_refit_stale: later fits keep gamma and kernel of the first).'),
'C298':('proved', ''),
'C299':('partial', 'C299_near_partial: any number of attributes, rows with n (x - mean)^2 <= (n + 1) variance in each attribute. C299_turned_away: fails for ALL pairs of classes of n >= 2 samples with equal variance v and means 2 D apart, 4 (n + 1) v <= D^2 <= v^2: the value half way is answered 1, and 0 once it is learned as 1.'),
'C300':('proved', 'np.random.choice is taken to draw all index arrays with equal probability; the theorems are about the sums over all of them.'),
'C301':('proved', ''),
'C302':('partial', 'C302_best_partial: best of all if no remaining inner node would be right more often as a leaf; C302_small_partial: in particular if the result is a leaf or a node with leaves only. C302_violated: a fitted tree where post-pruning keeps a tree with 1 of 4 validation rows right although the leaf at the root has 3 right.'),
'C303':('partial', 'C303_dot_partial: error bound for every order and fusing. C303_svc_partial, C303_linear_partial, C303_logistic_partial, C303_logistic_f32_partial: the class is right if the exact value exceeds the explicit bound. C303_svc_wrong, C303_logistic_wrong: single precision cases where it is not.'),
'C304':('partial', 'C304_clear_partial: right if the distances differ by more than the explicit bound. C304_wrong: a single precision case with the farther class.'),
'C305':('proved', 'C305_margins: the product bound for every learner; C305_rate: exponential rate for the default learner; C305_all_margins: all margins above theta after enough rounds.'),
'C306':('proved', 'C306_bagging, C306_bagging_perfect, C306_boosting; C306_worse_than_all shows that a factor above 1 is needed: an ensemble can be worse than each member.'),
'C307':('proved', 'C307_boxes, C307_fit (at most as many boxes as samples), C307_between.'),
'C308':('proved', 'C308_leave_out, C308_add, C308_support_needed. That training reaches multipliers optimal up to the tolerance is C227 (partial).'),
'C309':('proved', "C309_contradiction, C309_equal_rows, C309_iff. The rule for continuous columns is a parameter of which only 'a column with a value that is no integer is continuous' is used."),
'C310':('proved', 'C310_means, C310_halfspaces, C310_range, C310_one_point.'),
'C311':('partial', 'Proved for non-negative (bounded) and positive (far) widths; false in general: C311_unbounded, C311_first_epoch.'),
'C312':('proved', 'C312_ready.'),
'C313':('partial', 'Proved for instances that never loaded a file (C313_fresh_partial) and for files with at least as many layers (C313_load_partial); otherwise false: C313_structure_ignored, C313_continues, C313_layers_left, C313_violated.'),
'C314':('proved', 'C314_ready. Simplification: in an incomplete file p_0 and p_1 are missing together.'),
'C315':('partial', 'Proved for compile and fit, and for load; false for compile after fit: C315_compile_after_fit.'),
'C316':('proved', 'C316_ready. Tree generation, pruning and prediction are parameters (modelled in Tree); tables are assumed to fit the attribute names.'),
'C317':('partial', 'Proved for instances that never loaded a file (C317_fresh_partial) and for loads that complete (C317_load_partial); otherwise false: C317_refused, C317_data_ignored, C317_load_then_fit.'),
'C318':('partial', 'Proved for RBF networks (C318_rbf); for mixtures C318_mixture_partial says exactly when predict stops refusing; the property is false for them: C318_mixture_violated.'),
'C319':('partial', 'Proved for mixtures, and for RBF networks that never loaded a file or load one; false for compile and fit of RBF networks after a load: C319_rbf_ignored, C319_rbf_violated.'),
'C320':('partial', 'Proved: refused at every point of interruption for all models but the two networks, and for these until the weights are written (C320_refused_partial). False for the networks (C320_network_indistinguishable, C320_network_accepted), and the old model is lost (C320_neither_old_nor_new). Files that the HDF5 library itself leaves unreadable are not modelled.'),
'C321':('proved', 'Both criteria (impurity minimum, information gain). The repetition must stand behind the original: in front of it a tie with a third attribute can be decided differently (example in Props/TreeTwice).'),
'C322':('proved', 'Stump, two-level tree and AdaBoost over its default learner.'),
'C323':('proved', 'Exact arithmetic. For gradient descent the initial parameters correspond by merge, which is onto (C323_merge_onto).'),
'C324':('partial', "False for Newton's method, Gaussian mixtures with the default covariances (C324_violated) and discriminant analysis (C324_lda_violated), for every data set. True for stumps, two-level trees and AdaBoost (C324_small_trees_partial). Exact arithmetic: in floating point the smallest singular value can come out as a tiny number instead of zero, and the direction is then arbitrary."),
'C325':('proved', 'C325_spode, C325_spode_fit, C325_aode. Attribute names given to the constructor and distinct.'),
'C326':('partial', 'Proved for the first training (C326_spode_first_partial; for the averaged estimator also after loads, C326_aode_first_partial), for loads (C326_spode_load_partial, C326_aode_load_partial) and compile (C326_spode_compile); false otherwise: C326_spode_fit_adds, C326_spode_stale, C326_spode_never_drops, C326_spode_witness, C326_aode_fit_adds, C326_aode_failed_fit, C326_aode_witness.'),
'C327':('proved', 'C327_binary_accuracy (both engines), C327_score, C327_categorical_accuracy, C327_binary_crossentropy, C327_categorical_crossentropy, C327_crossentropy, C327_log_likelihood.'),
'C328':('partial', 'C328_mean_squared_error_partial: it holds exactly if one batch has total residual zero; false otherwise (C328_witness).'),
'C329':('partial', 'C329_counted_twice is the exact law; C329_supported_partial: answers that the attribute supports do not change; false otherwise (C329_witness).'),
'C330':('proved', 'C330_lda, C330_kmeans, C330_mixture, C330_rbf, C330_network, C330_nb, C330_spode, C330_aode, C330_tree, C330_svc; unknown names: C330_tree_unknown, C330_svc_unknown.'),
'C331':('proved', 'C331_columns, C331_no_super_parent, C331_tree, C331_networks. The averaged estimator is not part of it: see C326_aode_failed_fit.'),
'C332':('partial', 'C332_idempotent_partial for the vertices without the repeated first one, C332_inner_points; false for the closed chain that is returned: C332_closed_refused.'),
'C333':('proved', 'C333_softmax, C333_losses, C333_decision; exact arithmetic.'),
'C334':('proved', 'C334_kmeans, C334_logistic (with the exact radius), C334_lda, C334_svc_rbf, C334_tree, C334_tree_training, C334_stump; exact arithmetic.'),
'C335':('proved', 'C335_same_answers, C335_constant_refused; for data on which naive Bayes attaches its counts to the right values (C41), the super-parent as first column.'),
'C336':('proved', 'C336_separated; the start matters: C336_bad_start; exact arithmetic.'),
'C337':('partial', 'C337_discrete_partial for discrete attributes whose values appear in the order of their frequencies; false for continuous attributes: C337_witness.'),
'C338':('proved', 'C338_fades, C338_shrinks; exact arithmetic, densities rounded.'),
'C339':('proved', 'C339_common, C339_nearest; the condition is needed: C339_not_convex; exact arithmetic.'),
'C340':('partial', 'For projection functions that solve their equation, as get_w does; false of the Python engine, which uses get_w_v2 (C340_violated), and of the C++ engine (C147).'),
'C341':('proved', 'C341_binary, C341_one_class, C341_categorical, C341_mean_squared_error, C341_accuracy, C341_logistic_regression; exact arithmetic.'),
'C342':('partial', 'True for trees no question of which is tied with another attribute (C342_criterion_partial, C342_gain_partial); the impurity after the first question never depends on the order (C342_root_criterion, C342_root_gain); false with ties, where the first column wins (C342_violated).'),
'C343':('partial', 'True for models no question of which is tied with a question about another attribute (C343_two_levels_partial, C343_stump_partial, C343_adaboost_partial: in every round); the number of training mistakes of the stump (C343_stump_mistakes) and the Gini index of the first question of a two-level tree (C343_root_value) never depend on the order; false with ties, where the first column wins (C343_violated).')
}
