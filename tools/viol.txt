C05|the C++ type_of_target compares float32 values, so distinct float64 values can collapse (C05_cc_disagrees).
C09|the C++ select_second_alpha picks the wrong index (C09_cc_wrong).
C10|an accepted SMO step can decrease the dual objective because the error cache is stale (C10_dual_can_decrease).
C11|the error cache is not refreshed for samples that enter the box later (C11_cache_stale).
C13|an empty cluster yields a NaN centroid row and training stops although the labelled clusters have other means (C13_stop_with_empty_cluster).
C15|with an empty cluster `fit` collapses to one centroid or raises ValueError (C15_collapse, C15_fit_fails).
C16|`np.squeeze` turns an n x 1 centroid matrix into row indices, and makes 1-cluster initialisations fail (C16_column_is_indices, C16_row_refused, C16_single_index_refused).
C71|negative mixture coefficients are accepted when they sum to 1, and give negative "probabilities" (C71_negative_accepted, C71_negative_posterior).
C02|with two points of smallest x (for instance any axis-parallel rectangle) ConvexHull raises OverflowError: the slope np.inf is put in an int32 array (C02_vertical).
C03|with duplicated points the returned polygon does not enclose the input (C03_duplicates_wrong).
C21|a numerical column that looks integer inside a subset is tested by value; new values raise KeyError (C21_numeric_keyError).
C23|a dividing point rounded to single precision may not separate the rows; generation then recurses until RecursionError (C23_rounding_diverges).
C25|heights of continuous nodes are the sum of the branch heights plus one (C25_height_wrong).
C27|the height loop of the post-pruner mixes up heights and heights plus one (C27_height_wrong).
C28|pre-pruning raises IndexingError on continuous nodes, KeyError on values without training row in the node, and records too large heights (C28_continuous_fails, C28_unseen_fails, C28_height_wrong).
C56|rows with a label outside {-1, 0, 1}, and rows without label, are counted as correct (C56_other_label_counted_correct, C56_short_labels).
C73|score of a classifier with three classes is not the fraction of correct rows (C73_three_classes).
C29|with one training row no stump is found and predict raises TypeError (C29_single_sample).
C75|a second AdaBoost fit, or a fit after load_weights, raises AttributeError; a second Bagging fit adds to the old estimators (C75_adaboost_refit_fails, C75_adaboost_fit_after_load_fails, C75_bagging_accumulates).
C76|AdaBoost on equal rows with balanced labels has only zero coefficients and every prediction is NaN converted to an integer (C76_equal_rows_nan, C76_witness).
C37|with smoothing and one class only, the Python implementation gives the absent class probability 0, unlike Laplace correction and the C++ implementation (C37_one_class).
C41|naive Bayes attaches the counts, computed in order of first appearance, to the values in order of frequency (C41_swapped).
C42|with probability=True naive Bayes returns quotients of log scores: the more probable class gets the smaller number (C42_probability_inverted).
C43|a second fit of a one-dependent estimator keeps the estimates of the first (C43_refit_accumulates, C43_witness).
C77|the variance is passed where the formula needs the standard deviation (C77_variance_as_deviation).
C78|averaged one-dependent estimators look up the i-th super-parent in the i-th column; a continuous first column makes them answer 1 for every row (C78_always_one).
C79|one-dependent estimators multiply the estimates for all super-parent values (C79_all_values).
C80|a discrete column with one distinct value makes NaiveBayesClassifier.fit raise IndexError (C80_single_value).
C45|get_w (= get_w_v2) multiplies the SVD factors elementwise; for every non-diagonal scatter matrix, and for diagonal ones in ascending order, the LDA direction is wrong, in the latter case zero (C45_v2_violated, C45_v2_zero); the C++ backend multiplies by the singular values instead of dividing (C45_cc_violated).
C81|on a well separated data set LDA predicts 0 for every row, the mean of class 1 included (C81_violated).
C82|LDA trained on rows of class 1 only predicts 0 everywhere (C82_violated).
C59|MeanSquaredError squares the sum of the errors: opposite errors cancel and the loss of wrong predictions is 0 (C59_violated, C59_zero_iff); for the shapes (n,1) and (n,) it is n^2 times larger (C59_broadcast).
C86|softmax subtracts the maximum of the whole matrix, so a row far below it underflows to 0/0 (C86_underflow).
C87|softmax of the Python backend shifts the caller's array in place (C87_violated).
C88|binary BPNN back-propagation: output error is p(1-p)(-(y/p-(1-y)/(1-p)) - p) instead of p - y (`sigmoid.diff` subtracts the prediction again); wrong by the factor 1-p+p^2 or 1+p^2.
C89|BPNN with k>=2 outputs silently accepts a column of integer labels and uses the binary formula by broadcasting; never a cross-entropy gradient.
C53|RBF optimiser uses y_pred instead of y_pred - y_true in drho: the beta update ignores the labels.
C91|RBF fit with a label vector of length n>=2 raises ValueError (broadcast to (n,n)).
C92|RBF centres are always drawn with two columns: any data set with 3 or more features raises ValueError.
C55|progress bar: full before the last epoch for n >= 26; the C++ bar uses integer division and never moves (26 cells).
C95|History of logistic regression pairs the loss after the update with the metric before it; RBF records lag one epoch.
C96|the progress bar of a verbose fit stays in the optimiser: later fits with verbose=False still print, with the old total.
C97|_get_optimizer_parameters: omitted arguments become the strings 'verbose', 'loss', 'metric', 'callbacks'; string values equal to a name are overwritten by keywords.
C98|Sigmoid kernel (gamma=1, beta=1, theta=-1) gives K(0,0)=tanh(-1)<0 and negative SMO curvature.
C62|StandardScaler divides by the variance instead of the standard deviation.
C65|Imputer converts every numeric column to float32 and back: integers above 2^24 change although present.
C66|binary labels: class_indices follows the sorted order, y the key words: 'Yes'/'no' disagree; integer labels such as 1/2 stay raw while class_indices says 0/1.
C67|_preprocessing_categorical_labels relabels sequentially in place: labels -1, 0, 1 are merged into one class.
C99|scalers with the default axis raise ValueError on every non-square table; on square tables entry (i,j) is scaled with row j.
C100|reused OneHotEncoder keeps stale classes; two classes share a code.
C101|two integer classes other than 0/1 with label_mode one-hot or max-margin raise KeyError.
C102|from_tensor_slices: TypeError for one-hot/max-margin (labels are reshaped to a column), AttributeError without labels even for unsupervised data, class_indices forgets all but two classes.
C103|class_indices accumulates over loads of multi-class frames.
C104|normalization of an integer table truncates: all entries become 0 except the maxima, which become 1.
C107|from_tensor_slices with fillna=False overwrites the caller's float32 array.
C69|get_metric returns None for unknown names instead of raising; get_loss silently falls back to Crossentropy.
C70|DecisionStumpClassifier and TwoLevelDecisionTreeClassifier have no guard: AttributeError instead of ValueError.
C110|degree of a polynomial kernel, beta/theta of a sigmoid kernel and an own gamma of a kernel instance are not saved; predictions change after reload.
C111|attributes are assigned one by one: a file with a missing attribute leaves a half-overwritten model.
C112|the file is opened with mode 'w' before the model is validated: a failed save destroys the previous file.
C113|arrays are stored as HDF5 attributes (64 KB limit): models with many samples or support vectors cannot be saved.
C114|networks keep surplus layers of the loading instance; n_components / n_clusters are not saved; a tree compiled with pruning cannot load a file without.
C115|DecisionTreeClassifier.fit after load_weights ignores the data.
C117|after post-pruning the recorded height can be too small (C27), and plot_tree then draws nodes below the visible canvas (C117_off_canvas: two leaves at y = -1).
C118|the bias is the mean of the two candidates even if only one multiplier is strictly inside the box, so that sample is off its margin right after its update (C118_off_margin).
C121|with n_components = 1 or one feature, np.squeeze changes the shape and every explicit covariance array is refused with ValueError (C121_one_refused); matrices that are no covariances are accepted (C121_not_validated).
C125|a second SVC.fit on other data silently uses the gamma of the first data set (C125_refit_stale).
C126|an SVC trained only on the class -1 answers +1 for every row (C126_negative_class_lost).
C87|softmax subtracts the maximum in the caller's array (C87_violated) and Relu.diff zeroes entries of the caller's output array (C87_relu_diff_violated); the C++ versions copy.
C132|C++ bootstrap indices abs(v) % n are not uniform unless n divides 2^30 (C132_not_uniform); on Windows rows beyond 16384 are never drawn (C132_never_drawn).
C133|the C++ compare_differences subtracts matrices of different shapes as soon as a cluster is empty (C133_empty_cluster).
C134|the C++ init_centroids reads a list of numbers as centroids for one feature and a matrix with as many entries as clusters as indices (C134_engines_differ).
C136|BroadcastSub of a one-row and a zero-row matrix subtracts matrices of different sizes (C136_no_rows).
C138|XavierNormal multiplies the parameters of a logistic regression by sqrt(d) instead of sqrt(2/(N_in+N_out)) (C138_violated, C138_grows).
C139|the seed is applied to numpy's global generator when the initialiser is constructed, so the last model compiled decides and a second fit continues the sequence (C139_last_seed_wins, C139_second_call).
C140|the static std::normal_distribution keeps its second number between calls although the engine is re-seeded: equal seeds give different parameters (C140_violated).
C141|the C++ engine is re-seeded for every layer: layers of equal shape start with identical weights (C141_cc_violated).
C142|classicML/backend/python/losses.py:148-149 broadcasts predictions of shape (n,1) against labels of shape (n,) to (n,n); losses.cc:139-150 does not, so the losses differ by the factor n^2. `Crossentropy` of a vector: IndexError in Python, accepted in C++. Class numbers instead of one-hot rows: silently used as weights in Python, undefined behaviour in C++.
C143|losses.py:49-50, 74-75 (and losses.cc:45-50, 69-74) multiply 0 by log 0: perfect predictions, or a softmax entry that underflows to 0, make the reported loss NaN.
C144|kernels.cc:37-41 takes any matrix with one column for a vector: with one feature `cc_calculate_error` calls the kernel on an (m,1) matrix, which becomes (1,m); the product is then undefined (Linear, Polynomial, Sigmoid) or ValueError (RBF). Several rows against several rows come back as one row in column order. RBF without support vectors is undefined.
C145|pybind11 turns a vector into a column: softmax of a vector is an array of ones in C++ and ValueError in Python; Sigmoid.diff with a label vector is (n,1) in C++ and (n,n) in Python; Relu.diff with a smaller second argument is IndexError in Python and silently partial in C++.
C146|losses_wrapper.cc, metrics_wrapper.cc: the float32 overload is registered first, and labels are integers (`_cml_precision.int`), so no overload matches without conversion and the 32-bit one is used even with CLASSICML_PRECISION='64-bit'.
C147|ops.cc `GetW_V2` multiplies by the singular values instead of dividing, and uses Vᵀ for V: `w` weighs the feature that varies most the most. `C147_violated`, `C147_wrong_line`, `C147_misclassified`. An empty class is undefined behaviour (`C147_empty_class`).
C148|C++ `type_of_target` compares only the first byte of strings, rounds numbers to float32, converts out-of-range floats to int32, and leaves its counter unassigned for bool and unsigned arrays. `C148_first_character`, `C148_continuous_lost`, `C148_out_of_range`, `C148_other_kinds`.
C149|C++ ConvexHull sorts by slope with an unstable sort, so collinear points may produce a polygon that leaves out an input point; the largest float stands for infinity, so steeper points are sorted behind vertical ones. `C149_unstable`, `C149_overflow`. Points straight above the leftmost are accepted, unlike in the Python engine (`C149_vertical`).
C150|C++ `GetConditionalProbability` adds counts in uint32; `C150_wraps`.
C151|average_timer repeats the effects of the function `repeat` times and, for repeat <= 0, does not call it at all but raises ValueError (np.min of an empty array).
C153|plot_linear_discriminant_analysis divides by the first weight (no line for a vertical direction), shows only the first quadrant, and for more than two features draws segments that are not perpendicular.
C154|plot_logistic_regression divides by the second weight, and takes beta[2] as intercept whatever the number of features: a model trained on three features is drawn with the weight of its third feature as intercept.
C155|plot_k_means raises for every trained model that has a cluster with a single sample (IndexError) or two samples sharing the smallest x (OverflowError), and uses the n_clusters of the constructor, which load_weights does not restore.
C157|plot_support_vector_classifier evaluates the classifier on the fixed window [0, 1] × [0, 0.8]: for data elsewhere no boundary is drawn.
C158|plot_ensemble evaluates the ensemble on the fixed unit square: for data elsewhere no boundary is drawn.
C159|plot_bayes raises KeyError for every model with a whole-number attribute, even with its own training data.
C160|predict of LDA and logistic regression returns a number for a batch of one row; predict of the network and the ensembles raises for lists and DataFrames; decision trees and naive Bayes raise for a list of rows.
C161|predict of a flat sample: logistic regression, ensembles and SPODE raise; the SVC with the Gaussian kernel answers once per entry of the sample, the RBF network repeats its answer.
C162|predict of a decision tree takes the columns of a DataFrame by position although fit takes them by name.
C163|score raises for labels in a list or Series, is always 1 for labels in a DataFrame, raises for a single row with LDA or logistic regression, and is the fraction predicted as class 0 for integer labels of a multi-output network.
C164|The Gaussian kernel on two sets of rows returns the diagonal of the kernel matrix, or raises if the sizes differ.
C165|SPODE: an unknown super-parent name is accepted on a second fit; the position of the former super-parent is used.
C166|SPODE: an attribute called 'p_c_xi' makes every prediction raise; two attributes with the same name collapse into one, read at the wrong position.
C167|Training cannot be continued: fit re-initialises the parameters unless weights were loaded, and Adam restarts its moments and its epoch counter in every call.
C168|from_dataframe writes the class numbers into the caller's label column; loading the same frame again loses the class names, and with eleven or more classes merges classes ("10" sorts before "2").
C169|The default seed of BaggingClassifier.compile is drawn once at import: all classifiers compiled without a seed share it and, on the same data, are identical.
C170|fit and predict without attribute names reset the row labels of the caller's own DataFrame (and, for SPODE/AODE, of the caller's label Series).
C171|fit overwrites the attributes of a trained model before it can fail: after a failed call logistic regression answers with random parameters, LDA with old projection and new means, naive Bayes with a mixture of old and new columns, bagging with additional learners.
C172|Learners of a failed first call of fit stay in BaggingClassifier.estimators and AdaBoostClassifier.estimators and take part in all later predictions.
C173|compile assigns its attributes one after the other: a misspelt optimizer raises after network_structure (hidden_units) was replaced, and the next fit trains the refused structure with the old optimizer.
C174|compile accepts every optimizer for every model (logistic regression with 'adam', a network with 'gd' or 'SMO'), any string as a metric and the loss 'log_likelihood' for networks; fit then raises on all data.
C176|Compiling a trained model again with an optimizer of another family makes predict raise for every input, although the parameters are still there.
C177|compile replaces self.initializer by an object which the next compile returns as it is, so that the seed is used only once: a second compile and fit of the same seeded instance gives another model.
C178|Without a seed compile calls np.random.seed(None), which discards the state the user set with np.random.seed.
C192|get_w_v2 (used by fit) depends on the order of the features: C192_violated gives a data set whose rows change class when its two features are exchanged, whatever singular value decomposition LAPACK returns.
C196|The bar shows '60s' for the last half second before a minute (C196_sixty); the time per step before the last epoch is too small by e/n (C196_per_step); the C++ bar shows 0s for every epoch within one second and one whole second for an epoch of any length that crosses one (C196_cc_whole_seconds).
C197|A shorter progress line leaves the end of the previous one on the terminal (C197_violated): digits of the old metric appear behind the new one.
C198|The C++ bar cuts instead of rounding: 0.99996 is shown as 0.9999 (C198_violated).
C199|from_csv raises ValueError for every file with a column of whole numbers in which an entry is missing (C199_whole_numbers) and TypeError for a text column whose first entry is missing (C199_text_gap_first), although fillna=True.
C200|from_csv reduces whole numbers modulo 2^32 without a warning (C200_violated).
C201|from_csv with normalization=True turns every file of whole numbers into zeros and ones (C201_violated).
C204|StandardScaler divides by the variance (preprocessing.py:359), so that its output depends on the unit of measurement: data in centimetres give values 100 times smaller than the same data in metres.
C207|NaiveBayesClassifier pairs the names of value_counts (most frequent first) with counts in order of first appearance (naive_bayes_classifier.py:112-130), so the prediction depends on the order of the rows: column a,b,b with labels 0,1,1 gives 1 for a; the same rows as b,b,a with labels 1,1,0 give 0.
C210|AveragedOneDependentEstimator compares the value of its i-th super-parent with the i-th cell of the row (semi_naive_bayes_classifiers.py:361-363, 611-614), so exchanging two attributes (in the training data and in the row) changes the answer.
C214|with CLASSICML_ENGINE=CC and '64-bit', calculate_error always runs in single precision (non_zero_alphas is a bool array, optimizers.py:944), clip_alpha too (a 0-d array, optimizers.py:1065), compare_differences (Python tol), every loss and metric (integer labels), softmax.diff, and the RBF initialiser
C216|with CLASSICML_ENGINE=CC, '64-bit' and C = 0.1, a clipped multiplier is 0.10000000149 > C
C217|bootstrap_sampling of the C++ engine silently drops labels given as a list or in another width than the data (overloads 5 and 6 take any object)
C218|NaiveBayesClassifier.predict with a discrete attribute raises TypeError with CLASSICML_ENGINE=CC and '64-bit': the stored counts are np.float64, which pybind11 refuses for uint32
C219|from Python 3.8 on, np.int64 as n_clusters or seed silently switches a float64 computation to single precision on the C++ engine; a Python integer or list given to an initialiser does so too
C221|The C++ RBFNormal with an odd number of hidden units does not repeat its beta: std::normal_distribution is a function-local static whose left-over number survives re-seeding (matrix_op.cc:82).
C222|The C++ RBFNormal draws centres and beta from two engines seeded identically (initializers.cc:200-202, matrix_op.cc:84,103), so beta is determined by the centres.
C223|History.loss on the Python engine is the live list: a caller's append changes the history.
C224|A list read from a Python History grows with later training.
C225|`History.__call__` of the C++ engine names its second parameter `metric_name` instead of `metric_value` (callbacks_wrapper.cc:64); `loss`/`metric` are read-only there.
C226|Neither engine's LDA direction maximises Fisher's criterion (consequence of the elementwise product in get_w_v2 and of the missing inversion in the C++ GetW_V2).
C227|SMO stops early with multipliers that are not optimal up to tol: steps below the absolute width 1e-5 are refused (optimizers.py:1068).
C228|SVC.fit finds no support vector, and the classifier answers +1 everywhere, when samples of different labels are more than 447 apart (unscaled data with the linear kernel) or C < 1e-5: the step width 1e-5 is absolute (optimizers.py:1068).
C229|SVC.fit(epochs=-1) never returns on the rows [-1], [-4], [-2] with labels -1, +1, -1 and a linear kernel (default C, tol), for every sequence of permutations: the stale error cache (optimizers.py:1084-1086) makes every pass change the already optimal multipliers.
C231|a node tested by value gets a branch for every value of the attribute in the whole training frame, so a tree can have more leaves than samples (5 samples, 7 leaves).
C233|NewtonMethod takes full steps: on the rows a, a, -a, -a with labels 0, 1, 0, 1 and initial scores of absolute value at least 4 the loss grows in every epoch, beyond every bound, although the best parameters are zero.
C234|LogisticRegression with the newton optimizer raises LinAlgError whenever the attributes are linearly dependent on the training rows (a constant or repeated attribute, or at most as many samples as attributes).
C238|GradientDescent has a fixed learning rate (default 0.01) and sums the gradient over all samples: on unscaled data (four rows 15, 15, -15, -15 with labels 0, 1, 0, 1) training oscillates for ever and never approaches the best parameters.
C239|calculate_covariances adds no regularisation: on data with a constant or linearly dependent attribute, or with at most as many samples as attributes, GaussianMixture.fit raises LinAlgError after the first epoch.
C240|When samples of different labels are more than 447 apart SVC training stops with all multipliers 0, and every sample of label -1 is misclassified.
C243|A constant column makes LogisticRegression with newton and GaussianMixture raise on every data set, and changes the kernel of SVC with gamma='auto'.
C244|StandardScaler applied to its own result multiplies by the variance again (undoes the scaling) instead of leaving the data alone.
C245|AveragedOneDependentEstimator: renaming the values of one attribute so that they coincide with values of another attribute changes the predicted class.
C246|NaiveBayesClassifier uses the variance as standard deviation, so the predicted class depends on the unit of a continuous attribute (exactly when the closer class is not the one with the larger weight).
C248|KMeans(init='random') draws rows with replacement; every draw that repeats a row (and is not constant) makes fit raise ValueError (5 clusters of 10 samples: more than two draws out of three).
C254|The gradient is a sum, not a mean, over the samples, so duplicating the data multiplies the effective learning rate.
C258|The candidate points of a stump are midpoints of consecutive sorted values with repetitions, so that a rule which puts all samples on one side is only tried if the smallest value is repeated.
C259|Laplace smoothing adds the same amount however many samples there are (expected of smoothing).
C266|after load_weights every later fit of a logistic regression starts from the loaded (and afterwards trained) parameters instead of a fresh draw (C266_logistic_violated); bagging keeps all earlier members and votes with them (C266_bagging_accumulates, C266_bagging_violated); AdaBoost raises in every later fit and keeps answering from the first (C266_adaboost_frozen).
C267|_update_error_cache recomputes the cached errors before the new support vectors are entered in non_zero_alphas; what is left out depends on the origin. Four samples on a line, trained to the end, get different labels for a training row when the origin is moved by 1 (C267_origin_violated).
C268|the kernel gamma*(x.y)^p has no constant term: for even p every trained classifier labels r and -r alike (C268_mirror, C268_even_violated), for odd p - the default is 3 - it is a threshold on one feature (C268_odd_violated).
C269|of four linearly separable samples one is labelled correctly after training in one order and misclassified after training in another, although training ends by itself in both (C269_order_violated).
C272|fit uses the seeds seed, seed+1, ..., so two ensembles with seeds s and s+j share all members but j (C272_neighbours_violated).
C276|in single precision -1 and 2^-30 are scaled to 0 and 1 and come back as -1 and 0 (C276_lost).
C277|z -= np.max(z) subtracts the largest entry of the whole matrix, not of each row: in single precision every row that lies 104 or more below it becomes NaN (C277_lost; exactly when: C277_nan_iff), although the same row alone is fine. Inputs that differ by less than about 2^-25 get equal results (C277_tie).
C278|n times the first weight is 1 only if n is a power of two (C278_first_total). After the first round of EM the mixing coefficients are of double precision, the density of the mixture of single precision; with very small densities a posterior probability of 745/512 results (C278_above_one).
C279|np.sum(init) != 1 compares a rounded sum: [0.7, 0.2, 0.1] is refused, [0.1, 0.2, 0.7] accepted (C279_refused); [1, 2^-60] is accepted (C279_wrong_accepted).
C280|the dividing point is rounded to single precision: for half of the pairs of neighbouring numbers of single precision, and for all double precision values that are rounded down to the smallest, fitting ends with RecursionError (C280_diverges, C280_neighbours).
C281|in single precision the sigmoid is exactly 1 from 18 on (C281_saturates) and exactly 1/2 for small negative arguments (C281_half).
C282|with multipliers 7*2^-19 and 100 and C=101 a step leaves -2^-19 for the first multiplier (C282_negative); for C=1000.2, which is rounded up in single precision, the second multiplier becomes negative when the first is at the rounded bound (C282_crossed).
C284|three equal numbers (1.5 + 2^-22) of single precision are scaled to -8388608 each: their computed mean is the next number, and the deviation is divided by its square (C284_constant).
C285|In single precision the hull of (0,0), (1,100), (4096,4097), (4097,4098) contains a right turn, and the hull of (0,0), (1,-100), (4096,4097), (4097,4098) omits the extreme point (4096,4097), which lies outside of the returned polygon (C285_right_turn, C285_outside).
C286|In single precision 16777218 gets the label of centroid 1 although 2 is nearer, and 0 gets the label of 2^-80 although it is itself the second centroid (C286_second_nearest, C286_own_centroid).
C287|In single precision the centroid of three equal samples 12582914/2^23 is 12582915/2^23 (C287_outside).
C290|With 64-bit columns and the default 32-bit precision the criterion evaluates the split at the 64-bit midpoint but the tree stores (and splits at) its 32-bit rounding, which may not separate the classes: for the values 1 and 1+2^-30 with different labels fitting recurses without end (theorem C290_lost).
C291|get_probability_density replaces a density that underflows to 0 by 1e-36, which is larger than the densities 2^-149 .. 1e-36 that do not underflow: a value far from the mean gets a higher density than a nearer one (theorems C291_far_beats_near, C291_far_beats_near_double).
C292|Because of the replacement by 1e-36, naive Bayes assigns outliers to the class whose mean is farther away: with samples -1, 1 of class 0 and 9, 11 of class 1 the values from about -13 to -14 are classified as 1 (theorem C292_nearer_loses).
C294|RadialBasisFunctionOptimizer.backward multiplies by y_pred instead of y_pred - y_true in the gradient of beta, so an epoch moves the widths of a network that already computes every label, and its error rises from 0 for every learning rate (theorem C294_perfect_fit_lost).
C295|The sigmoid of single precision is exactly 1 for logits of 18 or more, and BinaryCrossentropy then computes 0 * log(0): the loss of a training set with one such right answer is NaN in both engines (theorem C295_confident_nan).
C297|load_weights overwrites the compiled C, gamma, kernel and tol, so compile, load_weights, fit trains with the parameters of the file (theorems C297_file_parameters, C297_violated).
C299|the variance is used where the density needs the standard deviation, so a learned value can lower the density of its own class at that value and lose its answer (theorem C299_turned_away).
C302|the post-pruner only considers nodes whose branches are all leaves, so a node above a branch that was kept is never replaced, however much better the leaf would be (theorem C302_violated).
C303|in single precision a support vector classifier may answer with the wrong sign (theorem C303_svc_wrong: decision value -1, answer 1), and a logistic regression counts samples of small negative score as positive (C303_logistic_wrong).
C304|in single precision the class of the farther projected mean may be answered (theorem C304_wrong).
C311|the initialiser of the RBF network draws widths of both signs; a hidden unit with negative width grows without bound away from its centre. One epoch on non-negative labels that are not all zero already gives a network with unbounded output (C311_unbounded, C311_first_epoch).
C313|after a load_weights every later compile is ignored and every fit continues from the loaded parameters (C313_structure_ignored, C313_continues); loading a file with fewer layers than the instance has leaves the remaining layers in place, which then take part in predict (C313_layers_left, C313_violated).
C315|compile after fit changes the smoothing of the conditional probabilities but not of the class probabilities (C315_compile_after_fit).
C317|a DecisionTreeClassifier compiled with pruning refuses (KeyError) every file saved from an unpruned tree (C317_refused); after load_weights every fit without pruning completes and ignores its data (C317_data_ignored); a loaded classifier cannot be fitted without compile (AttributeError) although the file holds the criterion (C317_load_then_fit).
C318|GaussianMixture.fit sets is_trained before it computes the clusters of the samples; if that raises (a covariance that became singular in the last epoch) fit raises but the instance counts as trained (C318_mixture_violated).
C319|after load_weights the hidden_units of a later compile are ignored and every fit of an RBF network continues from the loaded parameters (C319_rbf_ignored, C319_rbf_violated).
C320|a save of a BackPropagationNeuralNetwork or RadialBasisFunctionNetwork interrupted among its weights leaves a file that load_weights accepts: a network with the first parameters only, or none (C320_network_indistinguishable, C320_network_accepted); for all models the file that was at the path before is lost as soon as saving starts (C320_neither_old_nor_new).
C324|an attribute that is given twice makes NewtonMethod, LinearDiscriminantAnalysis and GaussianMixture (default covariances) fail on every data set: the Hessian, scatter or covariance matrix is singular (C324_violated, C324_lda_violated).
C326|fit of a one-dependent estimator adds to what earlier fits or a loaded file left, so answers mix all data sets ever seen (C326_spode_fit_adds, C326_spode_witness, C326_aode_fit_adds); a fit of an AveragedOneDependentEstimator refused because of the number of columns leaves a trained instance answering 1 for every row (C326_aode_failed_fit, C326_aode_witness).
C328|MeanSquaredError squares the sum of the residuals, so two batches with loss 1/2 each can have loss 0 together (C328_witness).
C329|the independence assumption of naive Bayes counts a repeated attribute twice and can reverse the answer (C329_witness); a limit of the method rather than a slip of the code.
C332|the returned chain contains its leftmost point twice, and ConvexHull raises OverflowError for every input with two leftmost points (C332_closed_refused).
C337|adding a correctly answered sample to the training set of a naive Bayes classifier can turn its answer: with continuous attributes the density uses the variance as standard deviation, so that the wider spread costs more than the higher prior gains (C337_witness: -6, 6 | 11, 25 and the sample 18).
C340|A consequence of the elementwise product in `get_w_v2` (see C45, C81): with the Python engine a row that is the centre of class 1 can be answered by 0 (`C340_violated`).
C342|If two attributes are equally good questions, the first column is asked about, so the order of the columns changes the answers to new rows (`C342_violated`).
C343|If questions about two attributes are equally good, the first column is asked about, so the order of the columns changes the answers to new rows (`C343_violated`).
