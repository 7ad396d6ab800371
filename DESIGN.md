# Formal model of classicML in Lean 4: design

The source under study is `/repo` (Python, with an optional C++ backend). Nothing is
executed: every definition of the model carries a comment with the file and lines it was
read from. The Lean project is `/verif/lean`; the modules are

- `Verif/Prelude.lean` – Python exceptions as values, numpy list primitives (argmin, argmax, unique, ...);
- `Verif/Model/*.lean` – the model, one file per area of the code, function by function;
- `Verif/Spec/*.lean` – small independent specifications used by the statements, which do not mention the model;
- `Verif/Lemmas/*.lean` – helper lemmas and proofs;
- `Verif/Props/*.lean` – the property theorems only, named `Cxx_...`, with non-vacuity examples beside them.

## Trusted base

1. Lean 4.33.0's kernel. The only axioms used are `propext`, `Classical.choice` and `Quot.sound`
   (Lean's standard ones); no axiom is declared, no `native_decide`/`bv_decide` is used.
2. The reading of the Python/C++ source into the model. There is no mechanical link.
3. **Arithmetic.** Floating point numbers are modelled by exact arithmetic: any linearly ordered
   field (examples over the rationals), or the reals where `exp`, `log`, `sqrt` occur. Rounding, overflow,
   signed zeros and NaN propagation are not modelled, except where said (division by
   zero is an explicit branch; the float32 cast of tree thresholds is a parameter).
   `Spec/Rounding.lean` defines IEEE round-to-nearest-even in single and double precision (without overflow) and what is needed of
   any rounding; `Model/Rounded.lean` and the theorems from C275 on apply it after every operation to selected functions
   (scalers, softmax, sigmoid, sample weights, posterior probabilities, dividing points, steps of SMO, accuracies).
   All other models compute exactly.
   Functions that only compare and copy values are modelled over an arbitrary linear order,
   which is exact for non-NaN floats.
4. **Randomness.** Every call into `numpy.random` is a parameter of the model (a list of indices, a
   permutation); theorems quantify over all its values.
5. **External libraries.** numpy/pandas primitives are modelled by their documented behaviour in the versions
   `setup.py` admits (numpy 1.21 to 1.24, pandas 1.3.4 to 1.5.2; where versions differ the model's comment says which one)
   (`argmax`/`argmin` return the first optimum, `unique` sorts, `list.sort` and pandas orderings as cited);
   h5py, pickle, matplotlib, pandas parsing, the logger and the terminal are not modelled.
6. Exceptions are values of `Except PyErr`; log output is dropped.

## Per-property plan

- **C01 Bootstrap samples are rows of the input with labels kept attached.** Model the function over lists with the drawn indices as a parameter; prove length, membership of pairs, error branch.
- **C02 A computed convex hull is a closed, left-turning chain of input points.** Model the Graham scan over points of an ordered field (stable sort by slope with +inf as top, foldl with inner pop loop); loop invariant by induction.
- **C03 The convex hull encloses every input point.** Graham-scan correctness for distinct points; a concrete witness refutes the general claim (duplicates).
- **C04 clip_alpha is the projection onto [low, high].** Direct model over a linear order; case analysis. The C++ function is modelled separately and proved equal.
- **C05 type_of_target classifies every target array by the documented rule.** Model of an array as dtype kind + ndim + shape + flat values; decision logic proved for all arrays.
- **C06 SVC training always stays in the dual feasible set.** State machine of SMO with the Gram matrix, permutations as parameters; invariant by induction over steps and passes.
- **C07 The support vectors reported by SVC are exactly the samples with positive multiplier.** Same state machine; mask invariant, nonzero() extraction.
- **C08 SMO stops after at most `epochs` passes, and stops early only when no pair can be improved.** Run with pass counter; early-stop characterisation by induction over passes.
- **C09 The second SMO multiplier maximises the error gap among non-bound samples.** Model argmax over the filtered index list; prove optimality and first-tie. The C++ version is refuted by a witness.
- **C10 Each accepted SMO update increases the dual objective.** Algebraic identity for the dual objective when both errors are the true ones (partial: stale cache).
- **C11 The SMO error cache holds the true prediction errors of the non-bound samples.** Refuted by a witness (two-sample run); partial: all entries are refreshed for samples that already were non-bound with an unchanged mask.
- **C12 KMeans.predict assigns every sample to a nearest centroid.** argmin of squared distances; sqrt is monotone (real model).
- **C13 When KMeans stops early its labels and centroids are mutually consistent.** Loop model with explicit exit reason.
- **C14 A KMeans iteration never increases the within-cluster sum of squares.** Two half-steps: nearest assignment, mean minimises sum of squares.
- **C15 KMeans.fit always yields n_clusters centroids.** Partial: holds when all labels occur; witness for empty cluster.
- **C16 Initial centroids are rows of the data, the requested rows, or exactly the given matrix; anything else is refused.** Dispatch model on shapes after squeeze; partial + witnesses for n_features = 1.
- **C17 Gaussian-mixture posteriors are probability distributions.** Finite sums over a field.
- **C18 Gaussian-mixture weights stay a probability vector through training.** Invariant over epochs.
- **C19 Gaussian-mixture means are convex combinations of the samples.** Convex combination over a field.
- **C20 Gaussian-mixture covariances are symmetric positive semidefinite.** Quadratic form over a field.
- **C21 A fitted decision tree predicts without failure on values seen in training.** Inductive tree type and predict with KeyError as value; generation model with an arbitrary split oracle.
- **C22 Decision-tree predictions are labels from the training data.** Induction over generation.
- **C23 An unpruned decision tree classifies a consistent discrete training set perfectly.** Induction over generation for discrete attributes.
- **C24 The chosen split is optimal for the criterion.** Fold model of optimal_division.
- **C25 Recorded tree statistics are the true leaf count and height.** Induction; height bug for continuous nodes refuted by witness.
- **C26 Post-pruning never lowers validation accuracy.** Induction over trees.
- **C27 Post-pruning keeps the leaf count and height correct.** Induction; height bug witness.
- **C28 Pre-pruning works on trees with continuous attributes and keeps statistics correct.** Witness + partial.
- **C29 The decision stump minimises training error over all its candidates.** Fold over candidates.
- **C30 Two-level AdaBoost trees have depth at most two and predict +-1.** Model of the two-level generator.
- **C31 A two-level tree's weighted training error is at most one half.** Weighted majority argument.
- **C32 AdaBoost keeps a positive, normalised sample distribution.** Round state machine over the reals.
- **C33 AdaBoost reweighting makes the last learner exactly uninformative.** Identity over the reals.
- **C34 AdaBoost training error is bounded by the product of the normalisers.** Induction over rounds.
- **C35 AdaBoost predicts the sign of the weighted vote.** Sign logic.
- **C36 Bagging predicts the majority of its estimators.** Vote logic.
- **C37 Class priors form a probability distribution.** Counting.
- **C38 Smoothed conditional probabilities are positive and sum to one.** Counting over distinct values.
- **C39 One-dependent joint priors sum to one.** Counting.
- **C40 Density estimates are strictly positive.** Positivity incl. floor.
- **C41 Naive Bayes attributes each conditional count to the right attribute value.** Witness + partial.
- **C42 Naive Bayes predicts the more probable class.** Witness + partial.
- **C43 Refitting a one-dependent estimator forgets the previous data.** Witness + partial.
- **C44 The within-class scatter matrix is symmetric positive semidefinite.** Lists of rows; the scatter matrix is shown to be the sum of outer products, hence PSD.
- **C45 The LDA direction is S_w^-1 (mu0 - mu1).** SVD as an oracle with its specification: get_w is exact; get_w_v2 is refuted for every non-diagonal matrix and every SVD; exact for diagonal factors; the C++ version refuted in one dimension.
- **C46 LDA predicts the class with the nearer projected centre.** Decision logic, scale invariance, half-space form.
- **C47 Logistic-regression updates follow the true gradient and Hessian.** Real analysis: HasFDerivAt of the negative log-likelihood and of each component of the gradient.
- **C48 The logistic-regression Hessian is positive semidefinite.** Quadratic form as a sum of squares; convexity from softplus.
- **C49 Network parameter shapes are always compatible.** Model/Network: dynamic-shape arrays with numpy's shape errors, initLayers, forward/backward/update/sgdRun. Induction over the layer list.
- **C50 Softmax outputs are probability vectors.** Exact exponential.
- **C51 Softmax cross-entropy back-propagation uses the true gradient.** Back-propagation on functions proved equal to the code, then HasDerivAt along every direction by induction over the layers (Lemmas/Network bwd_deriv).
- **C52 Adam's second moments stay non-negative and its bias-corrected first moment is a weighted mean of past gradients.** Induction over the gradient history; geometric sum.
- **C53 RBF-network updates follow the true gradient.** Model/RBF with numpy shapes; partial derivatives with HasDerivAt in one coordinate.
- **C54 History holds exactly one record per trained epoch.** Model/Training: generic training loop with progress bar, callbacks and history heap; induction over epochs and fits.
- **C55 The progress bar has constant width.** Integer/rational rounding: bar as list of characters; rounding as monotone function fl.
- **C56 Binary accuracy is the fraction of correct predictions.** Counting.
- **C57 Categorical accuracy is the fraction of rows with matching argmax.** Counting.
- **C58 Cross-entropy losses are non-negative and vanish only for certain predictions.** Real inequalities on logarithms; equality of the two forms of the loss.
- **C59 Mean squared error is zero only for perfect predictions.** Refutation by a witness and the exact zero set; partial for one sample; broadcasting case.
- **C60 Kernels are symmetric and yield positive semidefinite Gram matrices.** Model/Kernels over the reals; PSD by squares, Schur products (poly) and the power series of exp (RBF).
- **C61 Min-max scaling maps onto [0,1] and is invertible.** Model/Preprocess, Model/Dataset: lists of cells, dictionaries as association lists, rounding and parsing as parameters.
- **C62 Standard scaling centres the data and is invertible.** Model/Preprocess, Model/Dataset: lists of cells, dictionaries as association lists, rounding and parsing as parameters.
- **C63 One-hot encoding is faithful.** Model/Preprocess, Model/Dataset: lists of cells, dictionaries as association lists, rounding and parsing as parameters.
- **C64 Max-margin encoding maps the two classes to -1 and +1.** Model/Preprocess, Model/Dataset: lists of cells, dictionaries as association lists, rounding and parsing as parameters.
- **C65 The imputer fills every missing entry and changes nothing else.** Model/Preprocess, Model/Dataset: lists of cells, dictionaries as association lists, rounding and parsing as parameters.
- **C66 Dataset label encodings agree with class_indices.** Model/Preprocess, Model/Dataset: lists of cells, dictionaries as association lists, rounding and parsing as parameters.
- **C67 Categorical relabelling is injective.** Model/Preprocess, Model/Dataset: lists of cells, dictionaries as association lists, rounding and parsing as parameters.
- **C68 Weights files are accepted exactly for the same model and supported versions.** Model/IO: header check; regular expression on character lists against a leftmost-longest specification, version order against componentwise order.
- **C69 Getter functions accept exactly the documented names.** Model/Getters: if-chains against tables of documented names.
- **C70 Untrained models refuse to predict.** Model/Lifecycle: histories of calls over Model/Persist; induction.
- **C71 Initial mixture coefficients are a probability vector.** Dispatch model of the init argument; witness for negative coefficients.
- **C72 GaussianMixture.predict picks the most probable component and fit stores its answer.** argmin of the negated posterior row; induction over epochs.
- **C73 score is the fraction of correctly predicted rows.** Score as composition of predict and the two metrics; witness with three classes.
- **C74 Two-level trees choose the split of least weighted Gini index.** Fold invariant of the split search; the chosen candidate is a minimum of an independently defined weighted Gini index.
- **C75 Ensembles can be refitted.** Object state with the list/array distinction; refutation for every data set.
- **C76 A fitted AdaBoostClassifier labels every row +1 or -1.** Refutation: equal rows, balanced labels, any learner; partial: some round with error below one half.
- **C77 Continuous attributes use the normal density of the class.** The density as a real function; comparison with an independently written normal density.
- **C78 The averaged one-dependent estimator adds up its super-parents.** Aliased lists as equal lists; refutation for rows starting with continuous cells; exact agreement for disjoint discrete columns.
- **C79 A one-dependent estimator predicts the class of larger joint estimate.** Refutation by a witness; agreement if the super-parent has one value.
- **C80 Naive Bayes can be fitted on every discrete data set.** Refutation for single-valued columns; completion otherwise.
- **C81 LDA classifies the two class means correctly.** Definiteness of the scatter matrix on w; refutation for the shipped backend by a concrete data set, for every SVD.
- **C82 LDA trained on one class predicts that class.** NaN mean of the empty class as none; refutation for all data; with both classes the means are the centres of gravity.
- **C83 Gradient descent for logistic regression never increases the loss and converges.** Descent lemma from the bound 1/4 on the derivative of the sigmoid, telescoping.
- **C84 Parameters left unchanged by an epoch are a global optimum.** Convexity (tangent planes).
- **C85 LogisticRegression predicts probabilities ordered by the linear score.** Monotonicity of the sigmoid.
- **C86 Softmax is numerically safe.** exp as a parameter that may underflow: refutation for every underflow bound; partial for a bounded spread.
- **C87 Activation functions do not modify their argument.** State after the call as second result; refutation for all matrices with non-zero maximum.
- **C88 Binary back-propagation uses the true gradient.** Witness for the failure, and linearity of back-propagation in the output error for the direction result.
- **C89 A multi-class network refuses or understands integer class labels.** Moving all output biases together leaves the cross-entropy unchanged, but the code's gradient has a non-zero component there.
- **C90 Network predictions are row-wise probabilities.** Consequences of the closed form of forward.
- **C91 RBF networks accept label vectors.** Shape errors of the in-place update; induction over epochs.
- **C92 RBF networks accept any number of features.** Broadcasting rules in forward.
- **C93 The first RBF epoch.** Closed forms of forward and backward at the initial parameters.
- **C94 Monitoring does not change training.** Induction over the loop.
- **C95 The last History record describes the returned model.** Closed form of the records.
- **C96 verbose=False is silent.** Closed form of the drawn lines.
- **C97 Optimiser extra arguments are bound by position or name.** Fold over keyword arguments.
- **C98 Sigmoid kernel Gram matrices are positive semidefinite.** Witness at the origin.
- **C99 Scalers work on tables.** Model/Preprocess, Model/Dataset: lists of cells, dictionaries as association lists, rounding and parsing as parameters.
- **C100 Encoders can be reused.** Model/Preprocess, Model/Dataset: lists of cells, dictionaries as association lists, rounding and parsing as parameters.
- **C101 Labels agree with class_indices in every label mode.** Model/Preprocess, Model/Dataset: lists of cells, dictionaries as association lists, rounding and parsing as parameters.
- **C102 from_tensor_slices supports the documented label modes.** Model/Preprocess, Model/Dataset: lists of cells, dictionaries as association lists, rounding and parsing as parameters.
- **C103 A data set can be reloaded.** Model/Preprocess, Model/Dataset: lists of cells, dictionaries as association lists, rounding and parsing as parameters.
- **C104 Normalisation of a loaded table.** Model/Preprocess, Model/Dataset: lists of cells, dictionaries as association lists, rounding and parsing as parameters.
- **C105 Standardisation and normalisation together.** Model/Preprocess, Model/Dataset: lists of cells, dictionaries as association lists, rounding and parsing as parameters.
- **C106 Layout of a digitised table.** Model/Preprocess, Model/Dataset: lists of cells, dictionaries as association lists, rounding and parsing as parameters.
- **C107 Loading does not modify the caller's array.** Model/Preprocess, Model/Dataset: lists of cells, dictionaries as association lists, rounding and parsing as parameters.
- **C108 Default names select their class.** Model/Getters.
- **C109 Saved models can be loaded.** Model/Persist: every save/load method as a straight-line program over attribute dictionaries, files as attribute groups, exceptions stop the program; pickle and HDF5 size limits are parameters.
- **C110 Backend objects survive saving.** Model/Persist: every save/load method as a straight-line program over attribute dictionaries, files as attribute groups, exceptions stop the program; pickle and HDF5 size limits are parameters.
- **C111 A failed load leaves the model as it was.** Model/Persist: every save/load method as a straight-line program over attribute dictionaries, files as attribute groups, exceptions stop the program; pickle and HDF5 size limits are parameters.
- **C112 A failed save keeps the old file.** Model/Persist: every save/load method as a straight-line program over attribute dictionaries, files as attribute groups, exceptions stop the program; pickle and HDF5 size limits are parameters.
- **C113 Every trained model can be saved.** Model/Persist: every save/load method as a straight-line program over attribute dictionaries, files as attribute groups, exceptions stop the program; pickle and HDF5 size limits are parameters.
- **C114 Loading replaces the model.** Model/Persist: every save/load method as a straight-line program over attribute dictionaries, files as attribute groups, exceptions stop the program; pickle and HDF5 size limits are parameters.
- **C115 fit trains on the data it is given.** Model/Lifecycle.
- **C116 The picture of a tree is the tree.** Model the drawing recursion (Model/PlotTree), with the global X threaded and Y restored. Spec/PlotTree: preorder list of nodes and edges with depth, leaves to the left, leaves below. Simulation by mutual structural induction; distinctness because nodes of equal depth have disjoint leaf intervals; for fitted, post-pruned and pre-pruned trees from the leaf-count theorems.
- **C117 A plotted tree fits on the canvas.** Bounds on depth and leaf interval of every node, with depth at most the recorded height (C25) for unpruned trees; a counterexample for a post-pruned tree.
- **C118 After an update the two samples sit on the margin.** Closed form of the error after a two-variable update; the mean bias makes the two errors cancel; if both multipliers end strictly inside the box the step was not clipped, and the errors are also equal, hence 0. Witness for the remaining case.
- **C119 The training schedule of the SVM.** Spec: an inductive sweep relation and an inductive schedule with its log (Spec/SMO), simulated by the loop of `run` for every number of passes; then for `Returns`.
- **C120 EM never lowers the likelihood.** Spec/EM: textbook normal density and log-likelihood. Proof: the model's density equals the textbook one; Jensen (log t <= t-1) minorises the change of the log-likelihood; Gibbs' inequality for the weights; the weighted mean and covariance maximise the weighted Gaussian log-likelihood (log det T + d <= log det S + tr(S^-1 T)); induction over the steps and fit.
- **C121 Initial covariances are the default or exactly the given ones.** Arrays as shape and entry function, np.squeeze as removal of the axes of length 1; exact acceptance condition.
- **C122 Impurity measures measure impurity.** Model/Entropy adds the entropy; finite sums over label frequencies; log t <= t-1 with its equality case.
- **C123 A split never increases impurity.** Table of counts; Gini gap as a sum of squares, entropy gap by log t <= t-1 cell by cell, both with equality case; lifted to Criterion.get_value and Gain.optimal_division.
- **C124 SVC predicts by the sign of its decision function.** Model/SVC: the object with compile, fit (on top of Model/SMO) and predict on lists of rows. Dropped samples have alpha = 0 (C07), feasibility is C06.
- **C125 gamma='auto' and 'scale' follow the training data.** Gamma as auto | scale | number, kernel as name | instance; fit overwrites both, as the code does.
- **C126 SVC trained on one class answers that class.** With one label L = H at the first update, so no update ever succeeds; invariant over every reachable state.
- **C127 Post-pruning is reduced-error pruning, node by node.** Spec/Prune: the relation 'node s of t is reached by the training rows tr and validation rows v'. One-step inversion lemmas of the pruner, then induction over the tree for every such node of the result.
- **C128 Pre-pruning keeps exactly the splits that pay.** Same relation; the score is by induction with the validation rows grouped by value, using that leaves carry the majority (C129).
- **C129 Leaves of a fitted tree carry the majority label.** Induction over the recursion of the generator, following the rows routed to each node.
- **C130 Activation.diff applies the derivative of the activation.** HasDerivAt of the model's own activation functions; softmax via log-sum-exp.
- **C131 Naive Bayes answers exactly the rows of known values.** Object model on top of Model/Bayes: names, trained flag, row length; induction over the columns for the dictionary look-ups.
- **C132 C++ bootstrap samples rows uniformly and keeps pairs together.** Raw draws as a list of Int; abs of int32, truncated remainder; counting residues of an interval for uniformity.
- **C133 K-means gives the same result with both engines.** Model of the C++ functions with undefined behaviour as none; refinement of the Python model by induction on the epochs.
- **C134 init_centroids means the same with both engines.** Model of the overloaded functions on the same Init type as the Python model; case analysis.
- **C135 The mixture and SVM kernels of the C++ engine compute what the Python ones compute.** Loops as folds, shown equal to the sums of the Python model.
- **C136 BroadcastSub subtracts like numpy or raises ValueError.** Matrices as lists of rows; numpy broadcasting as a separate specification.
- **C137 Initialisers produce the documented shapes and scales.** Generators as state machines, the parameter dictionary with string keys; induction over the structure; the scale is specified by its square.
- **C138 XavierNormal uses the Glorot scale.** The same model; the factor of the logistic regression against the documented one.
- **C139 The seed of a model determines its initial parameters.** np.random as one global state; constructing an initialiser overwrites it.
- **C140 The seed determines the initial parameters (C++ engine).** std::normal_distribution with its saved second number as static state, the engine re-seeded per matrix; parity of the number of entries.
- **C141 Different weights are different random numbers.** An injective numbering of the weights (Python); the C++ layers restart the sequence.
- **C142 The losses of both engines return the same number.** Arrays of dimension one and two, numpy broadcasting and Eigen's shape rules; IEEE numbers without rounding; equality of the two results.
- **C143 The cross-entropy of correct, certain predictions is zero.** NaN and infinities as constructors; a single product 0 * log 0 makes the sum NaN.
- **C144 The kernels of both engines return the same values.** np.matmul and broadcasting against Eigen products, BroadcastSub and the column-major Reshape; entries compared as lists.
- **C145 The activations of both engines return the same array.** Entrywise comparison, shapes of vectors.
- **C146 The configured precision is used.** set_precision as a function of the string; pybind11 overload resolution as two rounds.
- **C147 Linear discriminant analysis with the C++ engine finds Fisher's direction.** GetW_V2 over an arbitrary valid SVD (orthogonal factors, sorted singular values): length of the vector computed through orthogonality, two-feature diagonal case solved completely; data set on which every SVD misclassifies.
- **C148 type_of_target of both engines gives the same answer.** Arrays as dtype kind, shape and values (rationals with a rounding parameter, strings as code points); comparison with the Python model of C05.
- **C149 The convex hull of the C++ engine encloses the points.** The scan of C02/C03 with arbitrary results of the two sorts; uniqueness of the sorted order for different slopes.
- **C150 The probability estimates and differences of both engines agree.** Counts modulo 2^bits; entrywise characterisation of the loop over the tensor.
- **C151 Benchmark decorators do not change what they measure.** Model.Bench: a call is a function from the state of the world to outcome and state; induction over the repetitions.
- **C152 Benchmark decorators report the times that passed.** Model.Bench: the report as a function of the clock readings; case analysis on the two thresholds, real arithmetic.
- **C153 The discriminant-analysis figure shows the model's decision.** Model.Plots: the figure as data (scatter groups, line, segments) computed from weights and samples; field arithmetic for the foot of the perpendicular; witnesses for axis-parallel and falling directions.
- **C154 The logistic-regression figure draws the probability-1/2 line.** Model.Plots: the drawn line as intercept and slope; equivalence with sigmoid = 1/2 over the reals.
- **C155 The k-means figure outlines every cluster.** Model.PlotsCluster: the figure as data, on top of the models of ConvexHull and KMeans; mapM over the clusters; C02/C03 for each hull.
- **C156 The Gaussian-mixture figure shows every sample once, in its component.** Model.PlotsCluster: groups by label; induction over samples and components for the permutation.
- **C157 The support-vector figure shows the samples, the support vectors and the decision boundary.** Model.PlotsGrid: the figure as data, the 300 × 300 grid by meshgrid/reshape; index arithmetic for the raster; intermediate value theorem for the boundary.
- **C158 The ensemble figure shows the samples and the boundaries of the ensemble and of every estimator.** Model.PlotsGrid: the same grid for every estimator; induction over the estimators.
- **C159 The figure of a Bayesian classifier shows the predicted class of every point of the window.** Model.PlotsGrid and Model.PlotsBayes on top of the models of the Bayesian classifiers; C131 for the answers at the nodes.
- **C160 predict answers with one prediction per row, in any container of rows.** Model.Calls: the containers (list, lists, 1-D and 2-D array, Series, DataFrame), the conversions np.asarray / pd.DataFrame and the row loop of every predict; the value of one row is a parameter, except for trees and logistic regression; list induction.
- **C161 One sample given as a flat vector is one sample.** Model.Calls, the branches for one-dimensional arguments and the broadcasting of the kernels and of RBF networks.
- **C162 The attributes of a DataFrame are identified by their names.** Model.Calls: selection of columns by name; a table as names and rows; the tree model for the witness.
- **C163 score is the fraction of correct rows, for labels in any container and any number of rows.** Model.Score: Metric.__call__ by the shape of the prediction and the container of the labels, on top of the metrics of C56, C57.
- **C164 A kernel called with two sets of rows returns their kernel matrix.** Model.Engines (numpy broadcasting of the kernels), matrices of any size.
- **C165 The super-parent estimator depends on the attribute that was compiled, or refuses.** Model.Spode: the object through compile and fit; induction over the call history.
- **C166 The names of the attributes do not influence the prediction of the super-parent estimator.** Model.Spode: the insertion-ordered dictionary with names as keys and the loop of predict over it; refinement to the positional model of C39, C43, C79.
- **C167 Training in two calls of fit is training for the sum of the epochs.** Model.Adam: Adam on the parameter lists with its moments and epoch counter, refined to the entry-wise rule of C52 (C52_network); SGD by induction over the draws.
- **C168 Loading a frame leaves it alone.** Model.Reload: the caller's label column after the in-place loops of the label functions; a second load on that column. Ranks of classes (Spec.Preprocess.rank) and the exact merging condition C67_iff.
- **C169 An ensemble compiled without a seed gets a seed of its own.** Model.Reload: a process as a list of events with numpy's stream of numbers; induction over the events.
- **C170 fit and predict leave the caller's frames alone.** Model.Frames: a heap of tables (values, names, row labels) shared by pandas objects; the statements of fit and predict that create or relabel tables; induction over the calls of a program.
- **C171 A call of fit that raises leaves the model as it was.** Model.FailedFit: fit statement by statement on the attributes of the instance, returning the instance and the error; refinement to the models of training (C171_*_completes); induction over epochs, columns or rounds for what a failed call leaves.
- **C172 A call of fit that raised leaves no trace in the next one.** The same model: completed calls are shown to be functions of the data alone, or to keep the rounds of the failed one.
- **C173 compile is all or nothing.** Model.Compile: compile as one assignment after the other on the instance and the random generator, returning the instance and the error. Case analysis on the getters of Model.Getters; run_shape (induction over the epochs) for what the next fit trains.
- **C174 Every configuration that compile accepts can be trained.** Model.Compile.run: every optimizer on every kind of parameters, with the monitoring. Exact characterisation: invariants of the training loops for the models that can be trained, the failing first epoch for all others.
- **C175 fit before compile is refused.** Model.Compile.fitLR/fitNN/fitRBF on the instance that __init__ makes.
- **C176 Compiling a trained model again keeps its predictions.** predict depends on the class of the optimizer and the parameters only, and compile leaves the parameters alone.
- **C177 A seeded model is trained the same way every time.** session = compile then fit, with the state of the global generator as an argument; independence of the state for new instances; a second session on the same instance continues the sequence (Init.stateAfter).
- **C178 np.random.seed makes the training of unseeded models repeatable.** The same model; the state from the operating system is the argument `entropy` of compile.
- **C179 k-means training comes to an end by itself.** Every epoch that does not stop strictly lowers the within-cluster sum of squares (strict version of C14), so the labellings of the epochs are pairwise different; there are at most n_clusters ^ n_samples of them (pigeonhole), plus a last phase with one centroid.
- **C180 k-means does not depend on units, origin or the order of the features.** Equivariance of every function of Model.KMeans under u ↦ a·u∘σ + t (argmin depends on the order only), lifted through the loop by induction.
- **C181 k-means does not depend on the order or multiplicity of the samples.** Permutation invariance of the means and of the number of labels, induction over the epochs with corresponding labellings; duplication likewise. The order of the centroids does matter (witness).
- **C182 Swapping the labels of an SVC negates its decision function.** A simulation: negate labels, error cache and bias; every step of Model.SMO commutes with it.
- **C183 An RBF support vector classifier does not depend on origin and units.** The optimiser sees the data through the kernel values only (fit_transport); the RBF values and gamma='scale' are invariant.
- **C184 Logistic regression treats the two classes and all samples alike.** Simulation over the epochs: negated parameters, complementary probabilities; sums over samples are permutation invariant.
- **C185 Newton's method does not depend on the coordinates of the features.** Equivariance of gradient and Hessian under the matrix acting on rows with the constant feature, induction over the epochs.
- **C186 Stumps, two-level trees and AdaBoost do not depend on the units of the features.** Candidate points are equivariant (sorting commutes with increasing maps), every error and weighted Gini value is unchanged, so the first best candidate corresponds; induction over the levels and over the rounds.
- **C187 Stumps, two-level trees and AdaBoost do not depend on the order of the samples.** Candidate points, weights and Gini values are permutation invariant; induction over the levels and over the rounds with the weights permuted.
- **C188 The training error of AdaBoost falls exponentially.** From the product bound C34 with 2 sqrt(e(1-e)) <= exp(-2 g^2); early stopping only happens with error below EPSILON, where the bound is below 1/n.
- **C189 Decision trees do not depend on the units of the attributes.** Equivariance of every function of Model.Tree (midpoints, values, first best candidate, generation, prediction, post-pruning) under a recoding of the data; the units are a special case. C189_whole_numbers: type_of_target makes whole-number columns discrete, so a change of unit that leaves the integers changes the model.
- **C190 Decision trees do not depend on the names of values and classes.** The same equivariance for one-to-one renamings of values and classes.
- **C191 Decision trees do not depend on the order of the samples.** Values, candidates and majority are permutation invariant; the branches of a discrete node come in another order, which no look-up sees; induction over the depth.
- **C192 Linear discriminant analysis does not depend on the coordinates.** Equivariance of mean, scatter and direction under A·x+t, (A⁻¹)ᵀ for the direction. False of the shipped get_w_v2 (U·Σ⁻¹·U where the SVD gives S = U·Σ·Vᵀ): exchanging two features changes answers.
- **C193 Linear discriminant analysis treats samples and classes alike.** Permutation invariance of the sums; the direction is odd in the difference of the means.
- **C194 A Gaussian mixture does not depend on the coordinates.** Affine equivariance of the Gaussian density (up to a constant factor), of posterior, means, covariances; induction over the epochs.
- **C195 A Gaussian mixture does not depend on the order of the samples or the numbering of the components.** Permutation invariance of the sums over samples and over components; induction over the epochs.
- **C196 The progress bar shows the remaining and the elapsed time.** Model.Progress writes the text character by character (decimal digits, rounding to nearest, both engines); a reader (Spec.Progress.value) gets the numbers back.
- **C197 The terminal shows the progress line of the current epoch.** A terminal as finished lines, current line and cursor column; induction over the epochs: the visible line is as long as the longest so far.
- **C198 The progress bar shows loss and metric to half a unit of the fourth decimal.** Digits of the nearest multiple of 10^-4 (Python) and of 10^-6, cut (C++).
- **C199 A CSV file with missing entries can be loaded.** Model.Csv: convert_dtypes and astype column by column; exact conditions for the two exceptions, otherwise the result is complete.
- **C200 from_csv keeps the whole numbers of the file.** wrap bits v = v iff v is in range.
- **C201 from_csv with normalization=True scales every column to [0, 1].** If all columns hold whole numbers the array is an integer array and the scaled values are truncated.
- **C202 fit runs the compiled optimizer from the initializer's draw, and predict evaluates the result.** Model/Compile.lean against the epochs of LogReg, Network, Adam and RBF: the generic loop is shown equal to each optimiser's own iteration by induction on the epochs; the drawn parameters by induction on the structure (Spec/Compile: StartsAs, StartsRBF, LabelsAre, indices).
- **C203 MinMaxScaler does not depend on the unit or on the order of the samples.** Model/Preprocess.lean: minimum and maximum of an affine image; permutations keep them.
- **C204 StandardScaler does not depend on the unit.** Model/Preprocess.lean: mean and variance of an affine image; the exact factor 1/a, hence equality iff a = 1.
- **C205 Encoders depend only on the order of the class labels.** Model/Preprocess.lean: the rank of a label among the classes is invariant under strictly increasing maps and permutations.
- **C206 Metrics and losses do not depend on the order of the samples.** Model/Metrics.lean as functions of the list of pairs, invariant under List.Perm; Model/Losses.lean by reindexing the sums.
- **C207 Naive Bayes does not depend on the order of the training samples.** Model/Bayes.lean: a witness for every order that value_counts may return; positive part by relating the stored counts of both orders as look-up tables.
- **C208 Naive Bayes and one-dependent estimators do not depend on the order of the attributes.** Model/Bayes.lean: the factors of a row as a function of the list of (column, cell) pairs, invariant under List.Perm; the score is a sum.
- **C209 One-dependent estimators do not depend on the order of the training samples.** Model/Bayes.lean: what predictions read of the stored elements (obs) is the same up to order; sums do not depend on the order; the exception depends on the columns only.
- **C210 AveragedOneDependentEstimator does not depend on the order of the attributes.** Model/Bayes.lean: a two-column witness; positive part when every column is a super-parent, by permuting keys of elements and factors.
- **C211 A network does not depend on how samples, features, hidden units and classes are numbered.** Model/Network.lean, Model/Adam.lean: a relation between networks (rows and columns renumbered per layer) is kept by forward, backward and the updates; induction over layers and epochs.
- **C212 Hidden units that start alike stay alike.** Model/Network.lean, Model/Adam.lean: twins are the fixed points of the renumbering that exchanges them (twins_iff), so C211 applies with the same network on both sides.
- **C213 An RBF network moves with the plane and does not depend on the order of samples or hidden units.** Model/RBF.lean: distances are invariant under motions, so the relation between parameters is kept by every epoch.
- **C214 The configured precision is the one the C++ engine computes in.** Model/Dispatch: pybind11's casters and two-pass dispatcher, the overload tables of the wrappers, and the argument types at each call site of the trainers (Site). Exact list of the call sites in double precision, exact list of the refused ones, all single in '32-bit'.
- **C215 The overload a C++ function runs is determined by the types of its arguments.** General theorems about the dispatcher on the tables: double / single / TypeError characterised by predicates on the argument types (Spec/Dispatch), any number of matrix parameters.
- **C216 Clipping a multiplier keeps it in the box on the C++ engine.** Clipping behind a monotone rounding of its arguments equals the rounding of the Python result; the box holds iff rounding moves no bound outwards; witness C = 0.1.
- **C217 A bootstrap sample of the C++ engine contains the labels it was given.** The labels come back iff they are an array of floats or integers of the data's width; the bagging call meets this; witnesses for lists and other widths.
- **C218 A Bayes classifier with discrete attributes predicts on the C++ engine.** The call is a TypeError in '64-bit' for all counts; accepted in '32-bit' and for the one-dependent estimators.
- **C219 The C++ engine treats equal integers alike.** Without NumPy integers the overload does not depend on the Python version; witnesses for n_clusters, seed and the initialisers.
- **C220 The overload that a C++ binding with mixed kinds of parameters runs is determined exactly by the types of the arguments.** Characterise every parameter kind with and without conversion, turn the dispatcher into a chain of cases (outcome_chain) and decide each table.
- **C221 With a seed, the C++ engine gives every RBF network of the same size the same initial parameters.** Model the uniform matrix and RBFNormal::PyCall with the number left over in the static normal distribution; invariants over even/odd numbers of draws.
- **C222 The centres and the widths of a fresh RBF network are unrelated.** Python: for arbitrary centres and beta exhibit a generator producing them. C++: specify the polar method and show by induction over the pairs that beta is a function of the centres.
- **C223 A History holds exactly the values of the training steps.** Operational model of a program with list identities on both engines; induction over the program.
- **C224 A list read from a History is a record of that moment.** As C223; the variable refers to the live list (Python) or to a fresh list (C++).
- **C225 History objects of the two engines are interchangeable.** As C223; compare the two runs step by step.
- **C226 Linear discriminant analysis projects on the best direction of Fisher's criterion.** Specify Fisher's criterion on the projected rows; relate the spread to the quadratic form of the scatter matrix; Cauchy-Schwarz for a positive semidefinite form with S w = mu0 - mu1, with the case of equality for uniqueness. For the engines: contrapositive of uniqueness.
- **C227 A support vector machine whose training stops by itself is optimal up to its tolerance.** Concavity of the dual (tangent inequality from the positive semidefinite Gram matrix), the equality constraint removes the bias, the KKT tests bound every term; the run is connected by C08_early_stop.
- **C228 A support vector machine trained on both classes learns something.** Compute the first update from the initial state exactly (2/distance clipped to [0,C] against the step width 1e-5) and lift to the run: an exact characterisation of the data on which training is idle.
- **C229 Training a support vector machine without a limit on the epochs comes to an end.** Termination: the dual objective is bounded on the box and every pass with a change raises it by a fixed amount (C10), so finitely many passes (Archimedean). Divergence: a nondeterministic sweep over all orders of the partners, shown sound for every sequence of permutations; the set of states is closed under it and contains no stopping state.
- **C230 The depth of a decision tree is bounded by the data.** Paths as an inductive predicate on trees; induction over the generator with the invariant that attributes used by value are no longer in the column list and that both sides of a dividing point are non-empty whenever fit returns.
- **C231 A decision tree has at most as many leaves as training samples.** Counterexample by evaluation (a branch for every value of the whole frame); induction for trees without tests by value, and a general bound by the number of value combinations.
- **C232 Pruning never enlarges a tree.** Structural induction over the pruners with the fact that every discrete node of a fitted tree has a branch.
- **C233 An epoch of Newton's method never increases the loss.** A closed form of the Newton step on four noisy rows (u -> u - sinh u) gives divergence from an open set of initial parameters by induction; for steps that change no score by more than 1, a third-order bound of the logistic loss gives descent.
- **C234 Newton's method trains on every data set.** The Hessian is the Gram matrix of the rows with positive weights, so it is singular exactly if the attributes with the constant are linearly dependent.
- **C235 Newton's method converges quadratically near the optimum.** Newton-Kantorovich argument with generalised self-concordance of the logistic loss: the relative size of the steps squares in every epoch; limit by completeness, optimality by convexity.
- **C236 Adam's steps are bounded whatever the data.** Induction over the epochs: (1-b2) m^2 <= (1-b1^t)(1-b1) v by Cauchy-Schwarz, so the bias-corrected quotient is bounded; lifted to networks by C52_network.
- **C237 On separable data gradient descent learns every training sample.** C83's convergence bound against c*u for the separating vector u; a loss below log 2 makes every row correct; Cauchy-Schwarz for the growth of the parameters.
- **C238 Gradient descent with the default learning rate approaches the best parameters.** On four noisy rows the epoch is the scalar map u -> u - 2 lr a^2 tanh(u/2): instability at 0 by its derivative, a cycle of length two by the intermediate value theorem. With a small rate, C83's bound gives the limit.
- **C239 A Gaussian mixture can be trained on every data set.** The quadratic form of a new covariance is a weighted sum of squares with positive weights, so it is definite exactly if no linear combination of the attributes is constant; induction over the epochs.
- **C240 Only samples at the bound C are misclassified in training.** The KKT test with a multiplier below C says y*f >= 1 - tol; counting. Coarse data (C228) as counterexample.
- **C241 With the linear kernel the SVC is a linear classifier.** C124's decision function, exchanging the sums; convexity of half-spaces.
- **C242 Far from the support vectors an RBF classifier answers by its bias.** The kernel sum is bounded by (sum of |alpha y|) * exp(-gamma R).
- **C243 A constant attribute does not influence the model.** Distances, means and kernel values are unchanged, then induction over the epochs; the failures follow from the rank conditions of C234 and C239.
- **C244 Pre-processing is idempotent.** The range of min-max scaled data is [0,1] (C61); mean and variance of an affine image; case distinction over the columns of the imputer.
- **C245 Bayes classifiers do not depend on the names of the values of discrete attributes.** Stored counts are renamed with the values; the factors read are equal, by induction over the attributes.
- **C246 Bayes classifiers do not depend on the unit and the origin of continuous attributes.** Mean shifts, variance scales by a^2: closed form of the answer in the unit a, from it the exact condition.
- **C247 An epoch of clustering reproduces the moments of the data.** Exchange of the sums over samples and components (responsibilities of a sample add up to one); for k-means partition of the samples by label and the parallel-axis identity; lifted to the loop by its invariants.
- **C248 Random initialisation of k-means starts the training.** A repeated row gives two equal centroids; the second one is nearest to no sample, so the new centroids are fewer than the old ones. Counting of the draws by embeddings.
- **C249 The convex hull does not depend on the order of the points.** The second sort is stable, so its result is sorted lexicographically by slope and x; that order determines points, hence the list.
- **C250 The convex hull moves with the coordinates.** Slopes change by an increasing map, cross products by a positive factor; both sorts and the scan commute with the map.
- **C251 The vertices of the convex hull span the points.** Invariant of the scan with Mathlib's convexHull: a removed vertex is in the triangle of the start, its neighbour and the new point.
- **C252 Logistic regression becomes calibrated on its training set.** The components of the gradient are the calibration errors; telescoping of the descent inequality bounds the sum of their squares, which are therefore summable.
- **C253 A hidden unit that is inactive on the training set never learns.** The derivatives of a silent unit are 0 on every sample; induction over the drawn samples (for Adam over the prefixes, with zero moments).
- **C254 Logistic regression on several copies of the data.** Gradient and Hessian of r copies are r times those of one; induction over the epochs. Gradient descent: exact equivalence with a learning rate r times as large.
- **C255 Linear discriminant analysis on several copies of the data.** The scatter matrix is multiplied by r, the projection vector by 1/r (C++: r); predictions are invariant under positive factors.
- **C256 Clustering several copies of the data.** Means, covariances, coefficients and centroids are quotients of sums that are all multiplied by r; induction over the epochs.
- **C257 Decision tree from several copies of the data.** Frequencies, sets of values and midpoints do not change; induction over the recursion of the generator.
- **C258 Decision stump from several copies of the data.** Counter-example by evaluation; every value becomes a candidate point, hence minimality over all threshold rules.
- **C259 Naive Bayes from several copies of the data.** Counts are multiplied by r; unsmoothed quotients are unchanged, smoothed ones exactly when uniform; a data set where the prediction flips.
- **C260 Metrics and scalers on several copies of the data.** Counting and sums of copies.
- **C261 Increasing transformations of the attributes of a decision tree.** The candidate thresholds of the transformed column lie in the same gaps; the sequence of scores is equal, hence the same attribute and corresponding thresholds are chosen; induction over the recursion. A new row inside a gap may be answered differently (C261_new_row).
- **C262 Convex decision regions.** Differences of squared distances, projections and linear scores are affine along a segment; ties are handled with the first-minimum specification of argmin. A witness shows that full decision trees do not have the property (C262_tree_not_convex).
- **C263 A larger ensemble begins with the smaller one.** Induction over the rounds.
- **C264 One cluster, one component.** All posteriors are 1 (labels 0), so the first epoch yields mean and covariance and the second finds no difference.
- **C265 predict over every history of fit and load calls.** One transition function for all calls of a class; readiness of the flags is characterised by induction over the history, with the invariant that a ready instance has all attributes that predict reads.
- **C266 Only the last completed call matters.** A completed call overwrites everything predict reads (LDA, k-means; load_weights everywhere); counterexamples for the others.
- **C267 A linear support vector classifier does not depend on the coordinate system.** Inner-product kernels: a rotation leaves the kernel values, hence the whole run, unchanged. Origin: the dual problem is unchanged (sum of alpha*y is 0), the run is not.
- **C268 A polynomial kernel gives all boundaries up to its degree.** The decision function of C124 with the kernel expanded is a form of degree p plus b; even forms are symmetric, odd powers are monotone.
- **C269 A support vector classifier does not depend on the order of the training samples.** Re-indexing of the dual problem; a concrete run of the model in two orders for the training.
- **C270 Both optimisers of logistic regression find the same model.** Stationary points of the convex cost have the same scores (strict monotonicity of the logistic function along a segment); a regular Hessian gives injectivity of the scores.
- **C271 The cross-entropies reward the true probabilities.** Gibbs' inequality from log t <= t - 1 with its equality case.
- **C272 Ensembles compiled with different seeds are trained on different bootstrap samples.** Member i is learned from the bootstrap sample of seed + i (C36): shifting the seed shifts the members.
- **C273 The votes of an ensemble.** Votes are sums: permutations, signs.
- **C274 The RBF kernel separates all distinct rows.** Expansion of exp of the inner product as a series of squares of moments; if all moments vanish, a Vandermonde determinant along a separating direction forces all coefficients to vanish. Strict concavity of the dual objective.
- **C275 Min-max scaling in floating point stays between 0 and 1.** Spec/Rounding.lean: what a rounding is, and IEEE round to nearest even, proved to be one. Model/Rounded.lean: the scaler with a rounding after each operation. Monotonicity of the rounding.
- **C276 The inverse of min-max scaling gives the numbers back.** Same model; the minimum is restored because 0 times anything plus the minimum is exact; a concrete pair for the failure.
- **C277 Softmax rows are probabilities in floating point.** Sums as binary trees of additions; a sum of non-negative numbers is at least each of them; relative error by induction on the tree. Underflow of the correctly rounded exponential function decided exactly.
- **C278 Sample weights and posterior probabilities in floating point.** As C277, with products of double precision rounded twice. The first weights: n times a binary fraction is 1 only for powers of two.
- **C279 Mixing coefficients with sum 1 are accepted.** Dyadic coefficients are added exactly; concrete lists for the failures.
- **C280 Different values are separated by their dividing point in floating point.** Rounded midpoints of numbers of the format lie between them; generation succeeds by induction if they separate; recursion without end by induction on the limit if they do not.
- **C281 The sigmoid in floating point.** Monotonicity of roundings; bounds of exp for the exact values.
- **C282 Multipliers stay in the box in floating point.** Interval arithmetic with an absolute error per operation; concrete multipliers for the failures.
- **C283 Accuracies compare as exact fractions.** Error bound 2(u+eta) against the gap 1/n.
- **C284 Standardizing equal values in floating point.** Monotonicity; the sums of one and two equal numbers are exact; a concrete array of three for the failure.
- **C285 The convex hull in floating point.** Model/HullRounded.lean: the hull with a rounding after each operation. Differences and products of small integers are exact, quotients of different small fractions stay in order because their relative distance exceeds the error; so the sort and all turns are the same as exactly.
- **C286 K-means labels in floating point.** Model/KMeansRounded.lean: distances and argmin with a rounding after each operation and a rounded square root. Error analysis of differences, squares, sums along any order and roots gives the factor; a clear winner is found. Exact counterexamples by evaluation.
- **C287 K-means centroids in floating point.** Same model: the mean along any order of summation; error analysis with signs; clusters of one and two samples by monotonicity; evaluation for three equal samples.
- **C288 AdaBoost's sample weights stay usable through a whole training.** Model/BoostRounded.lean: the loop with a rounding after each operation, the error summed in any order, alpha in double precision. Invariant of the loop: the total is near 1, so a weight is at least about 1/n and cannot underflow when multiplied by exp(-alpha), because alpha is at most log(1/EPSILON)/2.
- **C289 A perfect test is found in floating point.** Model/CriteriaRounded.lean: the criteria with a rounding after each operation and sums in any order. An impurity computed this way is exactly 0 on pure groups and at least 2^-22 (Gini: error analysis of the sum of squares) or 2^-20 (entropy: a label with at most half of the samples) otherwise; shares of groups are at least 2^-20, so a weighted value is 0 iff all groups are pure; for the gain the difference exceeds the rounding error of the entropy.
- **C290 Data that one attribute separates give a tree with one question.** Same model with the generator of Model/Tree.lean: a perfect test makes all children leaves. Holds if the dividing point is stored unchanged (columns not of higher precision than the library); a 64-bit column in 32-bit mode gives a counterexample with unlimited recursion.
- **C291 A value nearer to the mean has at least the density.** Model/Bayes.lean density with a rounding of Spec/Rounding.lean: the exact formula decreases with the distance and roundings are monotone, so only the replacement of 0 by 1e-36 can break the order; the distance at which the formula is 2^-140 gives the counterexample for every mean and variance.
- **C292 Naive Bayes predicts the class with the nearer mean.** nbFit and nbPredict of Model/Bayes.lean: priors are 1/2, so the densities decide; exact arithmetic: iff; any rounding: one direction when nothing underflows; single precision: an interval of values where class 0 has a subnormal density and class 1 the constant 1e-36.
- **C293 A network's training step lowers the loss of the drawn sample.** From the gradients of C51 and C88 (directional derivatives along every direction): the step moves along minus the gradient (SGD), a positive multiple of it (binary output) or a vector with the same signs (first step of Adam); the derivative of the loss along it is negative because the derivative with respect to the output biases is never zero.
- **C294 An epoch of the RBF network does not raise the error.** Closed form of an epoch from C53. For a perfect network the gradients of weights and bias vanish but the widths move, in the direction that lowers every unit's contribution; for zero output weights the error is a quadratic function of the learning rate.
- **C295 The binary loss of a trained network is a finite number.** Composition of the single-precision sigmoid (C281, exponential correctly rounded) with the losses over numbers extended by infinities and NaN (C143). The logarithms and sums of the loss itself are exact in the model, which can only make it finite more often.
- **C296 Compiling or loading makes a support vector classifier as good as new.** Histories as a relation over the SVC object of C124, with loads of incomplete files and trainings that raise at every point where the code can; invariant on the marks and the kernel attribute; induction over the history.
- **C297 fit of a support vector classifier uses the compiled parameters.** Same histories: a load followed by fit is shown to equal compile with the parameters of the file followed by fit; C and tol are kept by every call of fit.
- **C298 Attributes a decision tree does not ask about do not influence it.** A simulation between the two runs of the generator: the first minimum (maximum) over all columns, when it is a kept column, is the first one over the kept columns; induction over the recursion limit and the branches. Trees are compared by renumbering; attrs and renumber are defined separately in Spec/TreeDrop.
- **C299 A sample that is learned keeps its answer.** Mean and variance after one more value in closed form; the density the code computes (variance in place of the standard deviation) at that value rises whenever the variance does not, and falls below the other class otherwise. Both for the composed fit and predict.
- **C300 Bootstrap samples represent the data on average.** bootstrapSampling of C01 evaluated in closed form for every index array; the sums over all arrays by exchanging sums and by the product formula for functions; the limit from Mathlib.
- **C301 No classifier makes fewer training errors than an unpruned decision tree.** Induction over the recursion of the generator with the invariant that rows agree on the attributes already used: the group of samples equal to a row travels as a whole, and every leaf is pure or carries the majority of equal rows. The comparison with any function by summation over the groups.
- **C302 Post-pruning finds the best pruned tree.** All prunings as an inductive relation (Spec/PruneBest); induction over the tree: the validation score of a node is the sum over its branches, and the result is a maximum wherever the code compares with the leaf. A fitted tree shows that the code does not compare at nodes above a kept branch.
- **C303 Linear decisions survive rounding.** Scalar products as trees of rounded products, fused multiply-adds and rounded sums (Model/ScoreRounded); induction over the tree gives the textbook error bound; the last addition of the threshold keeps the sign; single precision witnesses by kernel evaluation.
- **C304 Discriminant analysis survives rounding.** The same error bound for the three scalar products, and the relative error of the two differences.
- **C305 The margins of AdaBoost grow with training.** From the exponential bound of C34 (Markov's inequality at exp(theta * sum of coefficients)), the formula of the coefficients, and the weighted inequality of means for the rate.
- **C306 An ensemble is at most twice as bad as its members.** Double counting of the votes: a wrong row is wrong for half of the coefficients; sum over the rows by induction.
- **C307 A decision tree on continuous attributes cuts the space into boxes.** Boxes with optional bounds (Spec/TreeBoxes); induction over the tree, the boxes of the branches cut by the question of the node.
- **C308 Only the support vectors matter.** The problem restricted to chosen samples (Spec/SVMSubset); sums over all samples reduce to the chosen ones; the KKT theorem of C227 for the added samples.
- **C309 Decision trees and contradictory samples.** The criterion proposes a midpoint for columns with a fractional value; both rows go to the same side until the recursion ends; conversely a node with two labels has two different rows, so a midpoint, and both sides are smaller.
- **C310 The centroids of k-means stay in the convex hull of the data.** Induction over the epochs with the cluster means of C14; a mean satisfies every linear inequality of its samples.
- **C311 RBF networks far from the data.** The Gaussian of a non-negative width is at most one and tends to zero; for a negative width the unit dominates along an axis; the first epoch by the step equation.
- **C312 Histories of a BP network: predict refuses until trained.** Invariant over histories: the flags of the instance, and the parameters exist once one of them is set.
- **C313 Histories of a BP network: compile and fit, or load, start anew.** Induction over histories; a load sets the flag that makes later fits skip the initialisation; overwriting by key leaves the keys of deeper networks.
- **C314 Histories of a naive Bayes classifier: predict refuses until trained.** Invariant over histories, as C312.
- **C315 Histories of a naive Bayes classifier: the last compile, fit or load decides.** The loop of fit overwrites the entries of all names; the priors are those of the compile before fit.
- **C316 Histories of a decision tree classifier: predict refuses until trained.** Invariant over histories: an instance whose flags allow prediction has a tree.
- **C317 Histories of a decision tree classifier: compile and fit, or load, start anew.** Induction over histories; the flag of load_weights makes later fits skip the generator; load_weights wants the pruning of the file only if the instance has a pruner.
- **C318 Histories of Gaussian mixtures and RBF networks: predict refuses until trained.** As C316; for mixtures the flag is set before the last computation of fit.
- **C319 Histories of Gaussian mixtures and RBF networks: compile and fit, or load, start anew.** fit of a mixture overwrites all parameters; fit of an RBF network continues from the parameters once a file was loaded.
- **C320 An interrupted save is noticed.** save_weights as a list of writes (C320_all_writes: after all of them the file is the saved one); a prefix lacks the last attribute, which load_weights reads; the file of an interrupted save of a network is the file of a save with fewer parameters.
- **C321 A repeated attribute of a decision tree.** the first best attribute of the loop is never the later of two equal columns while the earlier one is available; after the earlier one is used up the later one is constant, and asking about it leads to the same rows; induction over the generation.
- **C322 A repeated attribute of stumps, two-level trees and AdaBoost.** the running best is not improved by a column with the values of an earlier one; induction over the levels, then over the rounds (loop_alike).
- **C323 An attribute given twice counts the square root of two times.** kernel values of the two writings of the rows are equal, so the whole SMO run is; for gradient descent an invariant (merge) between the two parameter vectors is preserved by every epoch.
- **C324 A repeated attribute does not stop the training.** equal columns make the Hessian, the scatter matrix and the covariances singular; from C234, C45 and C239.
- **C325 Histories of one-dependent estimators: predict refuses until trained.** Invariant over histories with the generic able_run; every stored element carries the smoothing it was fitted with.
- **C326 Histories of one-dependent estimators: the last compile and fit, or load, decides.** Induction over histories: nothing is stored and no super-parent index is kept before the first completed call; loads replace, fits append; the averaged estimator empties its members before it checks the table.
- **C327 Evaluation in batches.** Counts and sums over concatenations.
- **C328 Mean squared error in batches.** The square of a sum; equivalence with one batch having total residual zero.
- **C329 A repeated attribute of a naive Bayes classifier.** The factor lists of the longer table are those of the shorter one with one factor repeated; C42 turns both into products.
- **C330 An incomplete weights file is reported as KeyError.** Case analysis over which attributes are present, for every state.
- **C331 Misuse is refused without side effects.** Case analysis over the checks at the beginning of each method.
- **C332 The convex hull of a convex hull.** The vertices come in the order of the scan and never turn right, so the second scan pops nothing.
- **C333 Two classes: softmax and sigmoid, and the logarithmic losses.** Algebra with exp and log.
- **C334 Small disturbances do not change a clear answer.** Triangle inequality and Cauchy-Schwarz; the slope of the sigmoid and of the Gaussian by the mean value theorem; induction on trees and on their generation.
- **C335 One-dependent estimator with a constant super-parent.** Both estimators store the same counts; the constant column contributes the factor one and the joint prior is the class prior.
- **C336 k-means finds well separated clusters.** Triangle inequality; the mean of a group is within D of what all its samples are within D of; then the loop is run by hand.
- **C337 A naive Bayes classifier that is right on a sample and is trained on it too.** Every estimate of the class does not fall, those of the other class do not change, the prior moves towards the class; product over the attributes.
- **C338 The influence of Laplace smoothing fades.** Counts of r copies are r times the counts (C259); the smoothed quotients converge, so do the products over the attributes, and a strict inequality of limits holds eventually.
- **C339 The regions of a Gaussian mixture.** The posterior is the weighted density over a common positive sum; with a common covariance the logarithms of two weighted densities differ by an affine function of the row.
- **C340 Linear discriminant analysis and the Mahalanobis distance.** The difference of the two squared distances is affine in the row, with slope twice the solution of the scatter equation; that solution is positive on the difference of the centres because the scatter is positive semidefinite and invertible.
- **C341 The best constant forecast.** The loss of a constant depends on the mean label only, so Gibbs' inequality for one sample applies; a logistic regression with zero weights and the logit as bias is that constant, and gradient descent approaches the infimum.
- **C342 Decision trees and the order of the attributes.** Induction on the generation: a strictly best attribute is found in any order of the columns; the trees are compared by renumbering.
- **C343 Decision stumps, two-level trees, AdaBoost and the order of the attributes.** A part of the candidates that contains a strictly best one decides the search alone, whatever stands before and after it; renumbering for the rest. The number of mistakes of the stump is the minimum over a set of candidates that does not depend on the order.

## Where the code violates the property

Each entry has a machine-checked witness theorem, named in parentheses.

- **C05**: the C++ type_of_target compares float32 values, so distinct float64 values can collapse (C05_cc_disagrees).
- **C09**: the C++ select_second_alpha picks the wrong index (C09_cc_wrong).
- **C10**: an accepted SMO step can decrease the dual objective because the error cache is stale (C10_dual_can_decrease).
- **C11**: the error cache is not refreshed for samples that enter the box later (C11_cache_stale).
- **C13**: an empty cluster yields a NaN centroid row and training stops although the labelled clusters have other means (C13_stop_with_empty_cluster).
- **C15**: with an empty cluster `fit` collapses to one centroid or raises ValueError (C15_collapse, C15_fit_fails).
- **C16**: `np.squeeze` turns an n x 1 centroid matrix into row indices, and makes 1-cluster initialisations fail (C16_column_is_indices, C16_row_refused, C16_single_index_refused).
- **C71**: negative mixture coefficients are accepted when they sum to 1, and give negative "probabilities" (C71_negative_accepted, C71_negative_posterior).
- **C02**: with two points of smallest x (for instance any axis-parallel rectangle) ConvexHull raises OverflowError: the slope np.inf is put in an int32 array (C02_vertical).
- **C03**: with duplicated points the returned polygon does not enclose the input (C03_duplicates_wrong).
- **C21**: a numerical column that looks integer inside a subset is tested by value; new values raise KeyError (C21_numeric_keyError).
- **C23**: a dividing point rounded to single precision may not separate the rows; generation then recurses until RecursionError (C23_rounding_diverges).
- **C25**: heights of continuous nodes are the sum of the branch heights plus one (C25_height_wrong).
- **C27**: the height loop of the post-pruner mixes up heights and heights plus one (C27_height_wrong).
- **C28**: pre-pruning raises IndexingError on continuous nodes, KeyError on values without training row in the node, and records too large heights (C28_continuous_fails, C28_unseen_fails, C28_height_wrong).
- **C56**: rows with a label outside {-1, 0, 1}, and rows without label, are counted as correct (C56_other_label_counted_correct, C56_short_labels).
- **C73**: score of a classifier with three classes is not the fraction of correct rows (C73_three_classes).
- **C29**: with one training row no stump is found and predict raises TypeError (C29_single_sample).
- **C75**: a second AdaBoost fit, or a fit after load_weights, raises AttributeError; a second Bagging fit adds to the old estimators (C75_adaboost_refit_fails, C75_adaboost_fit_after_load_fails, C75_bagging_accumulates).
- **C76**: AdaBoost on equal rows with balanced labels has only zero coefficients and every prediction is NaN converted to an integer (C76_equal_rows_nan, C76_witness).
- **C37**: with smoothing and one class only, the Python implementation gives the absent class probability 0, unlike Laplace correction and the C++ implementation (C37_one_class).
- **C41**: naive Bayes attaches the counts, computed in order of first appearance, to the values in order of frequency (C41_swapped).
- **C42**: with probability=True naive Bayes returns quotients of log scores: the more probable class gets the smaller number (C42_probability_inverted).
- **C43**: a second fit of a one-dependent estimator keeps the estimates of the first (C43_refit_accumulates, C43_witness).
- **C77**: the variance is passed where the formula needs the standard deviation (C77_variance_as_deviation).
- **C78**: averaged one-dependent estimators look up the i-th super-parent in the i-th column; a continuous first column makes them answer 1 for every row (C78_always_one).
- **C79**: one-dependent estimators multiply the estimates for all super-parent values (C79_all_values).
- **C80**: a discrete column with one distinct value makes NaiveBayesClassifier.fit raise IndexError (C80_single_value).
- **C45**: get_w (= get_w_v2) multiplies the SVD factors elementwise; for every non-diagonal scatter matrix, and for diagonal ones in ascending order, the LDA direction is wrong, in the latter case zero (C45_v2_violated, C45_v2_zero); the C++ backend multiplies by the singular values instead of dividing (C45_cc_violated).
- **C81**: on a well separated data set LDA predicts 0 for every row, the mean of class 1 included (C81_violated).
- **C82**: LDA trained on rows of class 1 only predicts 0 everywhere (C82_violated).
- **C59**: MeanSquaredError squares the sum of the errors: opposite errors cancel and the loss of wrong predictions is 0 (C59_violated, C59_zero_iff); for the shapes (n,1) and (n,) it is n^2 times larger (C59_broadcast).
- **C86**: softmax subtracts the maximum of the whole matrix, so a row far below it underflows to 0/0 (C86_underflow).
- **C87**: softmax of the Python backend shifts the caller's array in place (C87_violated).
- **C88**: binary BPNN back-propagation: output error is p(1-p)(-(y/p-(1-y)/(1-p)) - p) instead of p - y (`sigmoid.diff` subtracts the prediction again); wrong by the factor 1-p+p^2 or 1+p^2.
- **C89**: BPNN with k>=2 outputs silently accepts a column of integer labels and uses the binary formula by broadcasting; never a cross-entropy gradient.
- **C53**: RBF optimiser uses y_pred instead of y_pred - y_true in drho: the beta update ignores the labels.
- **C91**: RBF fit with a label vector of length n>=2 raises ValueError (broadcast to (n,n)).
- **C92**: RBF centres are always drawn with two columns: any data set with 3 or more features raises ValueError.
- **C55**: progress bar: full before the last epoch for n >= 26; the C++ bar uses integer division and never moves (26 cells).
- **C95**: History of logistic regression pairs the loss after the update with the metric before it; RBF records lag one epoch.
- **C96**: the progress bar of a verbose fit stays in the optimiser: later fits with verbose=False still print, with the old total.
- **C97**: _get_optimizer_parameters: omitted arguments become the strings 'verbose', 'loss', 'metric', 'callbacks'; string values equal to a name are overwritten by keywords.
- **C98**: Sigmoid kernel (gamma=1, beta=1, theta=-1) gives K(0,0)=tanh(-1)<0 and negative SMO curvature.
- **C62**: StandardScaler divides by the variance instead of the standard deviation.
- **C65**: Imputer converts every numeric column to float32 and back: integers above 2^24 change although present.
- **C66**: binary labels: class_indices follows the sorted order, y the key words: 'Yes'/'no' disagree; integer labels such as 1/2 stay raw while class_indices says 0/1.
- **C67**: _preprocessing_categorical_labels relabels sequentially in place: labels -1, 0, 1 are merged into one class.
- **C99**: scalers with the default axis raise ValueError on every non-square table; on square tables entry (i,j) is scaled with row j.
- **C100**: reused OneHotEncoder keeps stale classes; two classes share a code.
- **C101**: two integer classes other than 0/1 with label_mode one-hot or max-margin raise KeyError.
- **C102**: from_tensor_slices: TypeError for one-hot/max-margin (labels are reshaped to a column), AttributeError without labels even for unsupervised data, class_indices forgets all but two classes.
- **C103**: class_indices accumulates over loads of multi-class frames.
- **C104**: normalization of an integer table truncates: all entries become 0 except the maxima, which become 1.
- **C107**: from_tensor_slices with fillna=False overwrites the caller's float32 array.
- **C69**: get_metric returns None for unknown names instead of raising; get_loss silently falls back to Crossentropy.
- **C70**: DecisionStumpClassifier and TwoLevelDecisionTreeClassifier have no guard: AttributeError instead of ValueError.
- **C110**: degree of a polynomial kernel, beta/theta of a sigmoid kernel and an own gamma of a kernel instance are not saved; predictions change after reload.
- **C111**: attributes are assigned one by one: a file with a missing attribute leaves a half-overwritten model.
- **C112**: the file is opened with mode 'w' before the model is validated: a failed save destroys the previous file.
- **C113**: arrays are stored as HDF5 attributes (64 KB limit): models with many samples or support vectors cannot be saved.
- **C114**: networks keep surplus layers of the loading instance; n_components / n_clusters are not saved; a tree compiled with pruning cannot load a file without.
- **C115**: DecisionTreeClassifier.fit after load_weights ignores the data.
- **C117**: after post-pruning the recorded height can be too small (C27), and plot_tree then draws nodes below the visible canvas (C117_off_canvas: two leaves at y = -1).
- **C118**: the bias is the mean of the two candidates even if only one multiplier is strictly inside the box, so that sample is off its margin right after its update (C118_off_margin).
- **C121**: with n_components = 1 or one feature, np.squeeze changes the shape and every explicit covariance array is refused with ValueError (C121_one_refused); matrices that are no covariances are accepted (C121_not_validated).
- **C125**: a second SVC.fit on other data silently uses the gamma of the first data set (C125_refit_stale).
- **C126**: an SVC trained only on the class -1 answers +1 for every row (C126_negative_class_lost).
- **C87**: softmax subtracts the maximum in the caller's array (C87_violated) and Relu.diff zeroes entries of the caller's output array (C87_relu_diff_violated); the C++ versions copy.
- **C132**: C++ bootstrap indices abs(v) % n are not uniform unless n divides 2^30 (C132_not_uniform); on Windows rows beyond 16384 are never drawn (C132_never_drawn).
- **C133**: the C++ compare_differences subtracts matrices of different shapes as soon as a cluster is empty (C133_empty_cluster).
- **C134**: the C++ init_centroids reads a list of numbers as centroids for one feature and a matrix with as many entries as clusters as indices (C134_engines_differ).
- **C136**: BroadcastSub of a one-row and a zero-row matrix subtracts matrices of different sizes (C136_no_rows).
- **C138**: XavierNormal multiplies the parameters of a logistic regression by sqrt(d) instead of sqrt(2/(N_in+N_out)) (C138_violated, C138_grows).
- **C139**: the seed is applied to numpy's global generator when the initialiser is constructed, so the last model compiled decides and a second fit continues the sequence (C139_last_seed_wins, C139_second_call).
- **C140**: the static std::normal_distribution keeps its second number between calls although the engine is re-seeded: equal seeds give different parameters (C140_violated).
- **C141**: the C++ engine is re-seeded for every layer: layers of equal shape start with identical weights (C141_cc_violated).
- **C142**: classicML/backend/python/losses.py:148-149 broadcasts predictions of shape (n,1) against labels of shape (n,) to (n,n); losses.cc:139-150 does not, so the losses differ by the factor n^2. `Crossentropy` of a vector: IndexError in Python, accepted in C++. Class numbers instead of one-hot rows: silently used as weights in Python, undefined behaviour in C++.
- **C143**: losses.py:49-50, 74-75 (and losses.cc:45-50, 69-74) multiply 0 by log 0: perfect predictions, or a softmax entry that underflows to 0, make the reported loss NaN.
- **C144**: kernels.cc:37-41 takes any matrix with one column for a vector: with one feature `cc_calculate_error` calls the kernel on an (m,1) matrix, which becomes (1,m); the product is then undefined (Linear, Polynomial, Sigmoid) or ValueError (RBF). Several rows against several rows come back as one row in column order. RBF without support vectors is undefined.
- **C145**: pybind11 turns a vector into a column: softmax of a vector is an array of ones in C++ and ValueError in Python; Sigmoid.diff with a label vector is (n,1) in C++ and (n,n) in Python; Relu.diff with a smaller second argument is IndexError in Python and silently partial in C++.
- **C146**: losses_wrapper.cc, metrics_wrapper.cc: the float32 overload is registered first, and labels are integers (`_cml_precision.int`), so no overload matches without conversion and the 32-bit one is used even with CLASSICML_PRECISION='64-bit'.
- **C147**: ops.cc `GetW_V2` multiplies by the singular values instead of dividing, and uses Vᵀ for V: `w` weighs the feature that varies most the most. `C147_violated`, `C147_wrong_line`, `C147_misclassified`. An empty class is undefined behaviour (`C147_empty_class`).
- **C148**: C++ `type_of_target` compares only the first byte of strings, rounds numbers to float32, converts out-of-range floats to int32, and leaves its counter unassigned for bool and unsigned arrays. `C148_first_character`, `C148_continuous_lost`, `C148_out_of_range`, `C148_other_kinds`.
- **C149**: C++ ConvexHull sorts by slope with an unstable sort, so collinear points may produce a polygon that leaves out an input point; the largest float stands for infinity, so steeper points are sorted behind vertical ones. `C149_unstable`, `C149_overflow`. Points straight above the leftmost are accepted, unlike in the Python engine (`C149_vertical`).
- **C150**: C++ `GetConditionalProbability` adds counts in uint32; `C150_wraps`.
- **C151**: average_timer repeats the effects of the function `repeat` times and, for repeat <= 0, does not call it at all but raises ValueError (np.min of an empty array).
- **C153**: plot_linear_discriminant_analysis divides by the first weight (no line for a vertical direction), shows only the first quadrant, and for more than two features draws segments that are not perpendicular.
- **C154**: plot_logistic_regression divides by the second weight, and takes beta[2] as intercept whatever the number of features: a model trained on three features is drawn with the weight of its third feature as intercept.
- **C155**: plot_k_means raises for every trained model that has a cluster with a single sample (IndexError) or two samples sharing the smallest x (OverflowError), and uses the n_clusters of the constructor, which load_weights does not restore.
- **C157**: plot_support_vector_classifier evaluates the classifier on the fixed window [0, 1] × [0, 0.8]: for data elsewhere no boundary is drawn.
- **C158**: plot_ensemble evaluates the ensemble on the fixed unit square: for data elsewhere no boundary is drawn.
- **C159**: plot_bayes raises KeyError for every model with a whole-number attribute, even with its own training data.
- **C160**: predict of LDA and logistic regression returns a number for a batch of one row; predict of the network and the ensembles raises for lists and DataFrames; decision trees and naive Bayes raise for a list of rows.
- **C161**: predict of a flat sample: logistic regression, ensembles and SPODE raise; the SVC with the Gaussian kernel answers once per entry of the sample, the RBF network repeats its answer.
- **C162**: predict of a decision tree takes the columns of a DataFrame by position although fit takes them by name.
- **C163**: score raises for labels in a list or Series, is always 1 for labels in a DataFrame, raises for a single row with LDA or logistic regression, and is the fraction predicted as class 0 for integer labels of a multi-output network.
- **C164**: The Gaussian kernel on two sets of rows returns the diagonal of the kernel matrix, or raises if the sizes differ.
- **C165**: SPODE: an unknown super-parent name is accepted on a second fit; the position of the former super-parent is used.
- **C166**: SPODE: an attribute called 'p_c_xi' makes every prediction raise; two attributes with the same name collapse into one, read at the wrong position.
- **C167**: Training cannot be continued: fit re-initialises the parameters unless weights were loaded, and Adam restarts its moments and its epoch counter in every call.
- **C168**: from_dataframe writes the class numbers into the caller's label column; loading the same frame again loses the class names, and with eleven or more classes merges classes ("10" sorts before "2").
- **C169**: The default seed of BaggingClassifier.compile is drawn once at import: all classifiers compiled without a seed share it and, on the same data, are identical.
- **C170**: fit and predict without attribute names reset the row labels of the caller's own DataFrame (and, for SPODE/AODE, of the caller's label Series).
- **C171**: fit overwrites the attributes of a trained model before it can fail: after a failed call logistic regression answers with random parameters, LDA with old projection and new means, naive Bayes with a mixture of old and new columns, bagging with additional learners.
- **C172**: Learners of a failed first call of fit stay in BaggingClassifier.estimators and AdaBoostClassifier.estimators and take part in all later predictions.
- **C173**: compile assigns its attributes one after the other: a misspelt optimizer raises after network_structure (hidden_units) was replaced, and the next fit trains the refused structure with the old optimizer.
- **C174**: compile accepts every optimizer for every model (logistic regression with 'adam', a network with 'gd' or 'SMO'), any string as a metric and the loss 'log_likelihood' for networks; fit then raises on all data.
- **C176**: Compiling a trained model again with an optimizer of another family makes predict raise for every input, although the parameters are still there.
- **C177**: compile replaces self.initializer by an object which the next compile returns as it is, so that the seed is used only once: a second compile and fit of the same seeded instance gives another model.
- **C178**: Without a seed compile calls np.random.seed(None), which discards the state the user set with np.random.seed.
- **C192**: get_w_v2 (used by fit) depends on the order of the features: C192_violated gives a data set whose rows change class when its two features are exchanged, whatever singular value decomposition LAPACK returns.
- **C196**: The bar shows '60s' for the last half second before a minute (C196_sixty); the time per step before the last epoch is too small by e/n (C196_per_step); the C++ bar shows 0s for every epoch within one second and one whole second for an epoch of any length that crosses one (C196_cc_whole_seconds).
- **C197**: A shorter progress line leaves the end of the previous one on the terminal (C197_violated): digits of the old metric appear behind the new one.
- **C198**: The C++ bar cuts instead of rounding: 0.99996 is shown as 0.9999 (C198_violated).
- **C199**: from_csv raises ValueError for every file with a column of whole numbers in which an entry is missing (C199_whole_numbers) and TypeError for a text column whose first entry is missing (C199_text_gap_first), although fillna=True.
- **C200**: from_csv reduces whole numbers modulo 2^32 without a warning (C200_violated).
- **C201**: from_csv with normalization=True turns every file of whole numbers into zeros and ones (C201_violated).
- **C204**: StandardScaler divides by the variance (preprocessing.py:359), so that its output depends on the unit of measurement: data in centimetres give values 100 times smaller than the same data in metres.
- **C207**: NaiveBayesClassifier pairs the names of value_counts (most frequent first) with counts in order of first appearance (naive_bayes_classifier.py:112-130), so the prediction depends on the order of the rows: column a,b,b with labels 0,1,1 gives 1 for a; the same rows as b,b,a with labels 1,1,0 give 0.
- **C210**: AveragedOneDependentEstimator compares the value of its i-th super-parent with the i-th cell of the row (semi_naive_bayes_classifiers.py:361-363, 611-614), so exchanging two attributes (in the training data and in the row) changes the answer.
- **C214**: with CLASSICML_ENGINE=CC and '64-bit', calculate_error always runs in single precision (non_zero_alphas is a bool array, optimizers.py:944), clip_alpha too (a 0-d array, optimizers.py:1065), compare_differences (Python tol), every loss and metric (integer labels), softmax.diff, and the RBF initialiser
- **C216**: with CLASSICML_ENGINE=CC, '64-bit' and C = 0.1, a clipped multiplier is 0.10000000149 > C
- **C217**: bootstrap_sampling of the C++ engine silently drops labels given as a list or in another width than the data (overloads 5 and 6 take any object)
- **C218**: NaiveBayesClassifier.predict with a discrete attribute raises TypeError with CLASSICML_ENGINE=CC and '64-bit': the stored counts are np.float64, which pybind11 refuses for uint32
- **C219**: from Python 3.8 on, np.int64 as n_clusters or seed silently switches a float64 computation to single precision on the C++ engine; a Python integer or list given to an initialiser does so too
- **C221**: The C++ RBFNormal with an odd number of hidden units does not repeat its beta: std::normal_distribution is a function-local static whose left-over number survives re-seeding (matrix_op.cc:82).
- **C222**: The C++ RBFNormal draws centres and beta from two engines seeded identically (initializers.cc:200-202, matrix_op.cc:84,103), so beta is determined by the centres.
- **C223**: History.loss on the Python engine is the live list: a caller's append changes the history.
- **C224**: A list read from a Python History grows with later training.
- **C225**: `History.__call__` of the C++ engine names its second parameter `metric_name` instead of `metric_value` (callbacks_wrapper.cc:64); `loss`/`metric` are read-only there.
- **C226**: Neither engine's LDA direction maximises Fisher's criterion (consequence of the elementwise product in get_w_v2 and of the missing inversion in the C++ GetW_V2).
- **C227**: SMO stops early with multipliers that are not optimal up to tol: steps below the absolute width 1e-5 are refused (optimizers.py:1068).
- **C228**: SVC.fit finds no support vector, and the classifier answers +1 everywhere, when samples of different labels are more than 447 apart (unscaled data with the linear kernel) or C < 1e-5: the step width 1e-5 is absolute (optimizers.py:1068).
- **C229**: SVC.fit(epochs=-1) never returns on the rows [-1], [-4], [-2] with labels -1, +1, -1 and a linear kernel (default C, tol), for every sequence of permutations: the stale error cache (optimizers.py:1084-1086) makes every pass change the already optimal multipliers.
- **C231**: a node tested by value gets a branch for every value of the attribute in the whole training frame, so a tree can have more leaves than samples (5 samples, 7 leaves).
- **C233**: NewtonMethod takes full steps: on the rows a, a, -a, -a with labels 0, 1, 0, 1 and initial scores of absolute value at least 4 the loss grows in every epoch, beyond every bound, although the best parameters are zero.
- **C234**: LogisticRegression with the newton optimizer raises LinAlgError whenever the attributes are linearly dependent on the training rows (a constant or repeated attribute, or at most as many samples as attributes).
- **C238**: GradientDescent has a fixed learning rate (default 0.01) and sums the gradient over all samples: on unscaled data (four rows 15, 15, -15, -15 with labels 0, 1, 0, 1) training oscillates for ever and never approaches the best parameters.
- **C239**: calculate_covariances adds no regularisation: on data with a constant or linearly dependent attribute, or with at most as many samples as attributes, GaussianMixture.fit raises LinAlgError after the first epoch.
- **C240**: When samples of different labels are more than 447 apart SVC training stops with all multipliers 0, and every sample of label -1 is misclassified.
- **C243**: A constant column makes LogisticRegression with newton and GaussianMixture raise on every data set, and changes the kernel of SVC with gamma='auto'.
- **C244**: StandardScaler applied to its own result multiplies by the variance again (undoes the scaling) instead of leaving the data alone.
- **C245**: AveragedOneDependentEstimator: renaming the values of one attribute so that they coincide with values of another attribute changes the predicted class.
- **C246**: NaiveBayesClassifier uses the variance as standard deviation, so the predicted class depends on the unit of a continuous attribute (exactly when the closer class is not the one with the larger weight).
- **C248**: KMeans(init='random') draws rows with replacement; every draw that repeats a row (and is not constant) makes fit raise ValueError (5 clusters of 10 samples: more than two draws out of three).
- **C254**: The gradient is a sum, not a mean, over the samples, so duplicating the data multiplies the effective learning rate.
- **C258**: The candidate points of a stump are midpoints of consecutive sorted values with repetitions, so that a rule which puts all samples on one side is only tried if the smallest value is repeated.
- **C259**: Laplace smoothing adds the same amount however many samples there are (expected of smoothing).
- **C266**: after load_weights every later fit of a logistic regression starts from the loaded (and afterwards trained) parameters instead of a fresh draw (C266_logistic_violated); bagging keeps all earlier members and votes with them (C266_bagging_accumulates, C266_bagging_violated); AdaBoost raises in every later fit and keeps answering from the first (C266_adaboost_frozen).
- **C267**: _update_error_cache recomputes the cached errors before the new support vectors are entered in non_zero_alphas; what is left out depends on the origin. Four samples on a line, trained to the end, get different labels for a training row when the origin is moved by 1 (C267_origin_violated).
- **C268**: the kernel gamma*(x.y)^p has no constant term: for even p every trained classifier labels r and -r alike (C268_mirror, C268_even_violated), for odd p - the default is 3 - it is a threshold on one feature (C268_odd_violated).
- **C269**: of four linearly separable samples one is labelled correctly after training in one order and misclassified after training in another, although training ends by itself in both (C269_order_violated).
- **C272**: fit uses the seeds seed, seed+1, ..., so two ensembles with seeds s and s+j share all members but j (C272_neighbours_violated).
- **C276**: in single precision -1 and 2^-30 are scaled to 0 and 1 and come back as -1 and 0 (C276_lost).
- **C277**: z -= np.max(z) subtracts the largest entry of the whole matrix, not of each row: in single precision every row that lies 104 or more below it becomes NaN (C277_lost; exactly when: C277_nan_iff), although the same row alone is fine. Inputs that differ by less than about 2^-25 get equal results (C277_tie).
- **C278**: n times the first weight is 1 only if n is a power of two (C278_first_total). After the first round of EM the mixing coefficients are of double precision, the density of the mixture of single precision; with very small densities a posterior probability of 745/512 results (C278_above_one).
- **C279**: np.sum(init) != 1 compares a rounded sum: [0.7, 0.2, 0.1] is refused, [0.1, 0.2, 0.7] accepted (C279_refused); [1, 2^-60] is accepted (C279_wrong_accepted).
- **C280**: the dividing point is rounded to single precision: for half of the pairs of neighbouring numbers of single precision, and for all double precision values that are rounded down to the smallest, fitting ends with RecursionError (C280_diverges, C280_neighbours).
- **C281**: in single precision the sigmoid is exactly 1 from 18 on (C281_saturates) and exactly 1/2 for small negative arguments (C281_half).
- **C282**: with multipliers 7*2^-19 and 100 and C=101 a step leaves -2^-19 for the first multiplier (C282_negative); for C=1000.2, which is rounded up in single precision, the second multiplier becomes negative when the first is at the rounded bound (C282_crossed).
- **C284**: three equal numbers (1.5 + 2^-22) of single precision are scaled to -8388608 each: their computed mean is the next number, and the deviation is divided by its square (C284_constant).
- **C285**: In single precision the hull of (0,0), (1,100), (4096,4097), (4097,4098) contains a right turn, and the hull of (0,0), (1,-100), (4096,4097), (4097,4098) omits the extreme point (4096,4097), which lies outside of the returned polygon (C285_right_turn, C285_outside).
- **C286**: In single precision 16777218 gets the label of centroid 1 although 2 is nearer, and 0 gets the label of 2^-80 although it is itself the second centroid (C286_second_nearest, C286_own_centroid).
- **C287**: In single precision the centroid of three equal samples 12582914/2^23 is 12582915/2^23 (C287_outside).
- **C290**: With 64-bit columns and the default 32-bit precision the criterion evaluates the split at the 64-bit midpoint but the tree stores (and splits at) its 32-bit rounding, which may not separate the classes: for the values 1 and 1+2^-30 with different labels fitting recurses without end (theorem C290_lost).
- **C291**: get_probability_density replaces a density that underflows to 0 by 1e-36, which is larger than the densities 2^-149 .. 1e-36 that do not underflow: a value far from the mean gets a higher density than a nearer one (theorems C291_far_beats_near, C291_far_beats_near_double).
- **C292**: Because of the replacement by 1e-36, naive Bayes assigns outliers to the class whose mean is farther away: with samples -1, 1 of class 0 and 9, 11 of class 1 the values from about -13 to -14 are classified as 1 (theorem C292_nearer_loses).
- **C294**: RadialBasisFunctionOptimizer.backward multiplies by y_pred instead of y_pred - y_true in the gradient of beta, so an epoch moves the widths of a network that already computes every label, and its error rises from 0 for every learning rate (theorem C294_perfect_fit_lost).
- **C295**: The sigmoid of single precision is exactly 1 for logits of 18 or more, and BinaryCrossentropy then computes 0 * log(0): the loss of a training set with one such right answer is NaN in both engines (theorem C295_confident_nan).
- **C297**: load_weights overwrites the compiled C, gamma, kernel and tol, so compile, load_weights, fit trains with the parameters of the file (theorems C297_file_parameters, C297_violated).
- **C299**: the variance is used where the density needs the standard deviation, so a learned value can lower the density of its own class at that value and lose its answer (theorem C299_turned_away).
- **C302**: the post-pruner only considers nodes whose branches are all leaves, so a node above a branch that was kept is never replaced, however much better the leaf would be (theorem C302_violated).
- **C303**: in single precision a support vector classifier may answer with the wrong sign (theorem C303_svc_wrong: decision value -1, answer 1), and a logistic regression counts samples of small negative score as positive (C303_logistic_wrong).
- **C304**: in single precision the class of the farther projected mean may be answered (theorem C304_wrong).
- **C311**: the initialiser of the RBF network draws widths of both signs; a hidden unit with negative width grows without bound away from its centre. One epoch on non-negative labels that are not all zero already gives a network with unbounded output (C311_unbounded, C311_first_epoch).
- **C313**: after a load_weights every later compile is ignored and every fit continues from the loaded parameters (C313_structure_ignored, C313_continues); loading a file with fewer layers than the instance has leaves the remaining layers in place, which then take part in predict (C313_layers_left, C313_violated).
- **C315**: compile after fit changes the smoothing of the conditional probabilities but not of the class probabilities (C315_compile_after_fit).
- **C317**: a DecisionTreeClassifier compiled with pruning refuses (KeyError) every file saved from an unpruned tree (C317_refused); after load_weights every fit without pruning completes and ignores its data (C317_data_ignored); a loaded classifier cannot be fitted without compile (AttributeError) although the file holds the criterion (C317_load_then_fit).
- **C318**: GaussianMixture.fit sets is_trained before it computes the clusters of the samples; if that raises (a covariance that became singular in the last epoch) fit raises but the instance counts as trained (C318_mixture_violated).
- **C319**: after load_weights the hidden_units of a later compile are ignored and every fit of an RBF network continues from the loaded parameters (C319_rbf_ignored, C319_rbf_violated).
- **C320**: a save of a BackPropagationNeuralNetwork or RadialBasisFunctionNetwork interrupted among its weights leaves a file that load_weights accepts: a network with the first parameters only, or none (C320_network_indistinguishable, C320_network_accepted); for all models the file that was at the path before is lost as soon as saving starts (C320_neither_old_nor_new).
- **C324**: an attribute that is given twice makes NewtonMethod, LinearDiscriminantAnalysis and GaussianMixture (default covariances) fail on every data set: the Hessian, scatter or covariance matrix is singular (C324_violated, C324_lda_violated).
- **C326**: fit of a one-dependent estimator adds to what earlier fits or a loaded file left, so answers mix all data sets ever seen (C326_spode_fit_adds, C326_spode_witness, C326_aode_fit_adds); a fit of an AveragedOneDependentEstimator refused because of the number of columns leaves a trained instance answering 1 for every row (C326_aode_failed_fit, C326_aode_witness).
- **C328**: MeanSquaredError squares the sum of the residuals, so two batches with loss 1/2 each can have loss 0 together (C328_witness).
- **C329**: the independence assumption of naive Bayes counts a repeated attribute twice and can reverse the answer (C329_witness); a limit of the method rather than a slip of the code.
- **C332**: the returned chain contains its leftmost point twice, and ConvexHull raises OverflowError for every input with two leftmost points (C332_closed_refused).
- **C337**: adding a correctly answered sample to the training set of a naive Bayes classifier can turn its answer: with continuous attributes the density uses the variance as standard deviation, so that the wider spread costs more than the higher prior gains (C337_witness: -6, 6 | 11, 25 and the sample 18).
- **C340**: A consequence of the elementwise product in `get_w_v2` (see C45, C81): with the Python engine a row that is the centre of class 1 can be answered by 0 (`C340_violated`).
- **C342**: If two attributes are equally good questions, the first column is asked about, so the order of the columns changes the answers to new rows (`C342_violated`).
- **C343**: If questions about two attributes are equally good, the first column is asked about, so the order of the columns changes the answers to new rows (`C343_violated`).


## Not modelled

`classicML/benchmarks`, `classicML/datasets`, `classicML/plots`, the logger, build scripts, and the parts of the
C++ backend not named above.
