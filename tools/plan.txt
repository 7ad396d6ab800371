{
"C01":'Model the function over lists with the drawn indices as a parameter; prove length, membership of pairs, error branch.',
"C02":'Model the Graham scan over points of an ordered field (stable sort by slope with +inf as top, foldl with inner pop loop); loop invariant by induction.',
"C03":'Graham-scan correctness for distinct points; a concrete witness refutes the general claim (duplicates).',
"C04":'Direct model over a linear order; case analysis. The C++ function is modelled separately and proved equal.',
"C05":'Model of an array as dtype kind + ndim + shape + flat values; decision logic proved for all arrays.',
"C06":'State machine of SMO with the Gram matrix, permutations as parameters; invariant by induction over steps and passes.',
"C07":'Same state machine; mask invariant, nonzero() extraction.',
"C08":'Run with pass counter; early-stop characterisation by induction over passes.',
"C09":'Model argmax over the filtered index list; prove optimality and first-tie. The C++ version is refuted by a witness.',
"C10":'Algebraic identity for the dual objective when both errors are the true ones (partial: stale cache).',
"C11":'Refuted by a witness (two-sample run); partial: all entries are refreshed for samples that already were non-bound with an unchanged mask.',
"C12":'argmin of squared distances; sqrt is monotone (real model).',
"C13":'Loop model with explicit exit reason.',
"C14":'Two half-steps: nearest assignment, mean minimises sum of squares.',
"C15":'Partial: holds when all labels occur; witness for empty cluster.',
"C16":'Dispatch model on shapes after squeeze; partial + witnesses for n_features = 1.',
"C17":'Finite sums over a field.',
"C18":'Invariant over epochs.',
"C19":'Convex combination over a field.',
"C20":'Quadratic form over a field.',
"C21":'Inductive tree type and predict with KeyError as value; generation model with an arbitrary split oracle.',
"C22":'Induction over generation.',
"C23":'Induction over generation for discrete attributes.',
"C24":'Fold model of optimal_division.',
"C25":'Induction; height bug for continuous nodes refuted by witness.',
"C26":'Induction over trees.',
"C27":'Induction; height bug witness.',
"C28":'Witness + partial.',
"C29":'Fold over candidates.',
"C30":'Model of the two-level generator.',
"C31":'Weighted majority argument.',
"C32":'Round state machine over the reals.',
"C33":'Identity over the reals.',
"C34":'Induction over rounds.',
"C35":'Sign logic.',
"C36":'Vote logic.',
"C37":'Counting.',
"C38":'Counting over distinct values.',
"C39":'Counting.',
"C40":'Positivity incl. floor.',
"C41":'Witness + partial.',
"C42":'Witness + partial.',
"C43":'Witness + partial.',
"C44":'Quadratic form.',
"C45":'Witness + partial (diagonal).',
"C46":'Decision logic.',
"C47":'HasDerivAt over the reals.',
"C48":'Quadratic form.',
"C49":'Shape model.',
"C50":'Real identities.',
"C51":'HasDerivAt.',
"C52":'Induction over steps.',
"C53":'HasDerivAt + witness.',
"C54":'History state machine.',
"C55":'Integer arithmetic of the bar.',
"C56":'Counting.',
"C57":'Counting.',
"C58":'Real inequalities.',
"C59":'Witness + partial.',
"C60":'Real inequalities.',
"C61":'Field identities.',
"C62":'Field identities + witness.',
"C63":'List model.',
"C64":'List model.',
"C65":'Column model.',
"C66":'Witness + partial.',
"C67":'Witness + partial.',
"C68":'Header model.',
"C69":'Finite tables, all strings.',
"C70":'Call-history state machine.',
"C71":'Dispatch model of the init argument; witness for negative coefficients.',
"C72":'argmin of the negated posterior row; induction over epochs.',
"C73":'Score as composition of predict and the two metrics; witness with three classes.',
"C74":'Fold invariant of the split search; the chosen candidate is a minimum of an independently defined weighted Gini index.',
"C75":'Object state with the list/array distinction; refutation for every data set.',
"C76":'Refutation: equal rows, balanced labels, any learner; partial: some round with error below one half.',
"C77":'The density as a real function; comparison with an independently written normal density.',
"C78":'Aliased lists as equal lists; refutation for rows starting with continuous cells; exact agreement for disjoint discrete columns.',
"C79":'Refutation by a witness; agreement if the super-parent has one value.',
"C80":'Refutation for single-valued columns; completion otherwise.',
'C44':'Lists of rows; the scatter matrix is shown to be the sum of outer products, hence PSD.',
'C45':'SVD as an oracle with its specification: get_w is exact; get_w_v2 is refuted for every non-diagonal matrix and every SVD; exact for diagonal factors; the C++ version refuted in one dimension.',
'C46':'Decision logic, scale invariance, half-space form.',
'C81':'Definiteness of the scatter matrix on w; refutation for the shipped backend by a concrete data set, for every SVD.',
'C82':'NaN mean of the empty class as none; refutation for all data; with both classes the means are the centres of gravity.',
'C47':'Real analysis: HasFDerivAt of the negative log-likelihood and of each component of the gradient.',
'C48':'Quadratic form as a sum of squares; convexity from softplus.',
'C50':'Exact exponential.',
'C58':'Real inequalities on logarithms; equality of the two forms of the loss.',
'C59':'Refutation by a witness and the exact zero set; partial for one sample; broadcasting case.',
'C83':'Descent lemma from the bound 1/4 on the derivative of the sigmoid, telescoping.',
'C84':'Convexity (tangent planes).',
'C85':'Monotonicity of the sigmoid.',
'C86':'exp as a parameter that may underflow: refutation for every underflow bound; partial for a bounded spread.',
'C87':'State after the call as second result; refutation for all matrices with non-zero maximum.',
'C49':"Model/Network: dynamic-shape arrays with numpy's shape errors, initLayers, forward/backward/update/sgdRun. Induction over the layer list.",
'C51':'Back-propagation on functions proved equal to the code, then HasDerivAt along every direction by induction over the layers (Lemmas/Network bwd_deriv).',
'C52':'Induction over the gradient history; geometric sum.',
'C88':'Witness for the failure, and linearity of back-propagation in the output error for the direction result.',
'C89':"Moving all output biases together leaves the cross-entropy unchanged, but the code's gradient has a non-zero component there.",
'C90':'Consequences of the closed form of forward.',
'C53':'Model/RBF with numpy shapes; partial derivatives with HasDerivAt in one coordinate.',
'C91':'Shape errors of the in-place update; induction over epochs.',
'C92':'Broadcasting rules in forward.',
'C93':'Closed forms of forward and backward at the initial parameters.',
'C54':'Model/Training: generic training loop with progress bar, callbacks and history heap; induction over epochs and fits.',
'C55':'Integer/rational rounding: bar as list of characters; rounding as monotone function fl.',
'C94':'Induction over the loop.',
'C95':'Closed form of the records.',
'C96':'Closed form of the drawn lines.',
'C97':'Fold over keyword arguments.',
'C60':'Model/Kernels over the reals; PSD by squares, Schur products (poly) and the power series of exp (RBF).',
'C98':'Witness at the origin.',
'C61':'Model/Preprocess, Model/Dataset: lists of cells, dictionaries as association lists, rounding and parsing as parameters.',
'C62':'Model/Preprocess, Model/Dataset: lists of cells, dictionaries as association lists, rounding and parsing as parameters.',
'C63':'Model/Preprocess, Model/Dataset: lists of cells, dictionaries as association lists, rounding and parsing as parameters.',
'C64':'Model/Preprocess, Model/Dataset: lists of cells, dictionaries as association lists, rounding and parsing as parameters.',
'C65':'Model/Preprocess, Model/Dataset: lists of cells, dictionaries as association lists, rounding and parsing as parameters.',
'C66':'Model/Preprocess, Model/Dataset: lists of cells, dictionaries as association lists, rounding and parsing as parameters.',
'C67':'Model/Preprocess, Model/Dataset: lists of cells, dictionaries as association lists, rounding and parsing as parameters.',
'C99':'Model/Preprocess, Model/Dataset: lists of cells, dictionaries as association lists, rounding and parsing as parameters.',
'C100':'Model/Preprocess, Model/Dataset: lists of cells, dictionaries as association lists, rounding and parsing as parameters.',
'C101':'Model/Preprocess, Model/Dataset: lists of cells, dictionaries as association lists, rounding and parsing as parameters.',
'C102':'Model/Preprocess, Model/Dataset: lists of cells, dictionaries as association lists, rounding and parsing as parameters.',
'C103':'Model/Preprocess, Model/Dataset: lists of cells, dictionaries as association lists, rounding and parsing as parameters.',
'C104':'Model/Preprocess, Model/Dataset: lists of cells, dictionaries as association lists, rounding and parsing as parameters.',
'C105':'Model/Preprocess, Model/Dataset: lists of cells, dictionaries as association lists, rounding and parsing as parameters.',
'C106':'Model/Preprocess, Model/Dataset: lists of cells, dictionaries as association lists, rounding and parsing as parameters.',
'C107':'Model/Preprocess, Model/Dataset: lists of cells, dictionaries as association lists, rounding and parsing as parameters.',
'C68':'Model/IO: header check; regular expression on character lists against a leftmost-longest specification, version order against componentwise order.',
'C69':'Model/Getters: if-chains against tables of documented names.',
'C108':'Model/Getters.',
'C70':'Model/Lifecycle: histories of calls over Model/Persist; induction.',
'C115':'Model/Lifecycle.',
'C109':'Model/Persist: every save/load method as a straight-line program over attribute dictionaries, files as attribute groups, exceptions stop the program; pickle and HDF5 size limits are parameters.',
'C110':'Model/Persist: every save/load method as a straight-line program over attribute dictionaries, files as attribute groups, exceptions stop the program; pickle and HDF5 size limits are parameters.',
'C111':'Model/Persist: every save/load method as a straight-line program over attribute dictionaries, files as attribute groups, exceptions stop the program; pickle and HDF5 size limits are parameters.',
'C112':'Model/Persist: every save/load method as a straight-line program over attribute dictionaries, files as attribute groups, exceptions stop the program; pickle and HDF5 size limits are parameters.',
'C113':'Model/Persist: every save/load method as a straight-line program over attribute dictionaries, files as attribute groups, exceptions stop the program; pickle and HDF5 size limits are parameters.',
'C114':'Model/Persist: every save/load method as a straight-line program over attribute dictionaries, files as attribute groups, exceptions stop the program; pickle and HDF5 size limits are parameters.',
'C116':'Model the drawing recursion (Model/PlotTree), with the global X threaded and Y restored. Spec/PlotTree: preorder list of nodes and edges with depth, leaves to the left, leaves below. Simulation by mutual structural induction; distinctness because nodes of equal depth have disjoint leaf intervals; for fitted, post-pruned and pre-pruned trees from the leaf-count theorems.',
'C117':'Bounds on depth and leaf interval of every node, with depth at most the recorded height (C25) for unpruned trees; a counterexample for a post-pruned tree.',
'C118':'Closed form of the error after a two-variable update; the mean bias makes the two errors cancel; if both multipliers end strictly inside the box the step was not clipped, and the errors are also equal, hence 0. Witness for the remaining case.',
'C119':'Spec: an inductive sweep relation and an inductive schedule with its log (Spec/SMO), simulated by the loop of `run` for every number of passes; then for `Returns`.',
'C120':"Spec/EM: textbook normal density and log-likelihood. Proof: the model's density equals the textbook one; Jensen (log t <= t-1) minorises the change of the log-likelihood; Gibbs' inequality for the weights; the weighted mean and covariance maximise the weighted Gaussian log-likelihood (log det T + d <= log det S + tr(S^-1 T)); induction over the steps and fit.",
'C121':'Arrays as shape and entry function, np.squeeze as removal of the axes of length 1; exact acceptance condition.',
'C122':'Model/Entropy adds the entropy; finite sums over label frequencies; log t <= t-1 with its equality case.',
'C123':'Table of counts; Gini gap as a sum of squares, entropy gap by log t <= t-1 cell by cell, both with equality case; lifted to Criterion.get_value and Gain.optimal_division.',
'C124':'Model/SVC: the object with compile, fit (on top of Model/SMO) and predict on lists of rows. Dropped samples have alpha = 0 (C07), feasibility is C06.',
'C125':'Gamma as auto | scale | number, kernel as name | instance; fit overwrites both, as the code does.',
'C126':'With one label L = H at the first update, so no update ever succeeds; invariant over every reachable state.',
'C127':"Spec/Prune: the relation 'node s of t is reached by the training rows tr and validation rows v'. One-step inversion lemmas of the pruner, then induction over the tree for every such node of the result.",
'C128':'Same relation; the score is by induction with the validation rows grouped by value, using that leaves carry the majority (C129).',
'C129':'Induction over the recursion of the generator, following the rows routed to each node.',
'C130':"HasDerivAt of the model's own activation functions; softmax via log-sum-exp.",
'C131':'Object model on top of Model/Bayes: names, trained flag, row length; induction over the columns for the dictionary look-ups.',
'C132':'Raw draws as a list of Int; abs of int32, truncated remainder; counting residues of an interval for uniformity.',
'C133':'Model of the C++ functions with undefined behaviour as none; refinement of the Python model by induction on the epochs.',
'C134':'Model of the overloaded functions on the same Init type as the Python model; case analysis.',
'C135':'Loops as folds, shown equal to the sums of the Python model.',
'C136':'Matrices as lists of rows; numpy broadcasting as a separate specification.',
'C137':'Generators as state machines, the parameter dictionary with string keys; induction over the structure; the scale is specified by its square.',
'C138':'The same model; the factor of the logistic regression against the documented one.',
'C139':'np.random as one global state; constructing an initialiser overwrites it.',
'C140':'std::normal_distribution with its saved second number as static state, the engine re-seeded per matrix; parity of the number of entries.',
'C141':'An injective numbering of the weights (Python); the C++ layers restart the sequence.',
'C142':"Arrays of dimension one and two, numpy broadcasting and Eigen's shape rules; IEEE numbers without rounding; equality of the two results.",
'C143':'NaN and infinities as constructors; a single product 0 * log 0 makes the sum NaN.',
'C144':'np.matmul and broadcasting against Eigen products, BroadcastSub and the column-major Reshape; entries compared as lists.',
'C145':'Entrywise comparison, shapes of vectors.',
'C146':'set_precision as a function of the string; pybind11 overload resolution as two rounds.',
'C147':'GetW_V2 over an arbitrary valid SVD (orthogonal factors, sorted singular values): length of the vector computed through orthogonality, two-feature diagonal case solved completely; data set on which every SVD misclassifies.',
'C148':'Arrays as dtype kind, shape and values (rationals with a rounding parameter, strings as code points); comparison with the Python model of C05.',
'C149':'The scan of C02/C03 with arbitrary results of the two sorts; uniqueness of the sorted order for different slopes.',
'C150':'Counts modulo 2^bits; entrywise characterisation of the loop over the tensor.',
'C151':'Model.Bench: a call is a function from the state of the world to outcome and state; induction over the repetitions.',
'C152':'Model.Bench: the report as a function of the clock readings; case analysis on the two thresholds, real arithmetic.',
'C153':'Model.Plots: the figure as data (scatter groups, line, segments) computed from weights and samples; field arithmetic for the foot of the perpendicular; witnesses for axis-parallel and falling directions.',
'C154':'Model.Plots: the drawn line as intercept and slope; equivalence with sigmoid = 1/2 over the reals.',
'C155':'Model.PlotsCluster: the figure as data, on top of the models of ConvexHull and KMeans; mapM over the clusters; C02/C03 for each hull.',
'C156':'Model.PlotsCluster: groups by label; induction over samples and components for the permutation.',
'C157':'Model.PlotsGrid: the figure as data, the 300 × 300 grid by meshgrid/reshape; index arithmetic for the raster; intermediate value theorem for the boundary.',
'C158':'Model.PlotsGrid: the same grid for every estimator; induction over the estimators.',
'C159':'Model.PlotsGrid and Model.PlotsBayes on top of the models of the Bayesian classifiers; C131 for the answers at the nodes.',
'C160':'Model.Calls: the containers (list, lists, 1-D and 2-D array, Series, DataFrame), the conversions np.asarray / pd.DataFrame and the row loop of every predict; the value of one row is a parameter, except for trees and logistic regression; list induction.',
'C161':'Model.Calls, the branches for one-dimensional arguments and the broadcasting of the kernels and of RBF networks.',
'C162':'Model.Calls: selection of columns by name; a table as names and rows; the tree model for the witness.',
'C163':'Model.Score: Metric.__call__ by the shape of the prediction and the container of the labels, on top of the metrics of C56, C57.',
'C164':'Model.Engines (numpy broadcasting of the kernels), matrices of any size.',
'C165':'Model.Spode: the object through compile and fit; induction over the call history.',
'C166':'Model.Spode: the insertion-ordered dictionary with names as keys and the loop of predict over it; refinement to the positional model of C39, C43, C79.',
'C167':'Model.Adam: Adam on the parameter lists with its moments and epoch counter, refined to the entry-wise rule of C52 (C52_network); SGD by induction over the draws.',
'C168':"Model.Reload: the caller's label column after the in-place loops of the label functions; a second load on that column. Ranks of classes (Spec.Preprocess.rank) and the exact merging condition C67_iff.",
'C169':"Model.Reload: a process as a list of events with numpy's stream of numbers; induction over the events.",
'C170':'Model.Frames: a heap of tables (values, names, row labels) shared by pandas objects; the statements of fit and predict that create or relabel tables; induction over the calls of a program.',
'C171':'Model.FailedFit: fit statement by statement on the attributes of the instance, returning the instance and the error; refinement to the models of training (C171_*_completes); induction over epochs, columns or rounds for what a failed call leaves.',
'C172':'The same model: completed calls are shown to be functions of the data alone, or to keep the rounds of the failed one.',
'C173':'Model.Compile: compile as one assignment after the other on the instance and the random generator, returning the instance and the error. Case analysis on the getters of Model.Getters; run_shape (induction over the epochs) for what the next fit trains.',
'C174':'Model.Compile.run: every optimizer on every kind of parameters, with the monitoring. Exact characterisation: invariants of the training loops for the models that can be trained, the failing first epoch for all others.',
'C175':'Model.Compile.fitLR/fitNN/fitRBF on the instance that __init__ makes.',
'C176':'predict depends on the class of the optimizer and the parameters only, and compile leaves the parameters alone.',
'C177':'session = compile then fit, with the state of the global generator as an argument; independence of the state for new instances; a second session on the same instance continues the sequence (Init.stateAfter).',
'C178':'The same model; the state from the operating system is the argument `entropy` of compile.',
'C179':'Every epoch that does not stop strictly lowers the within-cluster sum of squares (strict version of C14), so the labellings of the epochs are pairwise different; there are at most n_clusters ^ n_samples of them (pigeonhole), plus a last phase with one centroid.',
'C180':'Equivariance of every function of Model.KMeans under u ↦ a·u∘σ + t (argmin depends on the order only), lifted through the loop by induction.',
'C181':'Permutation invariance of the means and of the number of labels, induction over the epochs with corresponding labellings; duplication likewise. The order of the centroids does matter (witness).',
'C182':'A simulation: negate labels, error cache and bias; every step of Model.SMO commutes with it.',
'C183':"The optimiser sees the data through the kernel values only (fit_transport); the RBF values and gamma='scale' are invariant.",
'C184':'Simulation over the epochs: negated parameters, complementary probabilities; sums over samples are permutation invariant.',
'C185':'Equivariance of gradient and Hessian under the matrix acting on rows with the constant feature, induction over the epochs.',
'C186':'Candidate points are equivariant (sorting commutes with increasing maps), every error and weighted Gini value is unchanged, so the first best candidate corresponds; induction over the levels and over the rounds.',
'C187':'Candidate points, weights and Gini values are permutation invariant; induction over the levels and over the rounds with the weights permuted.',
'C188':'From the product bound C34 with 2 sqrt(e(1-e)) <= exp(-2 g^2); early stopping only happens with error below EPSILON, where the bound is below 1/n.',
'C189':'Equivariance of every function of Model.Tree (midpoints, values, first best candidate, generation, prediction, post-pruning) under a recoding of the data; the units are a special case. C189_whole_numbers: type_of_target makes whole-number columns discrete, so a change of unit that leaves the integers changes the model.',
'C190':'The same equivariance for one-to-one renamings of values and classes.',
'C191':'Values, candidates and majority are permutation invariant; the branches of a discrete node come in another order, which no look-up sees; induction over the depth.',
'C192':'Equivariance of mean, scatter and direction under A·x+t, (A⁻¹)ᵀ for the direction. False of the shipped get_w_v2 (U·Σ⁻¹·U where the SVD gives S = U·Σ·Vᵀ): exchanging two features changes answers.',
'C193':'Permutation invariance of the sums; the direction is odd in the difference of the means.',
'C194':'Affine equivariance of the Gaussian density (up to a constant factor), of posterior, means, covariances; induction over the epochs.',
'C195':'Permutation invariance of the sums over samples and over components; induction over the epochs.',
'C196':'Model.Progress writes the text character by character (decimal digits, rounding to nearest, both engines); a reader (Spec.Progress.value) gets the numbers back.',
'C197':'A terminal as finished lines, current line and cursor column; induction over the epochs: the visible line is as long as the longest so far.',
'C198':'Digits of the nearest multiple of 10^-4 (Python) and of 10^-6, cut (C++).',
'C199':'Model.Csv: convert_dtypes and astype column by column; exact conditions for the two exceptions, otherwise the result is complete.',
'C200':'wrap bits v = v iff v is in range.',
'C201':'If all columns hold whole numbers the array is an integer array and the scaled values are truncated.',
'C202':"Model/Compile.lean against the epochs of LogReg, Network, Adam and RBF: the generic loop is shown equal to each optimiser's own iteration by induction on the epochs; the drawn parameters by induction on the structure (Spec/Compile: StartsAs, StartsRBF, LabelsAre, indices).",
'C203':'Model/Preprocess.lean: minimum and maximum of an affine image; permutations keep them.',
'C204':'Model/Preprocess.lean: mean and variance of an affine image; the exact factor 1/a, hence equality iff a = 1.',
'C205':'Model/Preprocess.lean: the rank of a label among the classes is invariant under strictly increasing maps and permutations.',
'C206':'Model/Metrics.lean as functions of the list of pairs, invariant under List.Perm; Model/Losses.lean by reindexing the sums.',
'C207':'Model/Bayes.lean: a witness for every order that value_counts may return; positive part by relating the stored counts of both orders as look-up tables.',
'C208':'Model/Bayes.lean: the factors of a row as a function of the list of (column, cell) pairs, invariant under List.Perm; the score is a sum.',
'C209':'Model/Bayes.lean: what predictions read of the stored elements (obs) is the same up to order; sums do not depend on the order; the exception depends on the columns only.',
'C210':'Model/Bayes.lean: a two-column witness; positive part when every column is a super-parent, by permuting keys of elements and factors.',
'C211':'Model/Network.lean, Model/Adam.lean: a relation between networks (rows and columns renumbered per layer) is kept by forward, backward and the updates; induction over layers and epochs.',
'C212':'Model/Network.lean, Model/Adam.lean: twins are the fixed points of the renumbering that exchanges them (twins_iff), so C211 applies with the same network on both sides.',
'C213':'Model/RBF.lean: distances are invariant under motions, so the relation between parameters is kept by every epoch.',
'C214':"Model/Dispatch: pybind11's casters and two-pass dispatcher, the overload tables of the wrappers, and the argument types at each call site of the trainers (Site). Exact list of the call sites in double precision, exact list of the refused ones, all single in '32-bit'.",
'C215':'General theorems about the dispatcher on the tables: double / single / TypeError characterised by predicates on the argument types (Spec/Dispatch), any number of matrix parameters.',
'C216':'Clipping behind a monotone rounding of its arguments equals the rounding of the Python result; the box holds iff rounding moves no bound outwards; witness C = 0.1.',
'C217':"The labels come back iff they are an array of floats or integers of the data's width; the bagging call meets this; witnesses for lists and other widths.",
'C218':"The call is a TypeError in '64-bit' for all counts; accepted in '32-bit' and for the one-dependent estimators.",
'C219':'Without NumPy integers the overload does not depend on the Python version; witnesses for n_clusters, seed and the initialisers.',
'C220':'Characterise every parameter kind with and without conversion, turn the dispatcher into a chain of cases (outcome_chain) and decide each table.',
'C221':'Model the uniform matrix and RBFNormal::PyCall with the number left over in the static normal distribution; invariants over even/odd numbers of draws.',
'C222':'Python: for arbitrary centres and beta exhibit a generator producing them. C++: specify the polar method and show by induction over the pairs that beta is a function of the centres.',
'C223':'Operational model of a program with list identities on both engines; induction over the program.',
'C224':'As C223; the variable refers to the live list (Python) or to a fresh list (C++).',
'C225':'As C223; compare the two runs step by step.',
'C226':"Specify Fisher's criterion on the projected rows; relate the spread to the quadratic form of the scatter matrix; Cauchy-Schwarz for a positive semidefinite form with S w = mu0 - mu1, with the case of equality for uniqueness. For the engines: contrapositive of uniqueness.",
'C227':'Concavity of the dual (tangent inequality from the positive semidefinite Gram matrix), the equality constraint removes the bias, the KKT tests bound every term; the run is connected by C08_early_stop.',
'C228':'Compute the first update from the initial state exactly (2/distance clipped to [0,C] against the step width 1e-5) and lift to the run: an exact characterisation of the data on which training is idle.',
'C229':'Termination: the dual objective is bounded on the box and every pass with a change raises it by a fixed amount (C10), so finitely many passes (Archimedean). Divergence: a nondeterministic sweep over all orders of the partners, shown sound for every sequence of permutations; the set of states is closed under it and contains no stopping state.',
'C230':'Paths as an inductive predicate on trees; induction over the generator with the invariant that attributes used by value are no longer in the column list and that both sides of a dividing point are non-empty whenever fit returns.',
'C231':'Counterexample by evaluation (a branch for every value of the whole frame); induction for trees without tests by value, and a general bound by the number of value combinations.',
'C232':'Structural induction over the pruners with the fact that every discrete node of a fitted tree has a branch.',
'C233':'A closed form of the Newton step on four noisy rows (u -> u - sinh u) gives divergence from an open set of initial parameters by induction; for steps that change no score by more than 1, a third-order bound of the logistic loss gives descent.',
'C234':'The Hessian is the Gram matrix of the rows with positive weights, so it is singular exactly if the attributes with the constant are linearly dependent.',
'C235':'Newton-Kantorovich argument with generalised self-concordance of the logistic loss: the relative size of the steps squares in every epoch; limit by completeness, optimality by convexity.',
'C236':'Induction over the epochs: (1-b2) m^2 <= (1-b1^t)(1-b1) v by Cauchy-Schwarz, so the bias-corrected quotient is bounded; lifted to networks by C52_network.',
'C237':"C83's convergence bound against c*u for the separating vector u; a loss below log 2 makes every row correct; Cauchy-Schwarz for the growth of the parameters.",
'C238':"On four noisy rows the epoch is the scalar map u -> u - 2 lr a^2 tanh(u/2): instability at 0 by its derivative, a cycle of length two by the intermediate value theorem. With a small rate, C83's bound gives the limit.",
'C239':'The quadratic form of a new covariance is a weighted sum of squares with positive weights, so it is definite exactly if no linear combination of the attributes is constant; induction over the epochs.',
'C240':'The KKT test with a multiplier below C says y*f >= 1 - tol; counting. Coarse data (C228) as counterexample.',
'C241':"C124's decision function, exchanging the sums; convexity of half-spaces.",
'C242':'The kernel sum is bounded by (sum of |alpha y|) * exp(-gamma R).',
'C243':'Distances, means and kernel values are unchanged, then induction over the epochs; the failures follow from the rank conditions of C234 and C239.',
'C244':'The range of min-max scaled data is [0,1] (C61); mean and variance of an affine image; case distinction over the columns of the imputer.',
'C245':'Stored counts are renamed with the values; the factors read are equal, by induction over the attributes.',
'C246':'Mean shifts, variance scales by a^2: closed form of the answer in the unit a, from it the exact condition.',
'C247':'Exchange of the sums over samples and components (responsibilities of a sample add up to one); for k-means partition of the samples by label and the parallel-axis identity; lifted to the loop by its invariants.',
'C248':'A repeated row gives two equal centroids; the second one is nearest to no sample, so the new centroids are fewer than the old ones. Counting of the draws by embeddings.',
'C249':'The second sort is stable, so its result is sorted lexicographically by slope and x; that order determines points, hence the list.',
'C250':'Slopes change by an increasing map, cross products by a positive factor; both sorts and the scan commute with the map.',
'C251':"Invariant of the scan with Mathlib's convexHull: a removed vertex is in the triangle of the start, its neighbour and the new point.",
'C252':'The components of the gradient are the calibration errors; telescoping of the descent inequality bounds the sum of their squares, which are therefore summable.',
'C253':'The derivatives of a silent unit are 0 on every sample; induction over the drawn samples (for Adam over the prefixes, with zero moments).',
'C254':'Gradient and Hessian of r copies are r times those of one; induction over the epochs. Gradient descent: exact equivalence with a learning rate r times as large.',
'C255':'The scatter matrix is multiplied by r, the projection vector by 1/r (C++: r); predictions are invariant under positive factors.',
'C256':'Means, covariances, coefficients and centroids are quotients of sums that are all multiplied by r; induction over the epochs.',
'C257':'Frequencies, sets of values and midpoints do not change; induction over the recursion of the generator.',
'C258':'Counter-example by evaluation; every value becomes a candidate point, hence minimality over all threshold rules.',
'C259':'Counts are multiplied by r; unsmoothed quotients are unchanged, smoothed ones exactly when uniform; a data set where the prediction flips.',
'C260':'Counting and sums of copies.',
'C261':'The candidate thresholds of the transformed column lie in the same gaps; the sequence of scores is equal, hence the same attribute and corresponding thresholds are chosen; induction over the recursion. A new row inside a gap may be answered differently (C261_new_row).',
'C262':'Differences of squared distances, projections and linear scores are affine along a segment; ties are handled with the first-minimum specification of argmin. A witness shows that full decision trees do not have the property (C262_tree_not_convex).',
'C263':'Induction over the rounds.',
'C264':'All posteriors are 1 (labels 0), so the first epoch yields mean and covariance and the second finds no difference.',
'C265':'One transition function for all calls of a class; readiness of the flags is characterised by induction over the history, with the invariant that a ready instance has all attributes that predict reads.',
'C266':'A completed call overwrites everything predict reads (LDA, k-means; load_weights everywhere); counterexamples for the others.',
'C267':'Inner-product kernels: a rotation leaves the kernel values, hence the whole run, unchanged. Origin: the dual problem is unchanged (sum of alpha*y is 0), the run is not.',
'C268':'The decision function of C124 with the kernel expanded is a form of degree p plus b; even forms are symmetric, odd powers are monotone.',
'C269':'Re-indexing of the dual problem; a concrete run of the model in two orders for the training.',
'C270':'Stationary points of the convex cost have the same scores (strict monotonicity of the logistic function along a segment); a regular Hessian gives injectivity of the scores.',
'C271':"Gibbs' inequality from log t <= t - 1 with its equality case.",
'C272':'Member i is learned from the bootstrap sample of seed + i (C36): shifting the seed shifts the members.',
'C273':'Votes are sums: permutations, signs.',
'C274':'Expansion of exp of the inner product as a series of squares of moments; if all moments vanish, a Vandermonde determinant along a separating direction forces all coefficients to vanish. Strict concavity of the dual objective.',
'C275':'Spec/Rounding.lean: what a rounding is, and IEEE round to nearest even, proved to be one. Model/Rounded.lean: the scaler with a rounding after each operation. Monotonicity of the rounding.',
'C276':'Same model; the minimum is restored because 0 times anything plus the minimum is exact; a concrete pair for the failure.',
'C277':'Sums as binary trees of additions; a sum of non-negative numbers is at least each of them; relative error by induction on the tree. Underflow of the correctly rounded exponential function decided exactly.',
'C278':'As C277, with products of double precision rounded twice. The first weights: n times a binary fraction is 1 only for powers of two.',
'C279':'Dyadic coefficients are added exactly; concrete lists for the failures.',
'C280':'Rounded midpoints of numbers of the format lie between them; generation succeeds by induction if they separate; recursion without end by induction on the limit if they do not.',
'C281':'Monotonicity of roundings; bounds of exp for the exact values.',
'C282':'Interval arithmetic with an absolute error per operation; concrete multipliers for the failures.',
'C283':'Error bound 2(u+eta) against the gap 1/n.',
'C284':'Monotonicity; the sums of one and two equal numbers are exact; a concrete array of three for the failure.',
'C285':'Model/HullRounded.lean: the hull with a rounding after each operation. Differences and products of small integers are exact, quotients of different small fractions stay in order because their relative distance exceeds the error; so the sort and all turns are the same as exactly.',
'C286':'Model/KMeansRounded.lean: distances and argmin with a rounding after each operation and a rounded square root. Error analysis of differences, squares, sums along any order and roots gives the factor; a clear winner is found. Exact counterexamples by evaluation.',
'C287':'Same model: the mean along any order of summation; error analysis with signs; clusters of one and two samples by monotonicity; evaluation for three equal samples.',
'C288':'Model/BoostRounded.lean: the loop with a rounding after each operation, the error summed in any order, alpha in double precision. Invariant of the loop: the total is near 1, so a weight is at least about 1/n and cannot underflow when multiplied by exp(-alpha), because alpha is at most log(1/EPSILON)/2.',
'C289':'Model/CriteriaRounded.lean: the criteria with a rounding after each operation and sums in any order. An impurity computed this way is exactly 0 on pure groups and at least 2^-22 (Gini: error analysis of the sum of squares) or 2^-20 (entropy: a label with at most half of the samples) otherwise; shares of groups are at least 2^-20, so a weighted value is 0 iff all groups are pure; for the gain the difference exceeds the rounding error of the entropy.',
'C290':'Same model with the generator of Model/Tree.lean: a perfect test makes all children leaves. Holds if the dividing point is stored unchanged (columns not of higher precision than the library); a 64-bit column in 32-bit mode gives a counterexample with unlimited recursion.',
'C291':'Model/Bayes.lean density with a rounding of Spec/Rounding.lean: the exact formula decreases with the distance and roundings are monotone, so only the replacement of 0 by 1e-36 can break the order; the distance at which the formula is 2^-140 gives the counterexample for every mean and variance.',
'C292':'nbFit and nbPredict of Model/Bayes.lean: priors are 1/2, so the densities decide; exact arithmetic: iff; any rounding: one direction when nothing underflows; single precision: an interval of values where class 0 has a subnormal density and class 1 the constant 1e-36.',
'C293':'From the gradients of C51 and C88 (directional derivatives along every direction): the step moves along minus the gradient (SGD), a positive multiple of it (binary output) or a vector with the same signs (first step of Adam); the derivative of the loss along it is negative because the derivative with respect to the output biases is never zero.',
'C294':"Closed form of an epoch from C53. For a perfect network the gradients of weights and bias vanish but the widths move, in the direction that lowers every unit's contribution; for zero output weights the error is a quadratic function of the learning rate.",
'C295':'Composition of the single-precision sigmoid (C281, exponential correctly rounded) with the losses over numbers extended by infinities and NaN (C143). The logarithms and sums of the loss itself are exact in the model, which can only make it finite more often.',
'C296':'Histories as a relation over the SVC object of C124, with loads of incomplete files and trainings that raise at every point where the code can; invariant on the marks and the kernel attribute; induction over the history.',
'C297':'Same histories: a load followed by fit is shown to equal compile with the parameters of the file followed by fit; C and tol are kept by every call of fit.',
'C298':'A simulation between the two runs of the generator: the first minimum (maximum) over all columns, when it is a kept column, is the first one over the kept columns; induction over the recursion limit and the branches. Trees are compared by renumbering; attrs and renumber are defined separately in Spec/TreeDrop.',
'C299':'Mean and variance after one more value in closed form; the density the code computes (variance in place of the standard deviation) at that value rises whenever the variance does not, and falls below the other class otherwise. Both for the composed fit and predict.',
'C300':'bootstrapSampling of C01 evaluated in closed form for every index array; the sums over all arrays by exchanging sums and by the product formula for functions; the limit from Mathlib.',
'C301':'Induction over the recursion of the generator with the invariant that rows agree on the attributes already used: the group of samples equal to a row travels as a whole, and every leaf is pure or carries the majority of equal rows. The comparison with any function by summation over the groups.',
'C302':'All prunings as an inductive relation (Spec/PruneBest); induction over the tree: the validation score of a node is the sum over its branches, and the result is a maximum wherever the code compares with the leaf. A fitted tree shows that the code does not compare at nodes above a kept branch.',
'C303':'Scalar products as trees of rounded products, fused multiply-adds and rounded sums (Model/ScoreRounded); induction over the tree gives the textbook error bound; the last addition of the threshold keeps the sign; single precision witnesses by kernel evaluation.',
'C304':'The same error bound for the three scalar products, and the relative error of the two differences.',
'C305':"From the exponential bound of C34 (Markov's inequality at exp(theta * sum of coefficients)), the formula of the coefficients, and the weighted inequality of means for the rate.",
'C306':'Double counting of the votes: a wrong row is wrong for half of the coefficients; sum over the rows by induction.',
'C307':'Boxes with optional bounds (Spec/TreeBoxes); induction over the tree, the boxes of the branches cut by the question of the node.',
'C308':'The problem restricted to chosen samples (Spec/SVMSubset); sums over all samples reduce to the chosen ones; the KKT theorem of C227 for the added samples.',
'C309':'The criterion proposes a midpoint for columns with a fractional value; both rows go to the same side until the recursion ends; conversely a node with two labels has two different rows, so a midpoint, and both sides are smaller.',
'C310':'Induction over the epochs with the cluster means of C14; a mean satisfies every linear inequality of its samples.',
'C311':'The Gaussian of a non-negative width is at most one and tends to zero; for a negative width the unit dominates along an axis; the first epoch by the step equation.',
'C312':'Invariant over histories: the flags of the instance, and the parameters exist once one of them is set.',
'C313':'Induction over histories; a load sets the flag that makes later fits skip the initialisation; overwriting by key leaves the keys of deeper networks.',
'C314':'Invariant over histories, as C312.',
'C315':'The loop of fit overwrites the entries of all names; the priors are those of the compile before fit.',
'C316':'Invariant over histories: an instance whose flags allow prediction has a tree.',
'C317':'Induction over histories; the flag of load_weights makes later fits skip the generator; load_weights wants the pruning of the file only if the instance has a pruner.',
'C318':'As C316; for mixtures the flag is set before the last computation of fit.',
'C319':'fit of a mixture overwrites all parameters; fit of an RBF network continues from the parameters once a file was loaded.',
'C320':'save_weights as a list of writes (C320_all_writes: after all of them the file is the saved one); a prefix lacks the last attribute, which load_weights reads; the file of an interrupted save of a network is the file of a save with fewer parameters.',
'C321':'the first best attribute of the loop is never the later of two equal columns while the earlier one is available; after the earlier one is used up the later one is constant, and asking about it leads to the same rows; induction over the generation.',
'C322':'the running best is not improved by a column with the values of an earlier one; induction over the levels, then over the rounds (loop_alike).',
'C323':'kernel values of the two writings of the rows are equal, so the whole SMO run is; for gradient descent an invariant (merge) between the two parameter vectors is preserved by every epoch.',
'C324':'equal columns make the Hessian, the scatter matrix and the covariances singular; from C234, C45 and C239.',
'C325':'Invariant over histories with the generic able_run; every stored element carries the smoothing it was fitted with.',
'C326':'Induction over histories: nothing is stored and no super-parent index is kept before the first completed call; loads replace, fits append; the averaged estimator empties its members before it checks the table.',
'C327':'Counts and sums over concatenations.',
'C328':'The square of a sum; equivalence with one batch having total residual zero.',
'C329':'The factor lists of the longer table are those of the shorter one with one factor repeated; C42 turns both into products.',
'C330':'Case analysis over which attributes are present, for every state.',
'C331':'Case analysis over the checks at the beginning of each method.',
'C332':'The vertices come in the order of the scan and never turn right, so the second scan pops nothing.',
'C333':'Algebra with exp and log.',
'C334':'Triangle inequality and Cauchy-Schwarz; the slope of the sigmoid and of the Gaussian by the mean value theorem; induction on trees and on their generation.',
'C335':'Both estimators store the same counts; the constant column contributes the factor one and the joint prior is the class prior.',
'C336':'Triangle inequality; the mean of a group is within D of what all its samples are within D of; then the loop is run by hand.',
'C337':'Every estimate of the class does not fall, those of the other class do not change, the prior moves towards the class; product over the attributes.',
'C338':'Counts of r copies are r times the counts (C259); the smoothed quotients converge, so do the products over the attributes, and a strict inequality of limits holds eventually.',
'C339':'The posterior is the weighted density over a common positive sum; with a common covariance the logarithms of two weighted densities differ by an affine function of the row.',
'C340':'The difference of the two squared distances is affine in the row, with slope twice the solution of the scatter equation; that solution is positive on the difference of the centres because the scatter is positive semidefinite and invertible.',
'C341':"The loss of a constant depends on the mean label only, so Gibbs' inequality for one sample applies; a logistic regression with zero weights and the logit as bias is that constant, and gradient descent approaches the infimum.",
'C342':'Induction on the generation: a strictly best attribute is found in any order of the columns; the trees are compared by renumbering.',
'C343':'A part of the candidates that contains a strictly best one decides the search alone, whatever stands before and after it; renumbering for the rest. The number of mistakes of the stump is the minimum over a set of candidates that does not depend on the order.'
}
