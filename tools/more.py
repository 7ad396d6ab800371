
p("Initial mixture coefficients are a probability vector",
  "ops.init_mixture_coefficient returns n_components non-negative coefficients that sum to 1, and raises for every other argument.",
  "every n_components and every init argument",
  "the check is over all real vectors.",
  [O+"::init_mixture_coefficient"])
p("GaussianMixture.predict picks the most probable component and fit stores its answer",
  "predict labels each sample with the first component of largest posterior probability; after fit, clusters equals predict on the training data with the final parameters; fit stops early only if one more EM step would move no parameter by more than tol.",
  "every dataset, density, parameters, tol and epoch limit",
  "ties and unbounded training histories over real data.",
  ["classicML/api/models/cluster/gaussian_mixture.py::GaussianMixture.predict", "classicML/api/models/cluster/gaussian_mixture.py::GaussianMixture.fit"])
p("score is the fraction of correctly predicted rows",
  "for every model whose score is inherited from BaseModel, score(x, y) is the number of rows where predict(x) equals y divided by the number of rows.",
  "every predictor, every data set and every label vector",
  "ranges over all label alphabets and all data.",
  ["classicML/api/models/base_model.py::BaseModel.score", "classicML/backend/python/metrics.py::BinaryAccuracy"])
p("Two-level trees choose the split of least weighted Gini index",
  "the threshold test at the root of a fitted two-level tree has the least weighted Gini index among all midpoints of neighbouring values of all features; likewise below the root for the samples that reach the node.",
  "every weighted sample set with at least three samples and one feature",
  "all data sets, weights, features and thresholds.",
  ["classicML/backend/python/tree/generators.py::TwoLevelDecisionTreeGenerator", "classicML/api/models/tree/decision_tree_classifier.py::TwoLevelDecisionTreeClassifier"])

p("Ensembles can be refitted",
  "fit may be called again on a fitted AdaBoostClassifier or BaggingClassifier; afterwards predict depends only on the data of the last fit.",
  "every sequence of fit and load_weights calls, all data",
  "the property is about call histories.",
  ["classicML/api/models/ensemble/boosting.py::AdaBoostClassifier.fit", "classicML/api/models/ensemble/bagging.py::BaggingClassifier.fit"])
p("A fitted AdaBoostClassifier labels every row +1 or -1",
  "after fit on data with labels -1/+1 and at least one feature, predict returns +1 or -1 for every row.",
  "every data set, every row",
  "depends on sums of logarithms of weighted errors of unbounded training runs.",
  ["classicML/api/models/ensemble/boosting.py::AdaBoostClassifier.predict"])

p("Continuous attributes use the normal density of the class",
  "for a continuous attribute, naive Bayes and the one-dependent estimators use the normal density with the mean and the variance of the attribute in the class.",
  "every sample value, mean and variance > 0",
  "identity over the reals.",
  [O+"::get_probability_density", "classicML/api/models/bayes/naive_bayes_classifier.py::NaiveBayesClassifier.fit"])
p("The averaged one-dependent estimator adds up its super-parents",
  "AveragedOneDependentEstimator.predict compares, for the two classes, the sum over all super-parents of the log score of the one-dependent estimator for the value of that super-parent in the row.",
  "every data set, every row",
  "depends on the order of columns and on values shared between columns of arbitrary data.",
  ["classicML/api/models/bayes/semi_naive_bayes_classifiers.py::AveragedOneDependentEstimator.fit", "classicML/api/models/bayes/semi_naive_bayes_classifiers.py::AveragedOneDependentEstimator._predict"])
p("A one-dependent estimator predicts the class of larger joint estimate",
  "SuperParentOneDependentEstimator.predict returns the class c with the larger P(c, s) * product of P(x_j | c, s), s being the super-parent value of the row.",
  "every data set, every row",
  "all data sets and rows.",
  ["classicML/api/models/bayes/semi_naive_bayes_classifiers.py::SuperParentOneDependentEstimator._predict"])
p("Naive Bayes can be fitted on every discrete data set",
  "NaiveBayesClassifier.fit completes for every non-empty data set.",
  "every data set, any number of distinct values per column",
  "all data sets.",
  ["classicML/api/models/bayes/naive_bayes_classifier.py::NaiveBayesClassifier.fit"])
p('LDA classifies the two class means correctly',
  'after fit on two classes with different means and an invertible within-class scatter matrix, predict returns 0 for the mean of class 0 and 1 for the mean of class 1.',
  'every data set with both classes, different means and invertible scatter',
  'all data sets; depends on the definiteness of the scatter matrix.',
  ['classicML/api/models/linear_model/linear_discriminant_analysis.py::LinearDiscriminantAnalysis.fit', 'classicML/api/models/linear_model/linear_discriminant_analysis.py::LinearDiscriminantAnalysis.predict'])
p('LDA trained on one class predicts that class',
  'fit on rows that all have label 1 either raises an error or yields a model that predicts 1 for its training rows.',
  'every such data set',
  'all data sets.',
  ['classicML/api/models/linear_model/linear_discriminant_analysis.py::LinearDiscriminantAnalysis.fit', 'classicML/api/models/linear_model/linear_discriminant_analysis.py::LinearDiscriminantAnalysis.predict'])
p('Gradient descent for logistic regression never increases the loss and converges',
  'with a learning rate of at most 4 / sum(|x_i|^2 + 1), no epoch of GradientDescent increases the negative log-likelihood, and after e epochs it exceeds that of any parameter vector b by at most |beta_0 - b|^2 / (2 * learning_rate * e).',
  'every data set, initial parameters, number of epochs and such learning rate',
  'training runs of any length on all data sets.',
  ['classicML/backend/python/optimizers.py::GradientDescent.run'])
p('Parameters left unchanged by an epoch are a global optimum',
  'parameters of logistic regression that an epoch of GradientDescent (with non-zero learning rate) or NewtonMethod leaves unchanged minimise the negative log-likelihood over all parameter vectors, and minimisers are left unchanged by both.',
  'every data set and parameter vector',
  'global optimality quantifies over all parameter vectors.',
  ['classicML/backend/python/optimizers.py::GradientDescent.run', 'classicML/backend/python/optimizers.py::NewtonMethod.run'])
p('LogisticRegression predicts probabilities ordered by the linear score',
  'predict returns values strictly between 0 and 1, above 1/2 exactly where w.x + b > 0, and increasing with w.x + b.',
  'every row and parameter vector',
  'all real rows.',
  ['classicML/api/models/linear_model/logistic_regression.py::LogisticRegression.predict'])
p('Softmax is numerically safe',
  'softmax of a finite matrix has no NaN row: for every row the sum of the exponentials is positive, even if the exponential underflows to 0 for very negative arguments.',
  'every matrix, every exponential function that may underflow',
  'depends on the spread of all entries of a matrix of any size.',
  ['classicML/backend/python/activations.py::Softmax.__call__'])
p('Activation functions do not modify their argument',
  'calling softmax(z) leaves the array z unchanged.',
  'every matrix',
  'aliasing effects are not visible in return values.',
  ['classicML/backend/python/activations.py::Softmax.__call__'])
p('Binary back-propagation uses the true gradient',
  'for a network with one sigmoid output the gradient computed by back-propagation is the gradient of the binary cross-entropy with respect to all weights and biases.',
  'every network depth, parameters, data and labels in {0,1}',
  'derivative identity over reals and arbitrary depth.',
  ['classicML/backend/python/optimizers.py::StochasticGradientDescent.backward', 'classicML/backend/python/activations.py::Sigmoid.diff'])
p('A multi-class network refuses or understands integer class labels',
  'fitting a network with k >= 2 outputs on a column of class numbers either raises an error or follows the gradient of the cross-entropy of the meant classes.',
  'every network with at least two outputs, every sample and every class number',
  'quantifies over all parameters and depths.',
  ['classicML/backend/python/optimizers.py::StochasticGradientDescent.backward'])
p('Network predictions are row-wise probabilities',
  'the prediction for a row does not depend on the other rows of the batch; every output is strictly between 0 and 1 and the outputs of a multi-class row sum to 1.',
  'every network, batch and row',
  'batches and depths of any size; the softmax subtracts a maximum taken over the whole batch.',
  ['classicML/backend/python/optimizers.py::StochasticGradientDescent.forward', 'classicML/backend/python/activations.py::Softmax'])
p('RBF networks accept label vectors',
  'RadialBasisFunctionNetwork.fit accepts labels as a one-dimensional array, the form used by the other models.',
  'every data set with two features, label vector and number of epochs',
  'all data and parameters.',
  ['classicML/backend/python/optimizers.py::RadialBasisFunctionOptimizer.backward', 'classicML/api/models/neural_network/radial_basis_function_network.py'])
p('RBF networks accept any number of features',
  'fit and predict of an RBF network work for any number of features and compute sum_u w_u exp(-beta_u ||x-c_u||^2) + b.',
  'every number of features and every data set',
  'all feature counts and data.',
  ['classicML/backend/python/initializers.py::RBFNormal', 'classicML/backend/python/optimizers.py::RadialBasisFunctionOptimizer.forward'])
p('The first RBF epoch',
  'a freshly initialised RBF network predicts 0 everywhere; the first epoch leaves beta and the centres unchanged and sets the bias to the learning rate times the mean label.',
  'every random initialisation and data set',
  'all random draws and data.',
  ['classicML/backend/python/initializers.py::RBFNormal', 'classicML/backend/python/optimizers.py::RadialBasisFunctionOptimizer'])
p('Monitoring does not change training',
  "the trained parameters do not depend on verbose, on the callbacks or on earlier uses of the optimiser's progress bar.",
  'every optimiser loop, number of epochs and monitoring setting',
  'all histories of fits.',
  ['classicML/backend/python/optimizers.py::StochasticGradientDescent.run', 'classicML/backend/python/optimizers.py::Adam.run', 'classicML/backend/python/optimizers.py::GradientDescent.run', 'classicML/backend/python/optimizers.py::NewtonMethod.run'])
p('The last History record describes the returned model',
  'after fit the last loss and metric in a History callback are the loss and metric of the returned parameters.',
  'every optimiser, data set and number of epochs >= 1',
  'all training histories.',
  ['classicML/backend/python/optimizers.py::GradientDescent.run', 'classicML/backend/python/optimizers.py::NewtonMethod.run', 'classicML/backend/python/optimizers.py::RadialBasisFunctionOptimizer.run', 'classicML/backend/python/optimizers.py::StochasticGradientDescent.run'])
p('verbose=False is silent',
  'fit with verbose=False writes no progress line; with verbose=True it writes one line per epoch, numbered 1..n of n.',
  'every sequence of fits',
  'histories of fits of any length.',
  ['classicML/backend/python/optimizers.py::Optimizer', 'classicML/backend/python/_utils.py::ProgressBar'])
p('Optimiser extra arguments are bound by position or name',
  'the values of verbose, loss, metric and callbacks given to an optimiser by position or keyword reach the parameter of that name; omitted ones have a neutral default.',
  'every split into positional and keyword arguments, any order and values',
  'all argument lists and values.',
  ['classicML/backend/python/optimizers.py::_get_optimizer_parameters'])
p('Sigmoid kernel Gram matrices are positive semidefinite',
  'with its default parameters the Sigmoid kernel is a valid SVM kernel: every Gram matrix is positive semidefinite and the curvature used by SMO is non-negative.',
  'every dimension and every finite set of points',
  'all point sets.',
  ['classicML/backend/python/kernels.py::Sigmoid'])
p('Scalers work on tables',
  'MinMaxScaler and StandardScaler with the default axis accept every non-empty table and scale each row (axis=-1) or each column (axis=0) by its own statistics.',
  'every table',
  'all shapes and entries.',
  ['classicML/backend/python/data/preprocessing.py::MinMaxScaler', 'classicML/backend/python/data/preprocessing.py::StandardScaler'])
p('Encoders can be reused',
  'class_indices of an encoder that is called a second time describes the labels of that call: distinct classes have distinct codes.',
  'every sequence of label lists',
  'histories of calls.',
  ['classicML/backend/python/data/preprocessing.py::OneHotEncoder', 'classicML/backend/python/data/preprocessing.py::DummyEncoder', 'classicML/backend/python/data/preprocessing.py::MaxMarginEncoder'])
p('Labels agree with class_indices in every label mode',
  'after from_dataframe the encoded label of every sample (integer, one-hot row or sign) is class_indices[original label].',
  'every label column and label mode',
  'all label columns.',
  ['classicML/backend/python/data/dataset.py::Dataset.from_dataframe', 'classicML/backend/python/data/dataset.py::Dataset._encoder_label', 'classicML/backend/python/data/dataset.py::Dataset._set_real_class_indices'])
p('from_tensor_slices supports the documented label modes',
  'from_tensor_slices accepts label vectors in every label mode, and data without labels for unsupervised data sets; class_indices covers all classes.',
  'every label vector and label mode',
  'all label vectors.',
  ['classicML/backend/python/data/dataset.py::Dataset.from_tensor_slices'])
p('A data set can be reloaded',
  'after loading a second frame class_indices has exactly the classes of that frame.',
  'every sequence of loads',
  'histories of loads.',
  ['classicML/backend/python/data/dataset.py::Dataset.from_dataframe', 'classicML/backend/python/data/dataset.py::Dataset._preprocessing_categorical_labels'])
p('Normalisation of a loaded table',
  'with normalization=True every non-constant numeric column of x is its min-max scaled version.',
  'every numeric table, integer or float',
  'all tables.',
  ['classicML/backend/python/data/dataset.py::Dataset._preprocessing_features'])
p('Standardisation and normalisation together',
  'with both flags set the result is the normalisation of the standardised column.',
  'every column with positive variance',
  'all columns.',
  ['classicML/backend/python/data/dataset.py::Dataset._preprocessing_features'])
p('Layout of a digitised table',
  'with digitization=True x consists of the numeric columns in order followed by one block of 0/1 columns per discrete column, one column per distinct value; without it all columns stay in place.',
  'every table',
  'all tables and mixtures of column kinds.',
  ['classicML/backend/python/data/dataset.py::Dataset._preprocessing_features'])
p("Loading does not modify the caller's array",
  'from_tensor_slices(x) leaves x unchanged.',
  'every array and setting',
  'all arrays and settings.',
  ['classicML/backend/python/data/dataset.py::Dataset.from_tensor_slices', 'classicML/backend/python/data/dataset.py::Dataset._preprocessing_features'])
p('Default names select their class',
  'the name of every default optimizer, loss, metric, kernel, criterion and pruner, passed to the corresponding getter, yields an equal default object.',
  'every backend class, every gamma',
  'a table over all classes that save/load depends on.',
  ['classicML/backend/training.py'])
p('Saved models can be loaded',
  'if save_weights succeeds, load_weights of that file into an instance of the same class succeeds and every data attribute and network parameter has the saved value.',
  'every class, every model state, every file system and every loading instance',
  'all model states, attribute values and instances.',
  ['classicML/api/models/cluster/k_means.py::KMeans.load_weights', 'classicML/api/models/support_vector_machine/support_vector_classifier.py::SupportVectorClassifier.load_weights', 'classicML/api/models/support_vector_machine/support_vector_classifier.py::SupportVectorClassifier.save_weights', 'classicML/backend/io.py'])
p('Backend objects survive saving',
  'after save and load the kernel and the metric are those of the saved model.',
  'every kernel (degree, gamma, beta, theta) and metric',
  'all kernels.',
  ['classicML/api/models/support_vector_machine/support_vector_classifier.py::SupportVectorClassifier.save_weights', 'classicML/api/models/support_vector_machine/support_vector_classifier.py::SupportVectorClassifier.load_weights', 'classicML/backend/training.py::get_kernel', 'classicML/backend/training.py::get_metric'])
p('A failed load leaves the model as it was',
  'if load_weights raises, the model is unchanged.',
  'every class, file and model state',
  'all files.',
  ['classicML/api/models/support_vector_machine/support_vector_classifier.py::SupportVectorClassifier.load_weights', 'classicML/api/models/cluster/k_means.py::KMeans.load_weights'])
p('A failed save keeps the old file',
  'if save_weights raises, the file that was at that path is unchanged.',
  'every class, model state and file system',
  'all model states and files.',
  ['classicML/backend/io.py::initialize_weights_file', 'classicML/api/models/support_vector_machine/support_vector_classifier.py::SupportVectorClassifier.save_weights'])
p('Every trained model can be saved',
  'save_weights succeeds for every trained model.',
  'every trained model, any number of samples',
  'unbounded model sizes.',
  ['classicML/api/models/cluster/k_means.py::KMeans.save_weights', 'classicML/api/models/cluster/gaussian_mixture.py::GaussianMixture.save_weights', 'classicML/api/models/support_vector_machine/support_vector_classifier.py::SupportVectorClassifier.save_weights'])
p('Loading replaces the model',
  'the state after load_weights depends on the file only, not on what the loading instance held before.',
  'every file and every instance',
  'all pairs of instance and file.',
  ['classicML/api/models/neural_network/back_propagation_neural_network.py::BackPropagationNeuralNetwork.load_weights', 'classicML/api/models/cluster/gaussian_mixture.py::GaussianMixture.load_weights', 'classicML/api/models/tree/decision_tree_classifier.py::DecisionTreeClassifier.load_weights'])
p('fit trains on the data it is given',
  'the model after fit is the one trained on the data of the call, also if weights had been loaded before.',
  'every model state and every data set',
  'histories of load and fit calls.',
  ['classicML/api/models/tree/decision_tree_classifier.py::DecisionTreeClassifier.fit', 'classicML/api/models/linear_model/logistic_regression.py::LogisticRegression.fit'])
p('The picture of a tree is the tree',
  'plot_tree draws one symbol for every node of the fitted tree, with its attribute or its category, joined to its parent by an edge with the text of the branch in the middle; a node is on the row of its depth and above the middle of its leaves, the leaves are evenly spaced from left to right in the order of the branches, and no two nodes are drawn in the same place. This holds with any pruner.',
  'every training table, criterion, pruner and validation table for which fit succeeds',
  'the recursion uses four global variables; a picture of one small tree says nothing about deep or wide ones',
  ['classicML/api/plots/tree.py::plot_tree', 'classicML/api/plots/tree.py::_plot_decision_tree', 'classicML/api/plots/utils.py::_add_node', 'classicML/api/plots/utils.py::_add_text'])
p('A plotted tree fits on the canvas',
  'every node drawn by plot_tree lies inside the unit square shown by the axes',
  'every training table, criterion, pruner and validation table for which fit succeeds',
  'it depends on the recorded height, which is wrong only for trees with branches of different depth after pruning',
  ['classicML/api/plots/tree.py::plot_tree', 'classicML/api/models/tree/decision_tree_classifier.py::DecisionTreeClassifier.fit'])
p('After an update the two samples sit on the margin',
  'after a successful SMO update of a pair of samples whose errors were known exactly, each of the two samples whose multiplier is strictly between 0 and C lies exactly on its margin: y f(x) = 1; in any case the two remaining errors cancel',
  'every data set with labels +1/-1, symmetric kernel, C, state of training and pair of samples',
  'a test sees the end of a few training runs; the bias after each single update for all kernels and boxes is not observable there',
  ['classicML/backend/python/optimizers.py::SequentialMinimalOptimization._update_alpha'])
p('The training schedule of the SVM',
  'training starts with a sweep over all samples in order; a sweep over all samples that changes nothing ends the training; otherwise sweeps over the samples with multipliers strictly between 0 and C follow, until one of them changes nothing, and then a sweep over all samples again; with epochs = e >= 0 there are at most e sweeps and fewer only because of the stopping rule, with epochs = -1 only the stopping rule ends the training',
  'every data set, kernel, C, tol, epochs and sequence of random permutations',
  'the alternation depends on the whole history of updates; the result alone does not show it',
  ['classicML/backend/python/optimizers.py::SequentialMinimalOptimization.run'])
p('EM never lowers the likelihood',
  'GaussianMixture.fit, whatever the tolerance and the number of epochs, ends with parameters under which the training data are at least as likely as under the initial parameters, and so does every single EM iteration; the density it uses is that of the multivariate normal distribution',
  'every data set, number of components, initial means, initial weights forming a probability vector, positive definite initial covariances, tol and epochs, for runs that produce no singular covariance',
  'monotonicity of the likelihood is an inequality over all data sets and all iterations; a test sees single runs',
  ['classicML/api/models/cluster/gaussian_mixture.py::GaussianMixture.fit', 'classicML/backend/python/ops.py::calculate_means', 'classicML/backend/python/ops.py::calculate_covariances', 'classicML/backend/python/ops.py::calculate_mixture_coefficient', 'classicML/backend/python/ops.py::get_normal_distribution_probability_density'])
p('Initial covariances are the default or exactly the given ones',
  'by default every component of a Gaussian mixture starts with 0.1 times the identity; an array of shape (n_components, features, features) is used as given, other arrays raise ValueError and other objects TypeError',
  'every number of components and features and every initial array',
  'the accepted shapes are an infinite family; tests try one shape',
  ['classicML/backend/python/ops.py::init_covariances'])
p('Impurity measures measure impurity',
  'the Gini index of a list of labels is the probability that two labels drawn from it differ; Gini index and entropy are 0 exactly for equal labels and at most 1-1/k and log2(k) for k different labels, reached exactly when all of them are equally frequent',
  'every non-empty list of labels',
  'the extremal characterisations quantify over all label lists',
  ['classicML/backend/python/tree/criteria.py::Gini.__call__', 'classicML/backend/python/tree/criteria.py::Entropy.__call__'])
p('A split never increases impurity',
  'splitting by the values of an attribute, or of a numerical attribute at any point, never increases the weighted Gini index or entropy, and leaves it unchanged exactly when the outcome is statistically independent of the label; in particular the information gain of the chosen attribute is never negative',
  'every attribute column, list of labels of the same length and dividing point',
  'a concavity inequality over all tables of counts',
  ['classicML/backend/python/tree/criteria.py::Criterion.get_value', 'classicML/backend/python/tree/criteria.py::Gain.get_value', 'classicML/backend/python/tree/criteria.py::Gain.optimal_division'])
p('SVC predicts by the sign of its decision function',
  'after SVC.fit, predict answers -1 exactly for the rows where the decision function sum_i alpha_i*y_i*K(row,x_i)+b over all the training samples is negative and +1 elsewhere, for multipliers in [0,C] with sum_i alpha_i*y_i=0, although only the support vectors are kept; an untrained classifier refuses with ValueError',
  'every training set with labels +1/-1, kernel, gamma, C>=0, tol, number of epochs, pass order and every list of rows',
  'the dropped samples could matter for some unseen row; tests look at a few rows',
  ['classicML/api/models/support_vector_machine/support_vector_classifier.py::SupportVectorClassifier.fit', 'classicML/api/models/support_vector_machine/support_vector_classifier.py::SupportVectorClassifier.predict'])
p("gamma='auto' and 'scale' follow the training data",
  "each SVC.fit with gamma='auto' uses 1/features and with gamma='scale' uses 1/(features*variance) of the data it is given; a number is used as it is, and gamma is ignored for a Kernel instance",
  'every sequence of fits, training sets and kernels',
  'depends on the history of the object; tests fit once',
  ['classicML/api/models/support_vector_machine/support_vector_classifier.py::SupportVectorClassifier.fit', 'classicML/backend/python/kernels.py'])
p('SVC trained on one class answers that class',
  'an SVC trained on samples that all have the same label answers that label',
  'every training set with one label, kernel, parameters and row',
  'quantifies over all data sets and all pass orders',
  ['classicML/api/models/support_vector_machine/support_vector_classifier.py::SupportVectorClassifier.fit', 'classicML/api/models/support_vector_machine/support_vector_classifier.py::SupportVectorClassifier.predict'])
p('Post-pruning is reduced-error pruning, node by node',
  'the post-pruned tree has at every node either the test of the original tree or a leaf with the majority label of the training rows that reach the node; a subtree is only replaced if the leaf classifies strictly more of the validation rows there correctly, nodes without validation rows stay as they are, and no remaining bottom node could still be improved by replacing it',
  'every tree, majority rule, training set and validation set for which post-pruning completes, and every node of the result',
  'quantifies over all nodes of all trees with the rows routed to them; tests look at one tree',
  ['classicML/backend/python/tree/pruners.py::PostPruner.__call__', 'classicML/backend/python/tree/pruners.py::PostPruner.calculation_accuracy'])
p('Pre-pruning keeps exactly the splits that pay',
  'whenever pre-pruning completes, a node that validation rows reach keeps its test exactly if labelling each branch with the majority of its training rows classifies strictly more validation rows correctly than one leaf with the majority label, and is that leaf otherwise; on a fitted tree that tests by value the result classifies at least as many validation rows correctly as the majority label of the training data',
  'every tree, majority rule, training set and validation set for which pre-pruning completes, and every node of the result',
  'quantifies over all nodes of all trees with the rows routed to them; tests look at one tree',
  ['classicML/backend/python/tree/pruners.py::PrePruner.__call__', 'classicML/backend/python/tree/pruners.py::PrePruner.calculation_accuracy'])
p('Leaves of a fitted tree carry the majority label',
  'every leaf of a decision tree fitted without pruning is labelled with the most frequent label of the training rows that reach it, and a branch that no training row takes is a leaf with the most frequent label of its parent node',
  'every training set, criterion and fitted tree, and every node of it',
  'quantifies over all leaves of all trees; tests look at predictions for a few rows',
  ['classicML/backend/python/tree/generators.py::DecisionTreeGenerator.tree_generate'])
p('Activation.diff applies the derivative of the activation',
  'Relu.diff(output, relu(z)) is output times the derivative of relu at z for every z other than 0; Sigmoid.diff(output, sigmoid(z), y) is the derivative of the sigmoid times the error y-output, i.e. minus the derivative of the squared error when output is the activation; Softmax.diff(y, softmax(z)) is the derivative of the cross-entropy with respect to each logit for targets that sum to 1',
  'every real logit, output and target, every number of classes',
  'derivatives are limits; finite differences on samples only approximate them',
  ['classicML/backend/python/activations.py::Relu.diff', 'classicML/backend/python/activations.py::Sigmoid.diff', 'classicML/backend/python/activations.py::Softmax.diff', 'classicML/backend/cc/activations/activations.cc'])
p('Naive Bayes answers exactly the rows of known values',
  'a NaiveBayesClassifier constructed with attribute names and fitted answers 0 or 1 for every row whose discrete values occur in the training columns; a row with an unknown discrete value raises KeyError (with or without smoothing), a row of another length ValueError; without attribute names fit succeeds and predict raises TypeError for every row; untrained it raises ValueError',
  'every training table, labels, smoothing, attribute names, value_counts order and every row',
  'the set of rows is infinite and the error depends on the whole training table',
  ['classicML/api/models/bayes/naive_bayes_classifier.py::NaiveBayesClassifier.fit', 'classicML/api/models/bayes/naive_bayes_classifier.py::NaiveBayesClassifier.predict'])
p('C++ bootstrap samples rows uniformly and keeps pairs together',
  'with the C++ engine BootstrapSampling returns as many rows as the data has, each position holding a row of x and the label of the same row, and every row is equally likely; arrays of different lengths raise ValueError',
  'every data set, every sequence of raw random numbers',
  'uniformity is a statement about all raw values of the generator; the exceptional raw value occurs once in four billion draws',
  ['classicML/backend/cc/ops/ops.cc::BootstrapSampling1', 'classicML/backend/cc/ops/ops.cc::BootstrapSampling2'])
p('K-means gives the same result with both engines',
  'training KMeans from the same initial centroids gives the same centroids, the same clusters and stops in the same way with the Python and the C++ engine',
  'every training set with at least one feature, tolerance, number of epochs and initial centroids',
  'the engines agree on ordinary data and differ only on runs in which a cluster loses all its samples',
  ['classicML/backend/cc/ops/ops.cc::CalculateCentroids', 'classicML/backend/cc/ops/ops.cc::GetCluster', 'classicML/backend/cc/ops/ops.cc::CompareDifferences1', 'classicML/backend/cc/matrix_op.cc::ArgMin', 'classicML/api/models/cluster/k_means.py::KMeans.fit'])
p('init_centroids means the same with both engines',
  "with the C++ engine init='random' picks one sample for each cluster, a matrix with one row for each cluster and one column for each feature is used as it is, a list of indices selects these samples, everything else is refused, with the same exceptions as the Python engine",
  'every data set, number of clusters and init argument',
  'the interpretation depends on the shapes of two arguments',
  ['classicML/backend/cc/ops/ops.cc::InitCentroids1', 'classicML/backend/cc/ops/ops.cc::InitCentroids2', 'classicML/backend/cc/matrix_op.cc::Reshape'])
p('The mixture and SVM kernels of the C++ engine compute what the Python ones compute',
  'CalculateMeans and CalculateError of the C++ engine give, in exact arithmetic, the numbers of the Python functions',
  'every data matrix, responsibilities, multipliers, labels, kernel and offset',
  'equality of two programs on all inputs',
  ['classicML/backend/cc/ops/ops.cc::CalculateMeans', 'classicML/backend/cc/ops/ops.cc::CalculateError', 'classicML/backend/cc/matrix_op.cc::GetNonZeroSubMatrix'])
p('BroadcastSub subtracts like numpy or raises ValueError',
  "BroadcastSub(a, b) is numpy's a - b for matrices of equal width when the numbers of rows are equal or one of them is 1; other shapes raise ValueError",
  'all pairs of matrices',
  'all shapes',
  ['classicML/backend/cc/matrix_op.cc::BroadcastSub'])
p('Initialisers produce the documented shapes and scales',
  'for a network structure [n0, n1, ...] an initialiser returns exactly the parameters w1, b1, w2, b2, ...; w_l has shape (n_l, n_{l-1}) and consists of standard normal numbers times 1, sqrt(2/N_in) or sqrt(2/(N_in+N_out)), b_l is a row of zeros; for a logistic regression with d attributes it returns d+1 numbers; the RBF initialiser returns zero weights and bias, uniform centres and normal widths',
  'every initialiser, every network structure, every state of the random generator',
  'all depths and layer sizes; the numbers are random',
  ['classicML/backend/python/initializers.py::RandomNormal', 'classicML/backend/python/initializers.py::HeNormal', 'classicML/backend/python/initializers.py::XavierNormal', 'classicML/backend/python/initializers.py::RBFNormal'])
p('XavierNormal uses the Glorot scale',
  'the weights made by XavierNormal are standard normal numbers times sqrt(2/(N_in+N_out))',
  'every network structure and every number of attributes of a logistic regression',
  'a statement about the distribution of random numbers for all sizes',
  ['classicML/backend/python/initializers.py::XavierNormal'])
p('The seed of a model determines its initial parameters',
  'a model compiled with a seed starts its training with parameters that depend on the seed only',
  'every interleaving of compiling and training several models in one process',
  'all histories of the process',
  ['classicML/backend/python/initializers.py::Initializer', 'classicML/backend/training.py::get_initializer'])
p('The seed determines the initial parameters (C++ engine)',
  'with the C++ engine two calls of an initialiser with the same seed and the same structure return the same parameters',
  'every history of the process, every structure and seed',
  'depends on hidden state kept from previous calls',
  ['classicML/backend/cc/matrix_op.cc::GenerateRandomStandardNormalDistributionMatrix', 'classicML/backend/cc/initializers/initializers.cc::RandomNormal', 'classicML/backend/cc/initializers/initializers.cc::HeNormal', 'classicML/backend/cc/initializers/initializers.cc::XavierNormal'])
p('Different weights are different random numbers',
  'the weights of a freshly initialised network are pairwise different draws of the random generator, in both engines',
  'every initialiser and network structure',
  'all structures; equality of random numbers',
  ['classicML/backend/python/initializers.py::RandomNormal', 'classicML/backend/cc/initializers/initializers.cc::RandomNormal', 'classicML/backend/cc/matrix_op.cc::GenerateRandomStandardNormalDistributionMatrix'])
p('The losses of both engines return the same number',
  'the Python and the C++ engine return the same loss for the same predictions and labels, given as matrices or as label vectors',
  'all numbers of samples and columns, all entries, labels as vectors or matrices',
  'all shapes and values; two independent implementations',
  ['classicML/backend/python/losses.py::BinaryCrossentropy', 'classicML/backend/python/losses.py::CategoricalCrossentropy', 'classicML/backend/python/losses.py::Crossentropy', 'classicML/backend/python/losses.py::LogLikelihood', 'classicML/backend/python/losses.py::MeanSquaredError', 'classicML/backend/cc/losses/losses.cc::BinaryCrossentropy', 'classicML/backend/cc/losses/losses.cc::MeanSquaredError'])
p('The cross-entropy of correct, certain predictions is zero',
  'if every prediction equals its label the cross-entropy is 0, and it is a finite number whenever no certain prediction is wrong',
  'all label arrays and predictions in [0,1]',
  'values at the border of the domain for all sizes; depends on infinities and NaN',
  ['classicML/backend/python/losses.py::BinaryCrossentropy', 'classicML/backend/python/losses.py::CategoricalCrossentropy', 'classicML/backend/cc/losses/losses.cc::BinaryCrossentropy', 'classicML/backend/cc/losses/losses.cc::CategoricalCrossentropy'])
p('The kernels of both engines return the same values',
  'calling a kernel on rows of features returns the kernel value of every pair of rows, the same in both engines, for any number of rows and features',
  'every kernel, every shape of the two arguments, all entries',
  'all shapes and values; two implementations with different memory layouts',
  ['classicML/backend/python/kernels.py::Linear', 'classicML/backend/python/kernels.py::Polynomial', 'classicML/backend/python/kernels.py::RBF', 'classicML/backend/python/kernels.py::Sigmoid', 'classicML/backend/cc/kernels/kernels.cc::Linear', 'classicML/backend/cc/kernels/kernels.cc::RBF', 'classicML/backend/cc/matrix_op.cc::Reshape', 'classicML/backend/cc/matrix_op.cc::BroadcastSub'])
p('The activations of both engines return the same array',
  'relu, sigmoid and softmax and their diff methods return the same array in both engines or refuse the same arguments',
  'vectors and matrices of every shape, all entries',
  'all shapes and values',
  ['classicML/backend/python/activations.py::Relu', 'classicML/backend/python/activations.py::Sigmoid', 'classicML/backend/python/activations.py::Softmax', 'classicML/backend/cc/activations/activations.cc::Relu', 'classicML/backend/cc/activations/activations.cc::Sigmoid', 'classicML/backend/cc/activations/activations.cc::Softmax'])
p('The configured precision is used',
  "CLASSICML_PRECISION='64-bit' makes the library compute in 64 bits, any other value in 32 bits; unknown values are reported",
  'every value of the environment variable and every call of a loss, metric, kernel or activation',
  'all strings and all combinations of element types',
  ['classicML/framework/dtypes.py::set_precision', 'classicML/backend/cc/losses/losses_wrapper.cc', 'classicML/backend/cc/metrics/metrics_wrapper.cc'])
p("Linear discriminant analysis with the C++ engine finds Fisher's direction",
  'with the C++ engine fit stores the class means and a projection vector w with S_w w = mu_0 - mu_1 (up to scale), and predicts the same labels as the textbook method',
  'all data sets, numbers of features, and all valid singular value decompositions',
  'all scatter matrices and all decompositions the linear algebra library may return',
  ['classicML/backend/cc/ops/ops.cc::GetW_V2', 'classicML/backend/cc/ops/ops.cc::GetWithinClassScatterMatrix', 'classicML/backend/cc/matrix_op.cc::BroadcastSub', 'classicML/api/models/linear_model/linear_discriminant_analysis.py::LinearDiscriminantAnalysis.fit'])
p('type_of_target of both engines gives the same answer',
  'cc_type_of_target_v2 answers what type_of_target answers, for every array of numbers or strings',
  'all arrays of every dtype kind, shape and content, all roundings to single precision',
  'all values and strings; depends on float32 rounding, on the bytes of strings and on an unassigned variable',
  ['classicML/backend/cc/ops/ops.cc::TypeOfTarget_V2', 'classicML/backend/cc/matrix_op.cc::AnyDiscreteInteger', 'classicML/backend/cc/matrix_op.cc::Unique', 'classicML/backend/python/ops.py::type_of_target'])
p('The convex hull of the C++ engine encloses the points',
  'the C++ ConvexHull returns a closed chain of input points without right turns that encloses all points, the same as the Python ConvexHull',
  'all point sets and all results of the two unstable sorts',
  'all point sets; the order of equal keys is not determined',
  ['classicML/backend/cc/ops/ops.cc::ConvexHull::ComputeConvexHull', 'classicML/backend/cc/ops/ops.cc::ConvexHull::GetSlope', 'classicML/backend/python/ops.py::ConvexHull'])
p('The probability estimates and differences of both engines agree',
  'the C++ functions for conditional and joint prior probabilities, densities and differences of tensors return the values of the Python functions',
  'all counts, samples, means, variances, tensors and thresholds',
  'all counts, including those near the range of the integer type',
  ['classicML/backend/cc/ops/ops.cc::GetConditionalProbability', 'classicML/backend/cc/ops/ops.cc::GetDependentPriorProbability', 'classicML/backend/cc/ops/ops.cc::GetProbabilityDensity', 'classicML/backend/cc/ops/ops.cc::CompareDifferences2', 'classicML/backend/python/ops.py::get_conditional_probability'])
p('Benchmark decorators do not change what they measure',
  'A function decorated with timer, memory_monitor or average_timer(repeat) returns the same value, raises the same exception and has the same effect as the undecorated function.',
  'all functions (with any effects), all states, all repeat counts, all exceptions',
  'Tests decorate a few pure functions; the claim is about every function, effect, exception and repeat count.',
  ['classicML/benchmarks/wrapper_utils.py::timer', 'classicML/benchmarks/wrapper_utils.py::average_timer', 'classicML/benchmarks/wrapper_utils.py::memory_monitor'])
p('Benchmark decorators report the times that passed',
  'The line logged by timer states the duration of the call and average_timer states mean, standard deviation, longest and shortest duration of its calls, each in a unit that suits its size and is the unit printed.',
  'all durations, all sequences of durations',
  'Durations are not under the control of a test; unit changes happen at boundaries that a run does not hit.',
  ['classicML/benchmarks/wrapper_utils.py::_format_and_display_the_time_spent', 'classicML/benchmarks/wrapper_utils.py::average_timer', 'classicML/benchmarks/wrapper_utils.py::timer'])
p("The discriminant-analysis figure shows the model's decision",
  'plot_linear_discriminant_analysis refuses an untrained model; otherwise it draws every sample with label 0 or 1, the line through the origin along the projection vector, and from every sample a segment to its orthogonal projection on that line, inside the visible window, so that a sample is predicted positive exactly when its drawn projection is nearer the drawn positive centre.',
  'all trained weight vectors and class means, all data sets and labels',
  'A figure is only looked at for one data set; slope and foot-point formulas must hold for every weight vector, including axis-parallel ones.',
  ['classicML/api/plots/linear_model.py::plot_linear_discriminant_analysis', 'classicML/api/plots/linear_model.py::_plot_sample_scatter', 'classicML/api/plots/utils.py::_lda_plot_config'])
p('The logistic-regression figure draws the probability-1/2 line',
  'plot_logistic_regression refuses an untrained model; otherwise the drawn line is exactly the set of points to which the model assigns probability 1/2, for every trained model on two features, and models on another number of features are refused.',
  'all weight vectors of all lengths, all data sets',
  'A figure is only looked at for one model; the line formula must hold for all weights.',
  ['classicML/api/plots/linear_model.py::plot_logistic_regression', 'classicML/api/plots/linear_model.py::_plot_sample_scatter'])
p('The k-means figure outlines every cluster',
  'plot_k_means refuses an untrained model; for every trained or loaded model and its training samples it draws all samples, all centroids and for every cluster a closed line around the samples of that cluster, which encloses them and the centroid if that is their mean, inside the visible window.',
  'all trained and loaded models, all cluster sizes and label vectors, all data sets, all results of the unstable sort',
  'A figure is looked at for one data set; the claim is about all cluster sizes (also of one sample), all data and all instances the weights are loaded into.',
  ['classicML/api/plots/cluster.py::plot_k_means', 'classicML/api/plots/cluster.py::_plot_sample_scatter_and_centroids', 'classicML/api/plots/utils.py::_k_means_config', 'classicML/backend/python/ops.py::ConvexHull'])
p('The Gaussian-mixture figure shows every sample once, in its component',
  'plot_gaussian_mixture refuses an untrained model; otherwise every training sample is drawn exactly once, in the group of its component, and every mean is drawn; another number of samples is an error.',
  'all models, label vectors below the number of components, and data sets',
  'The partition must be right for all label vectors.',
  ['classicML/api/plots/cluster.py::plot_gaussian_mixture', 'classicML/api/plots/cluster.py::_plot_sample_scatter_and_centroids'])
p('The support-vector figure shows the samples, the support vectors and the decision boundary',
  'plot_support_vector_classifier refuses an untrained model; for every trained or loaded binary classifier with at least two features and its training data it draws the negative and positive samples, a ring around every support vector, and the decision boundary: the drawn line passes between two neighbouring nodes of the grid exactly if they are predicted differently.',
  'all trained and loaded classifiers, kernels, data sets and label vectors',
  'A figure is looked at for one data set; the claim is about all classifiers and data, wherever the samples lie.',
  ['classicML/api/plots/support_vector_machine.py::plot_support_vector_classifier', 'classicML/api/plots/support_vector_machine.py::_plot_decision_boundary', 'classicML/api/plots/support_vector_machine.py::_plot_sample_and_support_scatter'])
p('The ensemble figure shows the samples and the boundaries of the ensemble and of every estimator',
  "plot_ensemble refuses an untrained model; otherwise it draws the samples, the boundary of the ensemble and, if asked for, one boundary for each estimator from that estimator's own predictions, wherever the samples lie.",
  'all trained and loaded ensembles, estimators, data sets and label vectors',
  'The claim is about all ensembles and data; a figure is looked at for one.',
  ['classicML/api/plots/ensemble.py::plot_ensemble', 'classicML/api/plots/ensemble.py::_plot_classification_boundary', 'classicML/api/plots/ensemble.py::_plot_sample_scatter'])
p('The figure of a Bayesian classifier shows the predicted class of every point of the window',
  'plot_bayes refuses an untrained model; for every trained classifier of two attributes and its training data it draws every sample labelled 0 or 1 inside the window and colours the window by the predicted class.',
  'all naive Bayes classifiers and super-parent estimators of two numeric attributes, all data sets',
  'It must hold for all data, in particular for all kinds of columns; a figure is looked at for one data set.',
  ['classicML/api/plots/bayes.py::plot_bayes', 'classicML/api/plots/bayes.py::_plot_background', 'classicML/api/plots/bayes.py::_plot_scatter'])
p('predict answers with one prediction per row, in any container of rows',
  'For every trained model, a batch of rows gets a sequence with one prediction per row, in the order of the rows, and the same prediction whether the rows come as a list of lists, a 2-D array or a DataFrame, for any number of rows including one.',
  'all trained models, all batches of rows, all containers of rows',
  'It must hold for every batch, every number of rows and every container; tests call predict with an array of several rows.',
  ['classicML/api/models/tree/decision_tree_classifier.py::DecisionTreeClassifier.predict', 'classicML/api/models/linear_model/logistic_regression.py::LogisticRegression.predict', 'classicML/api/models/linear_model/linear_discriminant_analysis.py::LinearDiscriminantAnalysis.predict', 'classicML/api/models/support_vector_machine/support_vector_classifier.py::SupportVectorClassifier.predict', 'classicML/api/models/cluster/k_means.py::KMeans.predict', 'classicML/api/models/bayes/naive_bayes_classifier.py::predict', 'classicML/api/models/ensemble/boosting.py::predict', 'classicML/api/models/ensemble/bagging.py::predict'])
p('One sample given as a flat vector is one sample',
  'For every trained model, a single sample handed to predict as a flat list, a 1-D array or a Series gets exactly one prediction, the prediction of that sample.',
  'all trained models, all samples, all flat containers',
  'It must hold for every sample of every width; broadcasting makes some wrong shapes look right for particular widths.',
  ['classicML/api/models/support_vector_machine/support_vector_classifier.py::SupportVectorClassifier.predict', 'classicML/api/models/neural_network/radial_basis_function_network.py::RadialBasisFunctionNetwork.predict', 'classicML/api/models/linear_model/logistic_regression.py::LogisticRegression.predict', 'classicML/api/models/tree/decision_tree_classifier.py::DecisionTreeClassifier.predict', 'classicML/backend/python/kernels.py::RBF.__call__'])
p('The attributes of a DataFrame are identified by their names',
  'If a model was built with attribute names, then two DataFrames with the same values under these names, in whatever order and among whatever other columns, get the same answers from fit and from predict.',
  'all models with attribute names, all pairs of DataFrames holding the same data',
  'It must hold for every order of the columns; tests use the order of the training file.',
  ['classicML/api/models/tree/decision_tree_classifier.py::DecisionTreeClassifier.fit', 'classicML/api/models/tree/decision_tree_classifier.py::DecisionTreeClassifier.predict', 'classicML/api/models/bayes/naive_bayes_classifier.py::predict', 'classicML/api/models/bayes/semi_naive_bayes_classifiers.py::predict'])
p('score is the fraction of correct rows, for labels in any container and any number of rows',
  'For every model and every labelled set of rows, score is the fraction of rows predicted correctly, whether the labels are a list, an array (flat, a column, one-hot), a Series or a DataFrame, for any number of rows including one.',
  'all models, all predictions, all label vectors and their containers',
  'It must hold for all containers and sizes; tests score arrays of many rows.',
  ['classicML/backend/python/metrics.py::Metric', 'classicML/backend/python/metrics.py::Accuracy.__call__', 'classicML/backend/python/metrics.py::BinaryAccuracy.__call__', 'classicML/backend/python/metrics.py::CategoricalAccuracy.__call__', 'classicML/api/models/base_model.py::score'])
p('A kernel called with two sets of rows returns their kernel matrix',
  'For all sets of rows of the same width, each kernel returns the matrix whose entry (i, j) is the kernel value of row i of the second and row j of the first argument.',
  'all kernels, all pairs of sets of rows, all parameters',
  'It must hold for all sizes; the training code only ever calls kernels with one row against many.',
  ['classicML/backend/python/kernels.py::Linear.__call__', 'classicML/backend/python/kernels.py::Polynomial.__call__', 'classicML/backend/python/kernels.py::RBF.__call__', 'classicML/backend/python/kernels.py::Sigmoid.__call__'])
p('The super-parent estimator depends on the attribute that was compiled, or refuses',
  'After any sequence of compile and fit calls, fitting a super-parent one-dependent estimator adds the estimates with the column of the compiled name as super-parent; a name that is no column is refused and the object is left unchanged.',
  'all sequences of compile and fit calls, all tables and names',
  'It is about all call histories: what an earlier fit left behind decides.',
  ['classicML/api/models/bayes/semi_naive_bayes_classifiers.py::SuperParentOneDependentEstimator.compile', 'classicML/api/models/bayes/semi_naive_bayes_classifiers.py::SuperParentOneDependentEstimator.fit'])
p('The names of the attributes do not influence the prediction of the super-parent estimator',
  'For all stored estimates and all rows, the posterior of a class is the product of its prior and of the factor of each attribute at the value of the row in the same position, whatever the attributes are called.',
  'all attribute names, stored estimates and rows',
  'It must hold for every choice of names, including names used inside the stored dictionary; tests use the names of one file.',
  ['classicML/api/models/bayes/semi_naive_bayes_classifiers.py::SuperParentOneDependentEstimator._calculate_posterior_probability', 'classicML/api/models/bayes/semi_naive_bayes_classifiers.py::SuperParentOneDependentEstimator.fit'])
p('Training in two calls of fit is training for the sum of the epochs',
  'Calling fit of a neural network for e1 epochs and then for e2 epochs gives the parameters that fit for e1 + e2 epochs gives with the same random draws, for every optimiser.',
  'all networks, data sets, optimisers, numbers of epochs and random draws',
  'The state an optimiser keeps between epochs is not visible; the claim is about all histories of calls.',
  ['classicML/api/models/neural_network/back_propagation_neural_network.py::fit', 'classicML/backend/python/optimizers.py::Adam.run', 'classicML/backend/python/optimizers.py::StochasticGradientDescent.run'])
p('Loading a frame leaves it alone',
  "Dataset.from_dataframe does not change the caller's frame; a second Dataset made from the same frame has the same y and the same class_indices.",
  'all frames with string or integer labels, all numbers of classes, all histories of two loads',
  "The change is made in the caller's object, and its effect on a second load depends on how all class numbers are sorted as strings.",
  ['classicML/backend/python/data/dataset.py::Dataset.from_dataframe', 'classicML/backend/python/data/dataset.py::Dataset._preprocessing_binary_labels', 'classicML/backend/python/data/dataset.py::Dataset._preprocessing_categorical_labels'])
p('An ensemble compiled without a seed gets a seed of its own',
  'BaggingClassifier.compile() without seed draws a random seed for that classifier: classifiers compiled one after the other in one process are sampled independently.',
  'all processes, all sequences of calls between the compilations, all streams of random numbers, all data',
  'The claim is about all histories of a process; a test sees two equal seeds as a coincidence.',
  ['classicML/api/models/ensemble/bagging.py::BaggingClassifier.compile', 'classicML/api/models/ensemble/bagging.py::BaggingClassifier.fit'])
p("fit and predict leave the caller's frames alone",
  'fit and predict of NaiveBayesClassifier, SuperParentOneDependentEstimator, AveragedOneDependentEstimator and DecisionTreeClassifier do not change the frames and series passed to them: values, column names and row labels are the same afterwards.',
  'all frames and series with any row labels, all four classes, with and without attribute names and validation sets, all sequences of calls',
  "The change is made through a second reference to the caller's table and only to its labels; no result of the call shows it.",
  ['classicML/api/models/bayes/naive_bayes_classifier.py::NaiveBayesClassifier.fit', 'classicML/api/models/bayes/naive_bayes_classifier.py::NaiveBayesClassifier.predict', 'classicML/api/models/bayes/semi_naive_bayes_classifiers.py::SuperParentOneDependentEstimator.fit', 'classicML/api/models/bayes/semi_naive_bayes_classifiers.py::AveragedOneDependentEstimator.fit', 'classicML/api/models/tree/decision_tree_classifier.py::DecisionTreeClassifier.fit'])
p('A call of fit that raises leaves the model as it was',
  'If fit of a trained model raises an exception, the model predicts afterwards exactly as it did before the call.',
  'all trained instances of LogisticRegression, LinearDiscriminantAnalysis, KMeans, GaussianMixture, NaiveBayesClassifier, BaggingClassifier, AdaBoostClassifier and BackPropagationNeuralNetwork, all data, all points of failure',
  'The instance after an exception is a state no test of fit looks at, and every statement of the training can be the one that raises.',
  ['classicML/api/models/linear_model/logistic_regression.py::LogisticRegression.fit', 'classicML/api/models/linear_model/linear_discriminant_analysis.py::LinearDiscriminantAnalysis.fit', 'classicML/api/models/cluster/k_means.py::KMeans.fit', 'classicML/api/models/cluster/gaussian_mixture.py::GaussianMixture.fit', 'classicML/api/models/bayes/naive_bayes_classifier.py::NaiveBayesClassifier.fit', 'classicML/api/models/ensemble/bagging.py::BaggingClassifier.fit', 'classicML/api/models/ensemble/boosting.py::AdaBoostClassifier.fit', 'classicML/api/models/neural_network/back_propagation_neural_network.py::BackPropagationNeuralNetwork.fit'])
p('A call of fit that raised leaves no trace in the next one',
  'After fit raised, a call of fit that completes gives the model that a new instance would have got from it.',
  'all histories of a failed and a completed call, all data, all points of failure, the classes of C171',
  'Needs all pairs of calls and all points of failure of the first one.',
  ['classicML/api/models/ensemble/bagging.py::BaggingClassifier.fit', 'classicML/api/models/ensemble/boosting.py::AdaBoostClassifier.fit', 'classicML/api/models/cluster/k_means.py::KMeans.fit', 'classicML/api/models/linear_model/logistic_regression.py::LogisticRegression.fit', 'classicML/api/models/linear_model/linear_discriminant_analysis.py::LinearDiscriminantAnalysis.fit', 'classicML/api/models/bayes/naive_bayes_classifier.py::NaiveBayesClassifier.fit'])
p('compile is all or nothing',
  'A call of compile that raises changes nothing: the instance keeps its structure, optimizer, loss and metric, and the random generator its state.',
  'all instances of LogisticRegression, BackPropagationNeuralNetwork, RadialBasisFunctionNetwork and DecisionTreeClassifier, all arguments, all states of the random generator',
  'The instance after an exception is a state that tests do not look at; all argument combinations and prior states matter.',
  ['classicML/api/models/linear_model/logistic_regression.py::LogisticRegression.compile', 'classicML/api/models/neural_network/back_propagation_neural_network.py::BackPropagationNeuralNetwork.compile', 'classicML/api/models/neural_network/radial_basis_function_network.py::RadialBasisFunctionNetwork.compile', 'classicML/api/models/tree/decision_tree_classifier.py::DecisionTreeClassifier.compile', 'classicML/backend/training.py::get_optimizer', 'classicML/backend/training.py::get_metric'])
p('Every configuration that compile accepts can be trained',
  'If compile succeeds, there is a data set on which fit then completes, for every number of epochs.',
  'all arguments of compile (names and instances of all six optimizers, five losses, three metrics, five initializers, all structures), all data sets, epochs and random numbers; training watched or not',
  'A model is useless only if fit fails on all data, which no finite set of tests shows; and the product of all arguments is large.',
  ['classicML/api/models/linear_model/logistic_regression.py::LogisticRegression.compile', 'classicML/api/models/linear_model/logistic_regression.py::LogisticRegression.fit', 'classicML/api/models/neural_network/back_propagation_neural_network.py::BackPropagationNeuralNetwork.compile', 'classicML/api/models/neural_network/back_propagation_neural_network.py::BackPropagationNeuralNetwork.fit', 'classicML/api/models/neural_network/radial_basis_function_network.py::RadialBasisFunctionNetwork.compile', 'classicML/api/models/neural_network/radial_basis_function_network.py::RadialBasisFunctionNetwork.fit', 'classicML/backend/python/optimizers.py::StochasticGradientDescent.run', 'classicML/backend/python/optimizers.py::Adam.run', 'classicML/backend/python/optimizers.py::GradientDescent.run', 'classicML/backend/python/optimizers.py::NewtonMethod.run', 'classicML/backend/python/optimizers.py::RadialBasisFunctionOptimizer.run'])
p('fit before compile is refused',
  'fit of an instance that was never compiled raises an exception, and predict raises ValueError.',
  'all arguments of the constructor, all data, epochs and random numbers; the three models that take an optimizer',
  'Ranges over all data and constructor arguments, including ready-made initializer objects.',
  ['classicML/api/models/linear_model/logistic_regression.py::LogisticRegression.fit', 'classicML/api/models/neural_network/back_propagation_neural_network.py::BackPropagationNeuralNetwork.fit', 'classicML/api/models/neural_network/radial_basis_function_network.py::RadialBasisFunctionNetwork.fit'])
p('Compiling a trained model again keeps its predictions',
  'compile configures the next training; the predictions of a trained or loaded model do not change.',
  'all trained or loaded instances, all arguments of compile (whether it raises or not), all x',
  'Equality of the predictions must hold for all inputs and all pairs of configurations.',
  ['classicML/api/models/linear_model/logistic_regression.py::LogisticRegression.compile', 'classicML/api/models/linear_model/logistic_regression.py::LogisticRegression.predict', 'classicML/api/models/neural_network/back_propagation_neural_network.py::BackPropagationNeuralNetwork.compile', 'classicML/api/models/neural_network/back_propagation_neural_network.py::BackPropagationNeuralNetwork.predict', 'classicML/api/models/neural_network/radial_basis_function_network.py::RadialBasisFunctionNetwork.compile', 'classicML/api/models/neural_network/radial_basis_function_network.py::RadialBasisFunctionNetwork.predict', 'classicML/backend/python/optimizers.py::StochasticGradientDescent.forward', 'classicML/backend/python/optimizers.py::GradientDescent.forward'])
p('A seeded model is trained the same way every time',
  'With a seed given to the constructor, compile followed by fit on the same data gives the same model, whatever random numbers were drawn before and however often it is repeated.',
  'all seeds, data, epochs, states of the random generator, and all histories of compile and fit on one instance',
  'Quantifies over all prior states of the global generator and all histories.',
  ['classicML/api/models/linear_model/logistic_regression.py::LogisticRegression.__init__', 'classicML/api/models/linear_model/logistic_regression.py::LogisticRegression.compile', 'classicML/api/models/neural_network/back_propagation_neural_network.py::BackPropagationNeuralNetwork.compile', 'classicML/api/models/neural_network/radial_basis_function_network.py::RadialBasisFunctionNetwork.compile', 'classicML/backend/training.py::get_initializer', 'classicML/backend/python/initializers.py::Initializer.__init__'])
p('np.random.seed makes the training of unseeded models repeatable',
  "If the user seeds numpy's generator before compile, compile and fit of a model without a seed of its own give the same result in every run of the program.",
  'all states set by the user, all states from the operating system, all data and epochs',
  'The dependence on the state from the operating system cannot be observed by tests, which get one state per run.',
  ['classicML/api/models/linear_model/logistic_regression.py::LogisticRegression.compile', 'classicML/api/models/neural_network/back_propagation_neural_network.py::BackPropagationNeuralNetwork.compile', 'classicML/api/models/neural_network/radial_basis_function_network.py::RadialBasisFunctionNetwork.compile', 'classicML/backend/python/initializers.py::Initializer.__init__'])
p('k-means training comes to an end by itself',
  'For a non-negative tolerance there is a number of epochs, depending only on the number of samples and clusters, after which fit has either raised or stopped by itself; a larger number of epochs then gives the same model.',
  'all data sets, initial centroids, non-negative tolerances and numbers of epochs',
  'Termination for all inputs cannot be observed by running some of them.',
  ['classicML/api/models/cluster/k_means.py::KMeans.fit', 'classicML/backend/python/ops.py::calculate_centroids', 'classicML/backend/python/ops.py::compare_differences', 'classicML/backend/python/ops.py::get_cluster'])
p('k-means does not depend on units, origin or the order of the features',
  'Multiplying all features by a non-zero factor (and the tolerance by its absolute value), adding an offset per feature or permuting the features gives the same labels and the same centroids in the new coordinates; fit raises and stops in the same cases.',
  'all data, initial centroids, tolerances, epochs, factors, offsets and permutations',
  'A relation between two runs for all data and all changes of coordinates.',
  ['classicML/api/models/cluster/k_means.py::KMeans.fit', 'classicML/api/models/cluster/k_means.py::KMeans.predict', 'classicML/backend/python/ops.py::calculate_euclidean_distance', 'classicML/backend/python/ops.py::calculate_centroids', 'classicML/backend/python/ops.py::compare_differences'])
p('k-means does not depend on the order or multiplicity of the samples',
  'Permuting the samples permutes the labels and leaves the centroids as they are; giving every sample twice leaves the centroids as they are.',
  'all data, permutations, initial centroids, tolerances and epochs',
  'A relation between two runs for all data and all permutations.',
  ['classicML/api/models/cluster/k_means.py::KMeans.fit', 'classicML/backend/python/ops.py::calculate_centroids', 'classicML/backend/python/ops.py::get_cluster'])
p('Swapping the labels of an SVC negates its decision function',
  'Training with the two labels swapped (same data, kernel, C, tolerance, epochs and random permutations) gives the same support vectors and multipliers and the opposite decision value for every sample; predictions are opposite except where the decision value is exactly 0.',
  'all data, kernels, parameters, epochs (limited or not), random permutations and samples',
  'A relation between two runs of an iterative optimiser, for all data and schedules.',
  ['classicML/api/models/support_vector_machine/support_vector_classifier.py::SupportVectorClassifier.fit', 'classicML/api/models/support_vector_machine/support_vector_classifier.py::SupportVectorClassifier.predict', 'classicML/backend/python/optimizers.py::SequentialMinimalOptimization.run', 'classicML/backend/python/optimizers.py::SequentialMinimalOptimization._update_alpha', 'classicML/backend/python/ops.py::calculate_error', 'classicML/backend/python/ops.py::select_second_alpha'])
p('An RBF support vector classifier does not depend on origin and units',
  "With the RBF kernel, moving the origin of the features changes no prediction when gamma is a number or 'auto'; with gamma='scale' measuring all features in another unit and from another origin changes no prediction.",
  'all data, offsets, units, parameters, epochs, random permutations and samples',
  'A relation between two runs of an iterative optimiser, for all data and changes of coordinates.',
  ['classicML/api/models/support_vector_machine/support_vector_classifier.py::SupportVectorClassifier.fit', 'classicML/api/models/support_vector_machine/support_vector_classifier.py::SupportVectorClassifier.predict', 'classicML/backend/python/kernels.py::RBF.__call__', 'classicML/backend/python/optimizers.py::SequentialMinimalOptimization.run'])
p('Logistic regression treats the two classes and all samples alike',
  'With the classes swapped and the initial parameters negated, training gives the negated parameters, so every predicted probability p becomes 1 - p; the order of the samples does not matter.',
  'all data, learning rates, epochs, initial parameters, permutations, both optimizers, all rows',
  'A relation between two runs for all data.',
  ['classicML/api/models/linear_model/logistic_regression.py::LogisticRegression.fit', 'classicML/api/models/linear_model/logistic_regression.py::LogisticRegression.predict', 'classicML/backend/python/optimizers.py::GradientDescent.run', 'classicML/backend/python/optimizers.py::NewtonMethod.run'])
p("Newton's method does not depend on the coordinates of the features",
  'Recoding the features by any invertible affine map and starting from parameters that predict the same probabilities, training with NewtonMethod raises in the same cases and otherwise gives a model that predicts the same probability for every row.',
  'all data, labels, invertible affine recodings, epochs, initial parameters, rows',
  'A relation between two runs for all data and all recodings.',
  ['classicML/api/models/linear_model/logistic_regression.py::LogisticRegression.fit', 'classicML/backend/python/optimizers.py::NewtonMethod.run', 'classicML/backend/python/optimizers.py::NewtonMethod.forward', 'classicML/backend/python/optimizers.py::NewtonMethod.backward'])
p('Stumps, two-level trees and AdaBoost do not depend on the units of the features',
  'Giving every feature its own new unit (a positive factor) and origin (an offset) changes the dividing points accordingly and nothing else: stumps, two-level trees and AdaBoost give every row the label they gave it before, with the same coefficients and weights, and raise in the same cases.',
  'all weighted data sets, factors, offsets, numbers of estimators and rows',
  'A relation between two trainings for all data and all changes of units.',
  ['classicML/backend/python/tree/generators.py::DecisionStumpGenerator', 'classicML/backend/python/tree/generators.py::TwoLevelDecisionTreeGenerator', 'classicML/api/models/ensemble/boosting.py::AdaBoostClassifier.fit', 'classicML/api/models/ensemble/boosting.py::AdaBoostClassifier.predict'])
p('Stumps, two-level trees and AdaBoost do not depend on the order of the samples',
  'Training on the same samples in another order gives the same stump, the same two-level tree and the same boosted ensemble (each sample carrying its own weights).',
  'all weighted data sets, permutations of the samples, numbers of estimators',
  'A relation between two trainings for all data and permutations.',
  ['classicML/backend/python/tree/generators.py::DecisionStumpGenerator', 'classicML/backend/python/tree/generators.py::TwoLevelDecisionTreeGenerator', 'classicML/api/models/ensemble/boosting.py::AdaBoostClassifier.fit'])
p('The training error of AdaBoost falls exponentially',
  'If every tree trained has weighted error at most 1/2 - g with g > 0, then after T rounds at most the fraction exp(-2 g^2 T) of the training samples is labelled wrongly; with more than ln(n)/(2 g^2) rounds (and fewer than 10^17 samples) every training sample is labelled correctly.',
  'all data sets with labels 1 and -1, numbers of estimators, edges g > 0',
  'A rate over all data and all numbers of rounds.',
  ['classicML/api/models/ensemble/boosting.py::AdaBoostClassifier.fit', 'classicML/api/models/ensemble/boosting.py::AdaBoostClassifier.predict'])
p('Decision trees do not depend on the units of the attributes',
  'Giving every numerical attribute its own new unit (a positive factor) and origin (an offset), without changing which columns count as continuous, changes the dividing points accordingly and nothing else: fit raises in the same cases, the tree has the same shape, every row gets the label it had; post-pruning included.',
  'all data sets, factors, offsets, criteria (gini, entropy, gain), recursion limits and rows',
  'A relation between two trainings for all data and all changes of units.',
  ['classicML/backend/python/tree/generators.py::DecisionTreeGenerator.tree_generate', 'classicML/backend/python/tree/criteria.py::Criterion.get_value', 'classicML/backend/python/tree/criteria.py::Gain.get_value', 'classicML/backend/python/tree/pruners.py::PostPruner.__call__', 'classicML/api/models/tree/decision_tree_classifier.py::DecisionTreeClassifier.fit', 'classicML/api/models/tree/decision_tree_classifier.py::DecisionTreeClassifier.predict'])
p('Decision trees do not depend on the names of values and classes',
  'Renaming attribute values and classes one to one renames the tree and its predictions and changes nothing else (given that ties between equally frequent classes are broken in the same way); post-pruning included.',
  'all data sets, one-to-one renamings, criteria (gini, entropy, gain), recursion limits and rows',
  'A relation between two trainings for all data and all renamings.',
  ['classicML/backend/python/tree/generators.py::DecisionTreeGenerator.tree_generate', 'classicML/backend/python/tree/criteria.py::Criterion.get_value', 'classicML/backend/python/tree/criteria.py::Gini.__call__', 'classicML/backend/python/tree/criteria.py::Entropy.__call__', 'classicML/backend/python/tree/pruners.py::PostPruner.__call__', 'classicML/api/models/tree/decision_tree_classifier.py::DecisionTreeClassifier.fit', 'classicML/api/models/tree/decision_tree_classifier.py::DecisionTreeClassifier.predict'])
p('Decision trees do not depend on the order of the samples',
  'Training on the same labelled rows in another order raises in the same cases and otherwise gives a tree that answers every row (or raises) as before and records the same number of leaves and height (given that ties between equally frequent classes are broken independently of the order).',
  'all data sets, permutations, criteria (gini, entropy, gain), recursion limits and rows',
  'A relation between two trainings for all data and permutations.',
  ['classicML/backend/python/tree/generators.py::DecisionTreeGenerator.tree_generate', 'classicML/backend/python/tree/criteria.py::Criterion.get_value', 'classicML/backend/python/tree/criteria.py::Criterion.optimal_division', 'classicML/backend/python/tree/criteria.py::Gain.optimal_division', 'classicML/api/models/tree/decision_tree_classifier.py::DecisionTreeClassifier.fit', 'classicML/api/models/tree/decision_tree_classifier.py::DecisionTreeClassifier.predict'])
p('Linear discriminant analysis does not depend on the coordinates',
  'Any invertible affine change of the features (units, origin, order or mixing of features) leaves the answers of the trained model as they were, and fit raises in the same cases.',
  'all data sets, invertible matrices, offsets and rows',
  'A relation between two trainings for all data and all changes of coordinates.',
  ['classicML/api/models/linear_model/linear_discriminant_analysis.py::LinearDiscriminantAnalysis.fit', 'classicML/api/models/linear_model/linear_discriminant_analysis.py::LinearDiscriminantAnalysis.predict', 'classicML/backend/python/ops.py::get_w', 'classicML/backend/python/ops.py::get_w_v2', 'classicML/backend/python/ops.py::get_within_class_scatter_matrix'])
p('Linear discriminant analysis treats samples and classes alike',
  'The model does not depend on the order of the labelled samples, and exchanging the classes 0 and 1 exchanges the answers (only a row exactly in the middle gets class 0 either way).',
  'all data sets, permutations, backends and rows',
  'A relation between two trainings for all data and permutations.',
  ['classicML/api/models/linear_model/linear_discriminant_analysis.py::LinearDiscriminantAnalysis.fit', 'classicML/api/models/linear_model/linear_discriminant_analysis.py::LinearDiscriminantAnalysis.predict', 'classicML/backend/python/ops.py::get_w', 'classicML/backend/python/ops.py::get_w_v2'])
p('A Gaussian mixture does not depend on the coordinates',
  'With the features in another order and measured from another origin (initial parameters expressed accordingly), training gives the same mixture expressed accordingly, the same clusters, and fails in the same cases. Every step of expectation maximisation in exact arithmetic also commutes with every invertible affine change of the features.',
  'all data sets, orders of features, offsets, invertible matrices, tolerances, numbers of epochs, initial parameters and roundings of the density',
  'A relation between two trainings of any length for all data and all changes of coordinates.',
  ['classicML/api/models/cluster/gaussian_mixture.py::GaussianMixture.fit', 'classicML/api/models/cluster/gaussian_mixture.py::GaussianMixture.predict'])
p('A Gaussian mixture does not depend on the order of the samples or the numbering of the components',
  'Training on the samples in another order gives the same mixture and every sample its cluster; renumbering the components of the initial mixture renumbers the trained components, posterior probabilities and (where no tie) the labels.',
  'all data sets, permutations, tolerances, numbers of epochs and initial parameters',
  'A relation between two trainings of any length for all data and permutations.',
  ['classicML/api/models/cluster/gaussian_mixture.py::GaussianMixture.fit', 'classicML/api/models/cluster/gaussian_mixture.py::GaussianMixture.predict'])
p('The progress bar shows the remaining and the elapsed time',
  'The bar shows the remaining time (duration of the last epoch times the number of epochs left) as seconds below a minute and as minutes with two digits of seconds below 60 from a minute on, near the end the elapsed time and the average time of an epoch so far.',
  'all numbers of epochs, epochs, clock readings, roundings; both engines',
  'Holds for all clock readings; tests cannot control the clock.',
  ['classicML/backend/python/_utils.py::ProgressBar._draw_detail', 'classicML/backend/cc/_utils/_utils.cc::ProgressBar::_draw_detail'])
p('The terminal shows the progress line of the current epoch',
  'After every epoch the last line on the terminal is exactly the line of that epoch, and training leaves one finished line.',
  'all numbers of epochs, reports (times, values, names without control characters) and states of the terminal',
  'Depends on all lines written before.',
  ['classicML/backend/python/_utils.py::ProgressBar._dynamic_display', 'classicML/backend/python/_utils.py::ProgressBar._update_info', 'classicML/backend/python/_utils.py::ProgressBar._draw_detail', 'classicML/backend/python/_utils.py::ProgressBar.__call__'])
p('The progress bar shows loss and metric to half a unit of the fourth decimal',
  'The numbers shown are the loss and the metric rounded to four decimals.',
  'all values; both engines',
  'For all numbers; boundaries of rounding.',
  ['classicML/backend/python/_utils.py::ProgressBar._draw_detail', 'classicML/backend/cc/_utils/_utils.cc::ProgressBar::_draw_detail'])
p('A CSV file with missing entries can be loaded',
  'With fillna=True (the default) from_csv loads every table of numbers and texts with missing entries, and no entry of the result is missing.',
  'all tables of whole numbers, decimal numbers and texts, with any missing entries',
  'Over all tables and positions of the missing entries.',
  ['classicML/backend/python/data/dataset.py::Dataset.from_csv', 'classicML/backend/python/data/dataset.py::Dataset._convert_dtype', 'classicML/backend/python/data/dataset.py::Dataset._preprocessing_features', 'classicML/backend/python/data/preprocessing.py::Imputer._fillna'])
p('from_csv keeps the whole numbers of the file',
  'A whole number in the file is the same number in the loaded column.',
  'all columns and integer widths',
  'For all numbers, in particular outside of the range of the working precision.',
  ['classicML/backend/python/data/dataset.py::Dataset.from_csv', 'classicML/backend/python/data/dataset.py::Dataset._convert_dtype'])
p('from_csv with normalization=True scales every column to [0, 1]',
  'Every column that is not constant is replaced by (v - min)/(max - min).',
  'all tables',
  'The type of the array depends on the values of all columns.',
  ['classicML/backend/python/data/dataset.py::Dataset.from_csv', 'classicML/backend/python/data/dataset.py::Dataset._convert_dtype', 'classicML/backend/python/data/dataset.py::Dataset._preprocessing_features'])
p("fit runs the compiled optimizer from the initializer's draw, and predict evaluates the result",
  'After compile, fit performs exactly the given number of optimizer epochs (all samples, or the one sample drawn from the generator, per epoch), from the parameters that the compiled initializer draws at that moment (documented scale, no biases), or from the loaded weights; watching the training changes nothing; predict is the model function at the trained parameters.',
  'all instances of LogisticRegression, BackPropagationNeuralNetwork and RadialBasisFunctionNetwork compiled with the optimizers made for them, all data, labels in any shape, all epochs, all states of the random generator',
  'The composition of initializer, optimizer loop and forward pass must be exact for every number of epochs, structure and random stream.',
  ['classicML/api/models/linear_model/logistic_regression.py::LogisticRegression.fit', 'classicML/api/models/linear_model/logistic_regression.py::LogisticRegression.predict', 'classicML/api/models/neural_network/back_propagation_neural_network.py::BackPropagationNeuralNetwork.fit', 'classicML/api/models/neural_network/radial_basis_function_network.py::RadialBasisFunctionNetwork.fit', 'classicML/backend/python/optimizers.py::StochasticGradientDescent.run', 'classicML/backend/python/optimizers.py::NewtonMethod.run'])
p('MinMaxScaler does not depend on the unit or on the order of the samples',
  'Scaling a·x+b with a > 0 gives the same values as scaling x (for a < 0 the mirrored values 1 - z); with axis=0 every feature may have its own unit; samples in another order get the same values.',
  'all one-dimensional arrays and tables, all factors and offsets, all orders',
  'Quantifies over all data, all affine changes of units and all permutations.',
  ['classicML/backend/python/data/preprocessing.py::MinMaxScaler.__call__'])
p('StandardScaler does not depend on the unit',
  'Standardised data do not depend on the unit and the origin in which the data were measured.',
  'all data with positive variance, all factors a ≠ 0 and offsets',
  'Quantifies over all data and all affine changes of units.',
  ['classicML/backend/python/data/preprocessing.py::StandardScaler.__call__'])
p('Encoders depend only on the order of the class labels',
  'Renaming the classes by a strictly increasing function does not change the encoded rows, and samples in another order get the same rows, whatever was encoded before.',
  'all label lists of any ordered type, all strictly increasing renamings, all permutations, all earlier uses of the encoder',
  'Ranges over all renamings, permutations and histories.',
  ['classicML/backend/python/data/preprocessing.py::OneHotEncoder.__call__', 'classicML/backend/python/data/preprocessing.py::DummyEncoder.__call__', 'classicML/backend/python/data/preprocessing.py::MaxMarginEncoder.__call__'])
p('Metrics and losses do not depend on the order of the samples',
  'Permuting predictions and labels together changes no accuracy and no loss; permuting the classes does not change the categorical cross entropy.',
  'all predictions and labels, all permutations, both engines for the accuracies',
  'Quantifies over all permutations of samples of any number.',
  ['classicML/backend/python/metrics.py::BinaryAccuracy.__call__', 'classicML/backend/python/metrics.py::CategoricalAccuracy.__call__', 'classicML/backend/python/losses.py::BinaryCrossentropy.__call__', 'classicML/backend/python/losses.py::MeanSquaredError.__call__'])
p('Naive Bayes does not depend on the order of the training samples',
  'Fitting the same samples in another order gives the same prediction for every row.',
  'all tables of discrete and continuous columns, all labels, all permutations of the samples, all rows, with and without smoothing',
  'Quantifies over all data sets of any size and all permutations.',
  ['classicML/api/models/bayes/naive_bayes_classifier.py::NaiveBayesClassifier.fit', 'classicML/api/models/bayes/naive_bayes_classifier.py::NaiveBayesClassifier.predict'])
p('Naive Bayes and one-dependent estimators do not depend on the order of the attributes',
  'Giving the columns and the cells of a row in another (common) order gives the same label, or both calls raise.',
  'all tables, labels, rows and permutations of the attributes',
  'Quantifies over all data sets and all permutations.',
  ['classicML/api/models/bayes/naive_bayes_classifier.py::NaiveBayesClassifier.fit', 'classicML/api/models/bayes/naive_bayes_classifier.py::NaiveBayesClassifier.predict', 'classicML/api/models/bayes/semi_naive_bayes_classifiers.py::SuperParentOneDependentEstimator.fit', 'classicML/api/models/bayes/semi_naive_bayes_classifiers.py::SuperParentOneDependentEstimator.predict'])
p('One-dependent estimators do not depend on the order of the training samples',
  'SuperParentOneDependentEstimator and AveragedOneDependentEstimator fitted on the same samples in another order give every row the same label or the same exception.',
  'all tables of discrete and continuous columns, labels, super-parents, rows and permutations of the samples',
  'Quantifies over all data sets of any size and all permutations.',
  ['classicML/api/models/bayes/semi_naive_bayes_classifiers.py::SuperParentOneDependentEstimator.fit', 'classicML/api/models/bayes/semi_naive_bayes_classifiers.py::AveragedOneDependentEstimator.fit', 'classicML/api/models/bayes/semi_naive_bayes_classifiers.py::AveragedOneDependentEstimator.predict'])
p('AveragedOneDependentEstimator does not depend on the order of the attributes',
  'Giving the columns and the cells of a row in another (common) order gives the same label.',
  'all tables, labels, rows and permutations of the attributes',
  'Quantifies over all data sets and all permutations.',
  ['classicML/api/models/bayes/semi_naive_bayes_classifiers.py::AveragedOneDependentEstimator.fit', 'classicML/api/models/bayes/semi_naive_bayes_classifiers.py::AveragedOneDependentEstimator.predict'])
p('A network does not depend on how samples, features, hidden units and classes are numbered',
  'Renumbering the features, the hidden units, the classes and the samples (with the drawn indices) of the training data and of the initial network renumbers the trained network and its predictions and changes nothing else; in particular the numbering of the hidden units changes no prediction.',
  'all depths and widths, data, initial weights, renumberings, learning rates, numbers of epochs and sequences of draws, for SGD and Adam',
  'Quantifies over all architectures, data, training lengths and permutations.',
  ['classicML/api/models/neural_network/back_propagation_neural_network.py::BackPropagationNeuralNetwork.fit', 'classicML/api/models/neural_network/back_propagation_neural_network.py::BackPropagationNeuralNetwork.predict', 'classicML/backend/python/optimizers.py::StochasticGradientDescent.run', 'classicML/backend/python/optimizers.py::Adam.run'])
p('Hidden units that start alike stay alike',
  'Two units of a hidden layer with equal incoming weights, bias and outgoing weights are still equal after any training: a constant initialisation never uses more than one unit per layer.',
  'all depths and widths, data, learning rates, numbers of epochs and draws, for SGD and Adam',
  'An invariant of every training run of any length.',
  ['classicML/api/models/neural_network/back_propagation_neural_network.py::BackPropagationNeuralNetwork.fit', 'classicML/backend/python/optimizers.py::StochasticGradientDescent.run', 'classicML/backend/python/optimizers.py::Adam.run'])
p('An RBF network moves with the plane and does not depend on the order of samples or hidden units',
  'Applying a rotation, reflection or translation to samples, centres and queries, reordering samples and renumbering hidden units changes no prediction of the trained network.',
  'all motions of the plane, numbers of hidden units, samples, epochs, learning rates and initial parameters',
  'Quantifies over all data, motions and training lengths.',
  ['classicML/api/models/neural_network/radial_basis_function_network.py::RadialBasisFunctionNetwork.fit', 'classicML/api/models/neural_network/radial_basis_function_network.py::RadialBasisFunctionNetwork.predict', 'classicML/backend/python/optimizers.py::RadialBasisFunctionOptimizer.run'])
p('The configured precision is the one the C++ engine computes in',
  "with CLASSICML_ENGINE=CC, every call a trainer makes into the C++ functions runs the overload of the precision configured by CLASSICML_PRECISION: double precision for '64-bit', single precision otherwise",
  'every call site of the trainers, all sizes and shapes, every Python version',
  'which overload runs is decided from the dynamic types of all arguments together, in two passes; a test that compares results with a tolerance cannot see it',
  ['classicML/backend/cc/ops/ops_wrapper.cc::cc_calculate_error', 'classicML/backend/cc/ops/ops_wrapper.cc::cc_clip_alpha', 'classicML/backend/cc/ops/ops_wrapper.cc::cc_compare_differences', 'classicML/framework/dtypes.py::set_precision', 'classicML/backend/python/optimizers.py::SequentialMinimalOptimization.optimize', 'classicML/api/models/cluster/k_means.py::KMeans.fit', 'classicML/api/models/cluster/gaussian_mixture.py::GaussianMixture.fit', 'classicML/backend/cc/numpy_patch.h::type_caster'])
p('The overload a C++ function runs is determined by the types of its arguments',
  'a C++ function of matrices runs in double precision exactly when all arguments are float64 arrays with one or two axes, in single precision for every other combination of numeric arrays and lists with one or two axes, and raises TypeError otherwise; a function of numbers runs in double precision exactly when all are np.float64 (np.uint64 for counts)',
  'every tuple of arguments of every type, shape and value, any number of matrix parameters',
  'all combinations of argument types',
  ['classicML/backend/cc/ops/ops_wrapper.cc::cc_calculate_euclidean_distance', 'classicML/backend/cc/ops/ops_wrapper.cc::cc_get_w_v2', 'classicML/backend/cc/ops/ops_wrapper.cc::cc_get_probability_density', 'classicML/backend/cc/ops/ops_wrapper.cc::cc_get_conditional_probability', 'classicML/backend/cc/losses/losses_wrapper.cc::PYBIND11_MODULE', 'classicML/backend/cc/kernels/kernels_wrapper.cc::PYBIND11_MODULE'])
p('Clipping a multiplier keeps it in the box on the C++ engine',
  'the multiplier clip_alpha returns lies between low and high',
  'all multipliers and bounds, every monotone rounding to the number type of the overload',
  'depends on the rounding of bounds that are arbitrary reals (C = 0.1)',
  ['classicML/backend/cc/ops/ops_wrapper.cc::cc_clip_alpha', 'classicML/backend/cc/ops/ops.cc::ClipAlpha', 'classicML/backend/python/optimizers.py::SequentialMinimalOptimization._update_alpha'])
p('A bootstrap sample of the C++ engine contains the labels it was given',
  'bootstrap_sampling(x, y, seed) with labels returns the sampled rows of both, in the precision of the data',
  'float data of either width, labels of any type, every documented seed',
  'all combinations of argument types',
  ['classicML/backend/cc/ops/ops_wrapper.cc::cc_bootstrap_sampling', 'classicML/backend/cc/ops/ops.h::BootstrapSampling1', 'classicML/backend/cc/ops/ops.h::BootstrapSampling2', 'classicML/api/models/ensemble/bagging.py::BaggingClassifier.fit'])
p('A Bayes classifier with discrete attributes predicts on the C++ engine',
  'the call that scores a discrete attribute is accepted by the C++ engine in both precisions',
  'all counts below 2^32, both precisions, every Python version',
  'the argument types depend on the configuration and on what training stored',
  ['classicML/api/models/bayes/naive_bayes_classifier.py::NaiveBayesClassifier._predict', 'classicML/backend/cc/ops/ops_wrapper.cc::cc_get_conditional_probability', 'classicML/api/models/bayes/semi_naive_bayes_classifiers.py::SuperParentOneDependentEstimator._calculate_posterior_probability'])
p('The C++ engine treats equal integers alike',
  'a count, seed or size selects the same overload whether it is a Python integer or a NumPy integer of the same value, on every Python version',
  'all functions and arguments, all values, Python 3.7 and later',
  'depends on the interpreter version and on the dynamic type of each integer',
  ['classicML/backend/cc/ops/ops_wrapper.cc::cc_init_centroids', 'classicML/backend/cc/ops/ops_wrapper.cc::cc_bootstrap_sampling', 'classicML/backend/cc/initializers/initializers_wrapper.cc::PYBIND11_MODULE'])
p('The overload that a C++ binding with mixed kinds of parameters runs is determined exactly by the types of the arguments',
  'For `select_second_alpha`, `compare_differences`, `init_centroids`, `calculate_centroids`, `calculate_error`, `get_prior_probability`, `convex_hull`, `get_w_v1` and the initialisers on the C++ engine: which arguments run in double precision, which in single precision and which raise TypeError is the exact classification stated (e.g. `compare_differences` is in double precision exactly when the tolerance is an np.float64 and the arrays are not both float32).',
  'every combination of argument types (NumPy scalars, arrays of any element type and shape, lists, Python numbers, None, strings, other objects) and both index rules of Python 3.7 and later',
  'the classification ranges over unboundedly many shapes and values; a test tries a few combinations',
  ['classicML/backend/cc/ops/ops_wrapper.cc', 'classicML/backend/cc/initializers/initializers_wrapper.cc', 'classicML/backend/cc/numpy_patch.h'])
p('With a seed, the C++ engine gives every RBF network of the same size the same initial parameters',
  '`RBFNormal(seed=s)(hidden_units)` on the C++ engine returns w = 0 (1 x h), b = 0 (1 x 1), the uniform numbers of the seed as centres (h x 2) and the normal numbers of the seed as beta (1 x h), whatever the process did before.',
  'every seed, number of hidden units, random engine and history of the process',
  'depends on the hidden state of a function-local static distribution, i.e. on the whole history of the process',
  ['classicML/backend/cc/initializers/initializers.cc::RBFNormal::PyCall', 'classicML/backend/cc/matrix_op.cc::GenerateRandomUniformDistributionMatrix', 'classicML/backend/cc/matrix_op.cc::GenerateRandomStandardNormalDistributionMatrix'])
p('The centres and the widths of a fresh RBF network are unrelated',
  'The initial centres and beta of a radial basis function network are drawn independently: no choice of the centres restricts the possible beta.',
  'every random engine, seed and number of hidden units',
  'independence is a statement about all outcomes of the generator; one draw shows nothing',
  ['classicML/backend/python/initializers.py::RBFNormal.__call__', 'classicML/backend/cc/initializers/initializers.cc::RBFNormal::PyCall', 'classicML/backend/cc/matrix_op.cc'])
p('A History holds exactly the values of the training steps',
  'After any sequence of calls, reads of `loss`/`metric` and manipulations of the lists so read, `history.loss` and `history.metric` are the values passed to the calls, in order, and nothing else.',
  'every program of calls, reads, appends and assignments, on both engines',
  'ranges over all programs, including ones that alias the lists',
  ['classicML/backend/python/callbacks.py::History', 'classicML/backend/cc/callbacks/callbacks.cc::History::PyCall', 'classicML/backend/cc/callbacks/callbacks_wrapper.cc'])
p('A list read from a History is a record of that moment',
  '`losses = history.loss` is not changed by training that happens afterwards.',
  'every program before and after the read, on both engines',
  'aliasing shows only in programs that keep the list and go on training',
  ['classicML/backend/python/callbacks.py::History', 'classicML/backend/cc/callbacks/callbacks_wrapper.cc'])
p('History objects of the two engines are interchangeable',
  'The same sequence of operations on a History gives the same exceptions and the same recorded values on the Python and on the C++ engine.',
  'every program of operations with numeric values',
  'ranges over all programs and both engines',
  ['classicML/backend/python/callbacks.py::History.__call__', 'classicML/backend/cc/callbacks/callbacks_wrapper.cc'])
p("Linear discriminant analysis projects on the best direction of Fisher's criterion",
  'After fit, no direction separates the projected class centres better, relative to the spread of the projected rows within the classes, than the direction w of the model; w is the only one up to its length and sign.',
  'every training set with different class centres and non-singular scatter, and every competing direction',
  'an optimality claim compares with all directions of the space, for all real data',
  ['classicML/api/models/linear_model/linear_discriminant_analysis.py::LinearDiscriminantAnalysis.fit', 'classicML/backend/python/ops.py::get_w', 'classicML/backend/python/ops.py::get_w_v2', 'classicML/backend/python/ops.py::get_within_class_scatter_matrix', 'classicML/backend/cc/ops/ops.cc::GetW_V2'])
p('A support vector machine whose training stops by itself is optimal up to its tolerance',
  'When SMO returns before its limit of passes, no feasible multipliers have a dual objective that is larger by more than tol times their distance (sum of absolute differences) from the returned ones; hence the gap is at most n*C*tol, and with tol = 0 the result is the optimum.',
  'every positive semidefinite kernel, data set, C, tolerance, sequence of permutations and competing feasible multipliers',
  'global optimality over a polytope, for all data and all random choices',
  ['classicML/backend/python/optimizers.py::SequentialMinimalOptimization.run', 'classicML/backend/python/optimizers.py::SequentialMinimalOptimization._update_parameters', 'classicML/backend/python/optimizers.py::SequentialMinimalOptimization._update_alpha'])
p('A support vector machine trained on both classes learns something',
  'If the training data contain both labels, C > 0 and tol < 1, training changes at least one multiplier, so that the classifier has support vectors and does not answer the same label to every row by default.',
  'every data set with both labels, kernel, C, tolerance, number of epochs and sequence of permutations',
  'depends on all pairwise kernel distances and on all schedules',
  ['classicML/backend/python/optimizers.py::SequentialMinimalOptimization._update_alpha', 'classicML/backend/python/optimizers.py::SequentialMinimalOptimization.run', 'classicML/api/models/support_vector_machine/support_vector_classifier.py::SupportVectorClassifier.fit'])
p('Training a support vector machine without a limit on the epochs comes to an end',
  'SVC.fit(..., epochs=-1) - train until no pair can be improved - returns.',
  'every data set, symmetric kernel, C, tolerance and sequence of permutations',
  'termination of an unbounded loop under all random choices',
  ['classicML/backend/python/optimizers.py::SequentialMinimalOptimization.run', 'classicML/backend/python/optimizers.py::SequentialMinimalOptimization._update_parameters', 'classicML/backend/python/optimizers.py::SequentialMinimalOptimization._update_error_cache', 'classicML/api/models/support_vector_machine/support_vector_classifier.py::SupportVectorClassifier.fit'])
p('The depth of a decision tree is bounded by the data',
  'On every path of a tree fitted without pruning, an attribute is tested by value at most once, and there are fewer comparisons with dividing points than training samples; so the depth is less than the number of attributes plus the number of samples, and at most the number of attributes if no dividing point is used.',
  'all frames, labels, criteria (Gini, entropy, gain), tie-breaking rules and roundings of the dividing points for which fit returns, and all paths from the root to a leaf',
  'the recursion depends on the choices of the criterion on every subset; tests build a few trees',
  ['classicML/backend/python/tree/generators.py::DecisionTreeGenerator.tree_generate', 'classicML/api/models/tree/decision_tree_classifier.py::DecisionTreeClassifier.fit'])
p('A decision tree has at most as many leaves as training samples',
  'The number of leaves of a tree fitted without pruning does not exceed the number of training samples.',
  'all frames, labels, criteria, tie-breaking rules and roundings for which fit returns',
  'must hold for every data set; small example trees satisfy it by accident',
  ['classicML/backend/python/tree/generators.py::DecisionTreeGenerator.tree_generate', 'classicML/api/models/tree/decision_tree_classifier.py::DecisionTreeClassifier.fit'])
p('Pruning never enlarges a tree',
  'A post-pruned or pre-pruned tree has at most as many leaves and is at most as deep as the fitted tree it comes from.',
  'all non-empty training frames, labels, oracles and validation sets for which fit and the pruning return',
  'the pruner rewrites nodes bottom up depending on the validation rows that reach them; tests cover a handful of trees',
  ['classicML/backend/python/tree/pruners.py::PostPruner', 'classicML/backend/python/tree/pruners.py::PrePruner'])
p("An epoch of Newton's method never increases the loss",
  "Training a logistic regression with the 'newton' optimizer, the negative log-likelihood of the training data does not increase from one epoch to the next.",
  'all data sets, labels 0/1, initial parameters and epochs',
  'holds for benign data and initial values; overshooting needs a particular region of the parameter space',
  ['classicML/backend/python/optimizers.py::NewtonMethod.run', 'classicML/backend/python/optimizers.py::NewtonMethod._update_parameters', 'classicML/backend/python/optimizers.py::NewtonMethod._get_hessian_matrix', 'classicML/api/models/linear_model/logistic_regression.py::LogisticRegression.fit'])
p("Newton's method trains on every data set",
  "Training a logistic regression with the 'newton' optimizer does not raise for any numerical training set with labels 0/1.",
  'all data sets, labels, initial parameters and numbers of epochs',
  'whether the Hessian is singular depends on the rank of the data',
  ['classicML/backend/python/optimizers.py::NewtonMethod.run', 'classicML/backend/python/optimizers.py::NewtonMethod._update_parameters', 'classicML/backend/python/optimizers.py::NewtonMethod._get_hessian_matrix', 'classicML/api/models/linear_model/logistic_regression.py::LogisticRegression.fit'])
p("Newton's method converges quadratically near the optimum",
  'If the first Newton step is short compared with the curvature of the loss, training never fails, a best parameter vector exists, and the error of every score is (squared, up to a constant) at most the previous one: after e epochs at most (4/3)(1/4)^(2^e).',
  'all data sets, labels 0/1, initial parameters in the stated region and numbers of epochs',
  'an asymptotic statement about unboundedly many epochs',
  ['classicML/backend/python/optimizers.py::NewtonMethod.run', 'classicML/backend/python/optimizers.py::NewtonMethod._update_parameters', 'classicML/backend/python/optimizers.py::NewtonMethod._get_hessian_matrix', 'classicML/api/models/linear_model/logistic_regression.py::LogisticRegression.fit'])
p("Adam's steps are bounded whatever the data",
  'Training a back-propagation network with the Adam optimizer (0 <= beta_1 <= beta_2 < 1, learning_rate >= 0, epsilon > 0), no epoch changes a weight or a bias by more than learning_rate * sqrt((1 - beta_1)/(1 - beta_2)) (ten times the learning rate for the defaults), and n epochs by more than n times that, however large the attributes, labels and gradients.',
  'all network sizes, data sets, initial parameters, sequences of drawn samples and epochs',
  'a bound over all gradient histories; tests see gradients of ordinary size only',
  ['classicML/backend/python/optimizers.py::Adam.run', 'classicML/api/models/neural_network/back_propagation_neural_network.py::BackPropagationNeuralNetwork.fit'])
p('On separable data gradient descent learns every training sample',
  'If some parameter vector separates the two classes of the training set and the learning rate is at most 4 / sum(|x_i|^2 + 1), training a logistic regression by gradient descent drives the loss to 0 and, after an explicit number of epochs given by the margin, every training row is given its own class, from any initial parameters. The parameters grow beyond every bound.',
  'all separable data sets, numbers of features, initial parameters and all sufficiently large numbers of epochs',
  'a statement about the limit of unboundedly many epochs',
  ['classicML/backend/python/optimizers.py::GradientDescent.run', 'classicML/backend/python/optimizers.py::GradientDescent.backward', 'classicML/api/models/linear_model/logistic_regression.py::LogisticRegression.fit'])
p('Gradient descent with the default learning rate approaches the best parameters',
  'Training a logistic regression by gradient descent with the default learning rate, the loss approaches the smallest possible loss as the number of epochs grows.',
  'all data sets, labels 0/1 and initial parameters',
  'needs the limit of the training, and data of unusual scale',
  ['classicML/backend/python/optimizers.py::GradientDescent.run', 'classicML/backend/python/optimizers.py::GradientDescent.backward', 'classicML/api/models/linear_model/logistic_regression.py::LogisticRegression.fit'])
p('A Gaussian mixture can be trained on every data set',
  'GaussianMixture.fit with the default initial covariances and coefficients ends with a model for every non-empty numerical data set, every number of components and epochs.',
  'all data sets, initial means, numbers of components, attributes and epochs',
  'whether a covariance becomes singular depends on the rank of the data',
  ['classicML/api/models/cluster/gaussian_mixture.py::GaussianMixture.fit', 'classicML/backend/python/ops.py::calculate_covariances', 'classicML/backend/python/ops.py::get_normal_distribution_probability_density'])
p('Only samples at the bound C are misclassified in training',
  'When SVC training stops by itself (tol < 1), every training sample whose multiplier is below C gets its own label, with a margin of at least 1 - tol; so the number of training errors is at most (sum of the multipliers) / C.',
  'all data sets, kernels, C, tolerances and sequences of permutations',
  'relates the stopping state of an unbounded iteration to the predictions on every training sample',
  ['classicML/api/models/support_vector_machine/support_vector_classifier.py::SupportVectorClassifier.fit', 'classicML/api/models/support_vector_machine/support_vector_classifier.py::SupportVectorClassifier.predict', 'classicML/backend/python/optimizers.py::SequentialMinimalOptimization.run'])
p('With the linear kernel the SVC is a linear classifier',
  'A classifier trained with the linear kernel answers by the sign of w*row + b, where w is the combination of the training rows with coefficients alpha_i*y_i, 0 <= alpha_i <= C; a row on the segment between two rows of one label gets that label.',
  'all data sets, numbers of features, C, epochs, permutations and rows',
  'an identity over all rows of the feature space',
  ['classicML/api/models/support_vector_machine/support_vector_classifier.py::SupportVectorClassifier.fit', 'classicML/api/models/support_vector_machine/support_vector_classifier.py::SupportVectorClassifier.predict', 'classicML/backend/python/kernels.py::Linear.__call__'])
p('Far from the support vectors an RBF classifier answers by its bias',
  'For every trained or loaded SVC with the RBF or Gaussian kernel and non-zero bias b there is a distance beyond which every row gets the label of the sign of b.',
  'all trained or loaded RBF classifiers and all rows',
  'a statement about an unbounded region of the feature space',
  ['classicML/api/models/support_vector_machine/support_vector_classifier.py::SupportVectorClassifier.predict', 'classicML/backend/python/kernels.py::RBF.__call__'])
p('A constant attribute does not influence the model',
  'Adding to all training samples and all later rows one more attribute with one and the same value does not change what a model answers.',
  'all data sets, values of the additional attribute, models and rows',
  'a relation between two trainings, for all data',
  ['classicML/api/models/cluster/k_means.py::KMeans.fit', 'classicML/api/models/support_vector_machine/support_vector_classifier.py::SupportVectorClassifier.fit', 'classicML/backend/python/optimizers.py::NewtonMethod.run', 'classicML/api/models/cluster/gaussian_mixture.py::GaussianMixture.fit'])
p('Pre-processing is idempotent',
  'Passing data that a scaler or an imputer has already processed through the same kind of pre-processor once more returns them unchanged.',
  'all data',
  'a relation between two calls, for all data',
  ['classicML/backend/python/data/preprocessing.py::MinMaxScaler.__call__', 'classicML/backend/python/data/preprocessing.py::StandardScaler.__call__', 'classicML/backend/python/data/preprocessing.py::Imputer.__call__', 'classicML/backend/python/data/preprocessing.py::Imputer._fillna'])
p('Bayes classifiers do not depend on the names of the values of discrete attributes',
  'Giving the values of the discrete attributes other names (different names for different values), in the training data and in the rows, changes no answer of a Bayes classifier.',
  'all data sets, rows and injective renamings, one for each attribute',
  'a relation between two trainings, for all data and renamings',
  ['classicML/api/models/bayes/naive_bayes_classifier.py::NaiveBayesClassifier.fit', 'classicML/api/models/bayes/semi_naive_bayes_classifiers.py::SuperParentOneDependentEstimator.fit', 'classicML/api/models/bayes/semi_naive_bayes_classifiers.py::AveragedOneDependentEstimator.predict'])
p('Bayes classifiers do not depend on the unit and the origin of continuous attributes',
  'Measuring a continuous attribute in another unit or from another zero point, in the training data and in the rows, changes no answer of a Bayes classifier.',
  'all data sets, rows, units and origins',
  'a relation between two trainings, for all data and units',
  ['classicML/backend/python/ops.py::get_probability_density', 'classicML/api/models/bayes/naive_bayes_classifier.py::NaiveBayesClassifier.predict', 'classicML/api/models/bayes/semi_naive_bayes_classifiers.py::SuperParentOneDependentEstimator.predict'])
p('An epoch of clustering reproduces the moments of the data',
  'After an epoch that moves the parameters, the mean and the matrix of second moments of a Gaussian mixture are those of the training data, and for k-means the centroids of the samples add up to the samples and, about every point, the scatter of the data is the scatter within clusters plus that of the centroids. A training that moves nothing returns its start.',
  'all data, densities, starting points, tolerances and numbers of epochs',
  'an identity over all real data, after every number of epochs',
  ['classicML/api/models/cluster/gaussian_mixture.py::GaussianMixture.fit', 'classicML/api/models/cluster/k_means.py::KMeans.fit', 'classicML/backend/python/ops.py::calculate_means', 'classicML/backend/python/ops.py::calculate_covariances', 'classicML/backend/python/ops.py::calculate_centroids'])
p('Random initialisation of k-means starts the training',
  "KMeans with init='random' trains on every data set with at least as many different samples as clusters, whatever the generator draws.",
  'all data sets, tolerances, numbers of clusters and draws',
  'all draws of the random generator; tests see a few of them',
  ['classicML/backend/python/ops.py::init_centroids', 'classicML/backend/python/ops.py::compare_differences', 'classicML/api/models/cluster/k_means.py::KMeans.fit'])
p('The convex hull does not depend on the order of the points',
  'Giving the points to ConvexHull in another order changes neither the vertices, nor their order, nor the exception raised, although the sort by x is not stable.',
  'all lists of points, all their permutations and all results of the unstable sort',
  'all permutations and all arrangements an unstable sort may choose',
  ['classicML/backend/python/ops.py::ConvexHull.compute_convex_hull'])
p('The convex hull moves with the coordinates',
  'Moving the points, stretching the axes by positive factors and shearing along y does the same to the hull and nothing else.',
  'all lists of points, translations, positive factors and shears',
  'a relation between two computations, for all points and coordinates',
  ['classicML/backend/python/ops.py::ConvexHull.compute_convex_hull', 'classicML/backend/python/ops.py::ConvexHull._get_slope', 'classicML/backend/python/ops.py::ConvexHull._get_cross_product'])
p('The vertices of the convex hull span the points',
  'Whenever ConvexHull returns, the smallest convex set that contains the vertices is the smallest that contains the points; a point that is not in the convex set spanned by the others is a vertex.',
  'all lists of points (with duplicates) for which the constructor returns',
  'an equality of infinite sets, for all lists of points',
  ['classicML/backend/python/ops.py::ConvexHull.compute_convex_hull'])
p('Logistic regression becomes calibrated on its training set',
  'An epoch of training leaves the parameters unchanged exactly if the predicted probabilities add up to the number of positive samples, also when weighted by any feature; with a learning rate of at most 4 / sum(|x_i|^2 + 1) gradient descent approaches that state on every training set, and the squared errors of all epochs together are at most twice the initial loss divided by the learning rate.',
  'all data sets, labels 0/1, initial parameters and numbers of epochs',
  'a limit over the epochs, for all real data',
  ['classicML/backend/python/optimizers.py::GradientDescent.run', 'classicML/backend/python/optimizers.py::NewtonMethod.run', 'classicML/api/models/linear_model/logistic_regression.py::LogisticRegression.fit'])
p('A hidden unit that is inactive on the training set never learns',
  'A unit of the first hidden layer whose input is at most 0 on every training row keeps its incoming weights, bias and outgoing weights during the whole training, with SGD and with Adam, and stays inactive; if all units of that layer are so, the trained network gives every training row the same answer. With features that are not negative this happens to every unit whose initial weights are not positive.',
  'all networks with a hidden layer, data, labels, learning rates, draws and numbers of epochs',
  'all sequences of drawn samples and all numbers of epochs',
  ['classicML/backend/python/activations.py::Relu.diff', 'classicML/backend/python/optimizers.py::StochasticGradientDescent.run', 'classicML/backend/python/optimizers.py::Adam.run', 'classicML/api/models/neural_network/back_propagation_neural_network.py::BackPropagationNeuralNetwork.fit'])
p('Logistic regression on several copies of the data',
  'Training a logistic regression on a training set given r >= 1 times over yields the same parameters as training on it once.',
  'all data, labels, initial parameters, learning rates, numbers of epochs and of copies',
  'all data sets, all numbers of copies',
  ['classicML/backend/python/optimizers.py::GradientDescent.run', 'classicML/backend/python/optimizers.py::NewtonMethod.run'])
p('Linear discriminant analysis on several copies of the data',
  'Training an LDA model on a training set given r >= 1 times over yields the same class centres and the same predictions as training on it once; the projection vector is only rescaled.',
  'all data, labels, numbers of copies',
  'all data sets, all numbers of copies, three projection functions',
  ['classicML/api/models/linear_model/linear_discriminant_analysis.py::LinearDiscriminantAnalysis.fit', 'classicML/backend/python/ops.py::get_w', 'classicML/backend/python/ops.py::get_w_v2', 'classicML/backend/python/ops.py::get_within_class_scatter_matrix'])
p('Clustering several copies of the data',
  'From the same start, k-means and the Gaussian mixture end with the same centroids (parameters) after the same number of epochs when the data are given r >= 1 times over, and every copy of a sample gets the cluster of the sample.',
  'all data, initial parameters, tolerances, numbers of epochs and of copies',
  'all data sets, all numbers of copies and epochs',
  ['classicML/api/models/cluster/k_means.py::KMeans.fit', 'classicML/api/models/cluster/gaussian_mixture.py::GaussianMixture.fit', 'classicML/backend/python/ops.py::calculate_centroids', 'classicML/backend/python/ops.py::calculate_covariances'])
p('Decision tree from several copies of the data',
  'A training set given r >= 1 times over generates exactly the tree that it generates given once, with every criterion.',
  'all training sets, criteria, column types, numbers of copies',
  'all data sets, all numbers of copies',
  ['classicML/backend/python/tree/generators.py::DecisionTreeGenerator.tree_generate', 'classicML/backend/python/tree/criteria.py::Gini.__call__', 'classicML/backend/python/tree/criteria.py::Entropy.__call__'])
p('Decision stump from several copies of the data',
  'A training set given r >= 1 times over trains the decision stump that it trains given once.',
  'all training sets with labels -1/+1, numbers of copies',
  'all data sets, all numbers of copies',
  ['classicML/backend/python/tree/generators.py::DecisionStumpGenerator.tree_generate'])
p('Naive Bayes from several copies of the data',
  'A training set given r >= 1 times over trains a naive Bayes classifier that predicts the same class for every row as the one trained on it once.',
  'all training sets, rows, with and without smoothing, numbers of copies',
  'all data sets, all rows, all numbers of copies',
  ['classicML/api/models/bayes/naive_bayes_classifier.py::NaiveBayesClassifier.fit', 'classicML/backend/python/ops.py::get_conditional_probability', 'classicML/backend/python/ops.py::get_prior_probability'])
p('Metrics and scalers on several copies of the data',
  'The accuracies of r >= 1 copies of predictions and labels are those of one copy; a scaler applied to r copies of a column stores the same statistics and returns r copies of the scaled column.',
  'all predictions, labels, columns and numbers of copies',
  'all arrays, all numbers of copies',
  ['classicML/backend/python/metrics.py::BinaryAccuracy.__call__', 'classicML/backend/python/metrics.py::CategoricalAccuracy.__call__', 'classicML/backend/python/data/preprocessing.py::StandardScaler.__call__', 'classicML/backend/python/data/preprocessing.py::MinMaxScaler.__call__'])
p('Increasing transformations of the attributes of a decision tree',
  'Replacing every attribute by an increasing function of it (logarithm, square root, change of unit) changes neither whether training fails, nor the size and height of the tree, nor the class it predicts for any training row, with the Gini index, the entropy and the information gain.',
  'all training sets, all transformations that increase on the values in the table and keep whether a column counts as numerical',
  'all data sets and all increasing functions; a table can only show a few',
  ['classicML/backend/python/tree/generators.py::DecisionTreeGenerator.tree_generate', 'classicML/backend/python/tree/criteria.py::Criterion.get_value', 'classicML/backend/python/tree/criteria.py::Criterion.optimal_division', 'classicML/backend/python/tree/criteria.py::Gain.get_value', 'classicML/backend/python/tree/criteria.py::Gain.optimal_division'])
p('Convex decision regions',
  'If a trained k-means model, a linear discriminant analysis, a linear support vector classifier or a decision stump gives two rows the same class, it gives that class to every row on the segment between them; the probability predicted by logistic regression on the segment lies between the two end values.',
  'all trained models, all pairs of rows, all points of the segment',
  'infinitely many points on infinitely many segments, including points on the borders',
  ['classicML/api/models/cluster/k_means.py::KMeans.predict', 'classicML/backend/python/ops.py::get_cluster', 'classicML/api/models/linear_model/linear_discriminant_analysis.py::LinearDiscriminantAnalysis.predict', 'classicML/api/models/linear_model/logistic_regression.py::LogisticRegression.predict', 'classicML/api/models/support_vector_machine/support_vector_classifier.py::SupportVectorClassifier.predict', 'classicML/backend/python/kernels.py::Linear.__call__', 'classicML/api/models/tree/decision_tree_classifier.py::DecisionStumpClassifier.predict'])
p('A larger ensemble begins with the smaller one',
  'Training with k + j estimators yields exactly the first k estimators (for AdaBoost with their coefficients and sample distributions) of training with k; a training that fails with k estimators fails likewise with more, and an AdaBoost training that stopped by itself before k estimators yields the same ensemble for every larger limit.',
  'all training sets, learners, seeds and numbers of estimators',
  'all data sets, base learners, k and j',
  ['classicML/api/models/ensemble/boosting.py::AdaBoostClassifier.fit', 'classicML/api/models/ensemble/bagging.py::BaggingClassifier.fit'])
p('One cluster, one component',
  'k-means with one cluster ends with the mean of the samples, a Gaussian mixture with one component with their mean, covariance matrix and weight 1, whatever the start (unless it starts within the tolerance) and whatever the number of epochs >= 1; all samples get cluster 0. The mixture fails exactly when the covariance matrix of the sample cannot be inverted.',
  'all non-empty data sets, starts with invertible covariance, tolerances, numbers of epochs',
  'all data sets and starts, any number of epochs',
  ['classicML/api/models/cluster/k_means.py::KMeans.fit', 'classicML/api/models/cluster/gaussian_mixture.py::GaussianMixture.fit', 'classicML/backend/python/ops.py::calculate_means', 'classicML/backend/python/ops.py::calculate_covariances', 'classicML/backend/python/ops.py::calculate_centroids'])
p('predict over every history of fit and load calls',
  'However fit and load_weights are called on one instance, and whichever of these calls raise, predict refuses (ValueError) exactly until the first of them completes; afterwards it never fails for want of an attribute, whatever failed later, but only for data of the wrong width (or, for k-means, without any centroid).',
  'all finite histories of completed and failed calls, all data',
  'histories of any length in any order with failures at any point',
  ['classicML/api/models/linear_model/linear_discriminant_analysis.py::LinearDiscriminantAnalysis.predict', 'classicML/api/models/linear_model/logistic_regression.py::LogisticRegression.predict', 'classicML/api/models/cluster/k_means.py::KMeans.predict', 'classicML/api/models/ensemble/bagging.py::BaggingClassifier.predict', 'classicML/api/models/ensemble/boosting.py::AdaBoostClassifier.predict'])
p('Only the last completed call matters',
  'If the last call made on an instance (fit or load_weights) completed, the instance answers every question like a new instance on which that call alone was made.',
  'all finite histories of completed and failed calls followed by a completed one, all questions',
  'histories of any length in any order',
  ['classicML/api/models/linear_model/linear_discriminant_analysis.py::LinearDiscriminantAnalysis.fit', 'classicML/api/models/linear_model/logistic_regression.py::LogisticRegression.fit', 'classicML/api/models/cluster/k_means.py::KMeans.fit', 'classicML/api/models/ensemble/bagging.py::BaggingClassifier.fit', 'classicML/api/models/ensemble/boosting.py::AdaBoostClassifier.fit'])
p('A linear support vector classifier does not depend on the coordinate system',
  'Rotating or reflecting the features, or measuring them from another origin, in the training rows and the questions alike, changes no prediction of a linear support vector classifier.',
  'all data sets, all rotations and reflections, all offsets',
  'all data sets and all changes of coordinates',
  ['classicML/api/models/support_vector_machine/support_vector_classifier.py::SupportVectorClassifier.fit', 'classicML/api/models/support_vector_machine/support_vector_classifier.py::SupportVectorClassifier.predict', 'classicML/backend/python/optimizers.py::SequentialMinimalOptimization._update_error_cache', 'classicML/backend/python/kernels.py::Linear.__call__'])
p('A polynomial kernel gives all boundaries up to its degree',
  'With the polynomial kernel of degree p a support vector classifier can represent every boundary that a polynomial of degree at most p describes, in particular the straight lines of the linear kernel and, for p at least 2, intervals on one feature.',
  'all data sets, all degrees',
  'all data sets and degrees; that a training run fails on one data set does not show that no run can succeed',
  ['classicML/backend/python/kernels.py::Polynomial.__call__', 'classicML/api/models/support_vector_machine/support_vector_classifier.py::SupportVectorClassifier.predict'])
p('A support vector classifier does not depend on the order of the training samples',
  'Re-ordering the training samples with their labels changes no prediction of a support vector classifier whose training ends by itself.',
  'all data sets, all orders',
  'all data sets and all n! orders',
  ['classicML/api/models/support_vector_machine/support_vector_classifier.py::SupportVectorClassifier.fit', 'classicML/backend/python/optimizers.py::SequentialMinimalOptimization.run', 'classicML/backend/python/optimizers.py::SequentialMinimalOptimization._update_parameters'])
p('Both optimisers of logistic regression find the same model',
  "Whatever the learning rates and the initial parameters, two runs of gradient descent on the same data that came to rest give every training row the same probability; if one of two runs that came to rest used Newton's method, the parameters themselves are equal.",
  'all data sets, learning rates, initial parameters and numbers of epochs',
  'all data sets, all starting points and both optimisers',
  ['classicML/api/models/linear_model/logistic_regression.py::LogisticRegression.fit', 'classicML/backend/python/optimizers.py::GradientDescent.run', 'classicML/backend/python/optimizers.py::NewtonMethod.run'])
p('The cross-entropies reward the true probabilities',
  'Among all predicted probabilities the binary and the categorical cross-entropy are smallest at the true probabilities of the classes and only there; for a hard label the loss is smaller exactly when the true class is given a higher probability.',
  'all numbers of samples and classes, all true probabilities, all predictions',
  'an inequality over all pairs of probability tables',
  ['classicML/backend/python/losses.py::BinaryCrossentropy.__call__', 'classicML/backend/python/losses.py::CategoricalCrossentropy.__call__'])
p('Ensembles compiled with different seeds are trained on different bootstrap samples',
  'Two bagging ensembles of the same base learner trained on the same data with different seeds draw the bootstrap samples of their members from different seeds.',
  'all data sets, base learners, generators, pairs of seeds and sizes',
  'all generators, seeds and sizes',
  ['classicML/api/models/ensemble/bagging.py::BaggingClassifier.fit', 'classicML/backend/python/ops.py::bootstrap_sampling'])
p('The votes of an ensemble',
  'The prediction of an ensemble does not depend on the order of its members; one more member changes an answer only to the label it votes for; two bagging ensembles that agree on a row agree when they are merged.',
  'all ensembles, all orders, all rows',
  'all ensembles and all orders of their members',
  ['classicML/api/models/ensemble/bagging.py::BaggingClassifier.predict', 'classicML/api/models/ensemble/boosting.py::AdaBoostClassifier.predict'])
p('The RBF kernel separates all distinct rows',
  'For positive gamma and distinct rows the matrix of RBF kernel values is positive definite; hence every labelling of distinct training rows can be represented by an RBF classifier, and the training problem of the RBF support vector classifier has at most one solution.',
  'all numbers of distinct rows, all dimensions, all positive gamma, all labels',
  'all matrices of all sizes',
  ['classicML/backend/python/kernels.py::RBF.__call__', 'classicML/api/models/support_vector_machine/support_vector_classifier.py::SupportVectorClassifier.fit'])
p('Min-max scaling in floating point stays between 0 and 1',
  'With the roundings of the machine, in single or double precision, MinMaxScaler maps numbers that are not all equal into the interval from 0 to 1, ends included; the minimum becomes exactly 0 and the maximum exactly 1, and a larger value does not become smaller. Equal values give NaN.',
  'all arrays of numbers of the format, all monotone roundings with gradual underflow, in particular IEEE round to nearest',
  'all arrays of floating point numbers: rounding errors occur only for particular values',
  ['classicML/backend/python/data/preprocessing.py::MinMaxScaler.__call__'])
p('The inverse of min-max scaling gives the numbers back',
  'Applying inverse to the result of MinMaxScaler returns the original array, in single precision as well.',
  'all arrays of numbers of the format',
  'all arrays; the loss depends on the magnitudes',
  ['classicML/backend/python/data/preprocessing.py::MinMaxScaler.__call__', 'classicML/backend/python/data/preprocessing.py::MinMaxScaler.inverse'])
p('Softmax rows are probabilities in floating point',
  'Every row of the result of Softmax consists of numbers between 0 and 1 in the order of the inputs with total 1 up to rounding, in single precision, for every matrix of finite inputs; the largest result is where the largest input is.',
  'all matrices, all orders of summation, all roundings',
  'all matrices: underflow occurs only for particular differences between rows',
  ['classicML/backend/python/activations.py::Softmax.__call__'])
p('Sample weights and posterior probabilities in floating point',
  'The sample weights of AdaBoost and the posterior probabilities of a Gaussian mixture are numbers between 0 and 1 with total 1, in single precision as well.',
  'all weights, densities and mixing coefficients, all orders of summation',
  'all values; the failures need particular magnitudes',
  ['classicML/api/models/ensemble/boosting.py::AdaBoostClassifier.fit', 'classicML/backend/python/ops.py::get_gaussian_mixture_distribution_posterior_probability', 'classicML/backend/python/ops.py::get_gaussian_mixture_distribution_probability_density'])
p('Mixing coefficients with sum 1 are accepted',
  'A list of mixing coefficients is accepted exactly if its sum is 1, whatever the order of the coefficients.',
  'all lists of coefficients of double precision',
  'all lists; whether the rounded sum is exactly 1 depends on every digit',
  ['classicML/backend/python/ops.py::init_mixture_coefficient'])
p('Different values are separated by their dividing point in floating point',
  'The dividing point stored for two neighbouring values of a numerical attribute lies above the smaller and not above the larger one, so that training on data in which equal rows have equal labels ends and reproduces all labels, in 32-bit precision as well.',
  'all training sets, all impurities, all roundings',
  'all data sets; needs values that are close relative to the precision',
  ['classicML/backend/python/tree/criteria.py::Criterion.get_value', 'classicML/backend/python/tree/generators.py::DecisionTreeGenerator.tree_generate'])
p('The sigmoid in floating point',
  'The sigmoid of a finite number is strictly between 0 and 1, increases, and is below 1/2 exactly for negative arguments, in single precision as well.',
  'all numbers, all roundings',
  'all numbers; saturation and ties depend on the precision',
  ['classicML/backend/python/activations.py::Sigmoid.__call__'])
p('Multipliers stay in the box in floating point',
  'A step of sequential minimal optimization keeps both multipliers between 0 and C and does not change the sum of the multipliers times the labels, in 32-bit precision as well.',
  'all multipliers, all values of C, all roundings',
  'all states of the optimizer; the errors need particular magnitudes',
  ['classicML/backend/python/optimizers.py::SequentialMinimalOptimization._update_alpha', 'classicML/backend/python/ops.py::clip_alpha'])
p('Accuracies compare as exact fractions',
  'The accuracy is between 0 and 1, equals 1 exactly if all answers are correct and 0 exactly if none is, and two accuracies on the same number of samples compare as the numbers of correct answers; so does the error by which decision stumps are chosen, in double precision, for up to 2^50 samples.',
  'all numbers of samples and of correct answers, all roundings with small errors',
  'all pairs of counts: rounding could make different fractions equal',
  ['classicML/backend/python/metrics.py::BinaryAccuracy.__call__', 'classicML/backend/python/metrics.py::CategoricalAccuracy.__call__', 'classicML/backend/python/tree/generators.py::DecisionStumpGenerator.evaluate'])
p('Standardizing equal values in floating point',
  'StandardScaler keeps the order of the values, and equal values (which have no spread) give the same result in floating point as in exact arithmetic: no number.',
  'all arrays of numbers of the format, all lengths, all roundings',
  'all arrays; the computed mean of equal numbers differs from them only for particular values and lengths',
  ['classicML/backend/python/data/preprocessing.py::StandardScaler.__call__'])
p('The convex hull in floating point',
  'Computed in floating point, the convex hull of a set of distinct points, with a unique leftmost one, is a closed chain of input points without right turns that has all points on or to the left of its edges; for points with small integer coordinates it is the exact hull.',
  'all finite sets of points, all formats, all results of the unstable sort',
  'all sets of points: the sign of a cross product is wrong only for nearly collinear triples',
  ['classicML/backend/python/ops.py::ConvexHull.compute_convex_hull', 'classicML/backend/python/ops.py::ConvexHull._get_cross_product', 'classicML/backend/python/ops.py::ConvexHull._get_slope'])
p('K-means labels in floating point',
  'Computed in floating point, the label of a sample is that of a nearest centroid; a sample that is a centroid gets a label of distance zero.',
  'all samples, all lists of centroids, all orders of summation, all formats',
  'all samples: near ties and underflow need particular values',
  ['classicML/backend/python/ops.py::calculate_euclidean_distance', 'classicML/backend/python/ops.py::get_cluster', 'classicML/api/models/cluster/k_means.py::KMeans.predict'])
p('K-means centroids in floating point',
  'Every coordinate of a centroid computed in floating point lies between the smallest and the largest coordinate of the samples of its cluster; the centroid of equal samples is that sample.',
  'all clusters of numbers of the format, all sizes, all orders of summation',
  'all clusters: rounding leaves the range only for particular values',
  ['classicML/backend/python/ops.py::calculate_centroids', 'classicML/api/models/cluster/k_means.py::KMeans.fit'])
p("AdaBoost's sample weights stay usable through a whole training",
  'In every round of a training of AdaBoost, with any base learners, the sample weights that the learner is given are numbers between 0 and 1 whose total is between 0.9 and 1.1, in single precision, for up to a million samples: repeated rounding and normalization never turn them into NaN.',
  'all numbers of rounds, all sequences of misclassified samples, all orders of summation, all numbers of samples up to 2^20',
  'all histories of rounds: errors accumulate over rounds and underflow depends on the sequence',
  ['classicML/api/models/ensemble/boosting.py::AdaBoostClassifier.fit'])
p('A perfect test is found in floating point',
  'With gini, entropy or gain computed in double precision on up to 2^20 samples: if some attribute has a test (a candidate dividing point or a branch per value) after which every group has a single label, the criterion chooses the first such attribute with such a test; the reported value of gini and entropy is 0 exactly in this case, and the reported gain is then the whole entropy.',
  'all data sets of up to 2^20 samples, all mixtures of continuous and discrete attributes, all orders of summation, all formats of the columns, every log2 that is increasing and exact at powers of two',
  'all data sets: rounding errors of frequencies, squares, logarithms and sums could make an impure split look pure or a pure one impure',
  ['classicML/backend/python/tree/criteria.py::Criterion.get_value', 'classicML/backend/python/tree/criteria.py::Criterion.optimal_division', 'classicML/backend/python/tree/criteria.py::Gain.optimal_division', 'classicML/backend/python/tree/criteria.py::Gini', 'classicML/backend/python/tree/criteria.py::Entropy'])
p('Data that one attribute separates give a tree with one question',
  'If one attribute has a test that separates the classes, the fitted decision tree asks a single question and predicts every training sample correctly, with every criterion and in floating point.',
  'all data sets of up to 2^20 samples with such an attribute, all criteria, all roundings of the stored dividing point',
  'all data sets; depends on the rounding of the stored dividing point',
  ['classicML/backend/python/tree/criteria.py::Criterion.get_value', 'classicML/backend/python/tree/generators.py::DecisionTreeGenerator.tree_generate'])
p('A value nearer to the mean has at least the density',
  'get_probability_density never returns, for a value nearer to the mean, a smaller density than for a value farther away (same mean and variance).',
  'all means, positive variances and pairs of values, in single and double precision',
  'all pairs of values; the failing region starts about 13 variances from the mean, where densities are subnormal',
  ['classicML/backend/python/ops.py::get_probability_density', 'classicML/backend/cc/ops/ops.cc::GetProbabilityDensity'])
p('Naive Bayes predicts the class with the nearer mean',
  'With one continuous attribute and two classes of the same size and variance, NaiveBayesClassifier predicts class 0 for the values nearer to the mean of class 0 and class 1 for the others.',
  'all training data of this kind, all values, in exact arithmetic and in single precision',
  'all values: outliers far from both means are rarely tested',
  ['classicML/backend/python/ops.py::get_probability_density', 'classicML/api/models/bayes/naive_bayes_classifier.py::NaiveBayesClassifier.fit', 'classicML/api/models/bayes/naive_bayes_classifier.py::NaiveBayesClassifier._predict'])
p("A network's training step lowers the loss of the drawn sample",
  'For every back-propagation network, every epoch of SGD, and the first epoch of Adam, with a small enough learning rate lowers the cross-entropy of the sample drawn in that epoch.',
  'all depths and widths, all parameters with no hidden unit exactly at the kink of ReLU on that sample, all samples with one-hot (or 0/1) labels, all learning rates below a bound that depends on them',
  'all networks and samples and all small learning rates; a test sees single steps',
  ['classicML/backend/python/optimizers.py::StochasticGradientDescent.run', 'classicML/backend/python/optimizers.py::Adam.run'])
p('An epoch of the RBF network does not raise the error',
  'With a small enough learning rate an epoch of RadialBasisFunctionOptimizer lowers the squared error of the network or leaves it alone; in particular a network that computes all labels stays as it is.',
  'all numbers of hidden units, parameters, samples, label columns and small learning rates',
  'all parameters and data; the wrong gradient of the widths only shows after the output weights have left zero',
  ['classicML/backend/python/optimizers.py::RadialBasisFunctionOptimizer.run', 'classicML/backend/python/optimizers.py::RadialBasisFunctionOptimizer.backward', 'classicML/backend/python/optimizers.py::RadialBasisFunctionOptimizer._update_parameters'])
p('The binary loss of a trained network is a finite number',
  'The binary cross-entropy reported for the single-precision sigmoid outputs of a network is a finite number, as it is for exact sigmoid outputs, which are never 0 or 1.',
  'all numbers of samples, all logits, labels 0 and 1 as vector or column, both engines',
  'all logits; tests use small ones, where the rounded sigmoid is strictly between 0 and 1',
  ['classicML/backend/python/losses.py::BinaryCrossentropy.__call__', 'classicML/backend/python/activations.py::Sigmoid.__call__', 'classicML/backend/cc/losses/losses.cc::BinaryCrossentropy::PyCall'])
p('Compiling or loading makes a support vector classifier as good as new',
  'Whatever compile, fit and load_weights calls were made on an SVC instance, completed or not: it refuses to predict (ValueError) exactly until the first fit or load_weights completes; after compile and a fit that completes, or after a load_weights that completes, it answers every table, with a label 1 or -1 per row, as a new instance after the same calls would.',
  'all histories of compile, fit and load_weights calls with any arguments, files with any missing attributes and exceptions, all tables',
  'all histories of one instance; tests make one call of each kind on a new instance',
  ['classicML/api/models/support_vector_machine/support_vector_classifier.py::SupportVectorClassifier.compile', 'classicML/api/models/support_vector_machine/support_vector_classifier.py::SupportVectorClassifier.fit', 'classicML/api/models/support_vector_machine/support_vector_classifier.py::SupportVectorClassifier.load_weights'])
p('fit of a support vector classifier uses the compiled parameters',
  'Every SVC.fit trains with the C, kernel, gamma and tol of the last call of compile.',
  'all histories of compile, fit and load_weights calls, all data, permutations and numbers of passes',
  'all histories; a test that trains a loaded classifier again with other parameters is needed to notice',
  ['classicML/api/models/support_vector_machine/support_vector_classifier.py::SupportVectorClassifier.compile', 'classicML/api/models/support_vector_machine/support_vector_classifier.py::SupportVectorClassifier.fit', 'classicML/api/models/support_vector_machine/support_vector_classifier.py::SupportVectorClassifier.load_weights'])
p('Attributes a decision tree does not ask about do not influence it',
  'If the tree DecisionTreeClassifier builds from a table asks no question about some columns, then fit on the table without these columns completes too, builds the same tree (with the columns renumbered), and answers every row as the tree of the whole table does.',
  'all tables with discrete and continuous columns, labels, sets of left out columns, impurity functions (gini, entropy, gain) and recursion limits',
  'all tables and all sets of columns; a test compares one table with one column left out',
  ['classicML/backend/python/tree/generators.py', 'classicML/backend/python/tree/criteria.py'])
p('A sample that is learned keeps its answer',
  'If NaiveBayesClassifier answers a row of continuous attributes with label c, then after this very row has been added to the training data with the label c and the classifier is trained again, it still answers the row with c.',
  'all training sets of continuous attributes that vary in both classes, all rows, both labels, with and without smoothing (exact arithmetic)',
  'all data sets and rows; a test adds one row to one data set',
  ['classicML/api/models/bayes/naive_bayes_classifier.py::NaiveBayesClassifier.fit', 'classicML/api/models/bayes/naive_bayes_classifier.py::NaiveBayesClassifier._predict', 'classicML/backend/python/ops.py::get_probability_density'])
p('Bootstrap samples represent the data on average',
  'Over all n^n index arrays that bootstrap_sampling can draw for n rows, each as likely as the others: the average total of any quantity of the sampled rows and labels is its total over the data (every row occurs once on average, class shares are kept on average); exactly k^n arrays give samples without any row of a given kind when k rows are not of that kind; a row that occurs once in the data is left out by the fraction (1-1/n)^n of the arrays, which is at most 1/e and tends to 1/e.',
  'all data sets of any size, all quantities of rows and labels, all kinds of rows, sums over all index arrays',
  'the statement is about all n^n draws at once; a test sees one seed',
  ['classicML/backend/python/ops.py::bootstrap_sampling', 'classicML/api/models/ensemble/bagging.py::BaggingClassifier'])
p('No classifier makes fewer training errors than an unpruned decision tree',
  'Whenever DecisionTreeClassifier.fit without pruning completes, the tree answers every row of the training set with a label that is most frequent among the training samples equal to that row; so no function from rows to labels, in particular no constant answer, is right on more training samples. With discrete attributes training completes on every table.',
  'all tables with discrete and continuous columns, also with contradictory samples, all criteria, all rules for ties, all functions from rows to labels',
  'all tables and all competing classifiers; tests check training accuracy on a sample table without contradictions',
  ['classicML/backend/python/tree/generators.py', 'classicML/api/models/tree/decision_tree_classifier.py::DecisionTreeClassifier.fit'])
p('Post-pruning finds the best pruned tree',
  'Among all trees that arise from the fitted tree by replacing inner nodes by leaves with the majority label of the training rows that reach them, none classifies more validation rows correctly than the tree that post-pruning returns.',
  'all trees, training and validation sets, all sets of nodes to be replaced',
  'all subsets of the nodes; a test compares the accuracy before and after',
  ['classicML/backend/python/tree/pruners.py::PostPruner.__call__'])
p('Linear decisions survive rounding',
  'Computed in floating point - in whatever order the matrix product adds, with or without fused multiply-add - the class that SupportVectorClassifier and LogisticRegression answer is the class of the exact decision value of the stored parameters.',
  'all parameters and samples of the format, all orders of summation, all numbers of features and support vectors',
  'all values and all orders of summation; a test uses a few samples far from the boundary',
  ['classicML/api/models/support_vector_machine/support_vector_classifier.py::SupportVectorClassifier.predict', 'classicML/backend/python/kernels.py::Linear', 'classicML/backend/python/optimizers.py::GradientDescent.forward', 'classicML/backend/python/optimizers.py::NewtonMethod.forward'])
p('Discriminant analysis survives rounding',
  'Computed in floating point, LinearDiscriminantAnalysis.predict names the class whose projected mean is nearest to the projected sample.',
  'all projections, means and samples of the format, all orders of summation',
  'all values and all orders of summation; a test uses a few samples far from the boundary',
  ['classicML/api/models/linear_model/linear_discriminant_analysis.py::LinearDiscriminantAnalysis.predict'])
p('The margins of AdaBoost grow with training',
  'The fraction of training samples on which the trained AdaBoostClassifier is right by a margin (share of coefficients for the label minus share against it) of at most theta is bounded by the product over the rounds of 2 e^((1-theta)/2) (1-e)^((1+theta)/2), e being the weighted error of the round; it falls exponentially with the number of rounds when all errors are at most 1/2 - g and theta is small against g, so with enough rounds all samples have a margin above theta.',
  'all data sets with labels -1/+1, numbers of rounds, margins theta and edges g',
  'all data sets and numbers of rounds; a test sees one training',
  ['classicML/api/models/ensemble/boosting.py::AdaBoostClassifier.fit'])
p('An ensemble is at most twice as bad as its members',
  'On every set of rows labelled -1 and +1, BaggingClassifier makes at most twice as many mistakes as its estimators on average, and AdaBoostClassifier at most twice as many as its estimators on average weighted by their coefficients; where all estimators are right the ensemble is right.',
  'all ensembles, all labelled sets of rows',
  'all ensembles and all rows; a test sees one ensemble',
  ['classicML/api/models/ensemble/bagging.py::BaggingClassifier.predict', 'classicML/api/models/ensemble/boosting.py::AdaBoostClassifier.predict'])
p('A decision tree on continuous attributes cuts the space into boxes',
  'A decision tree that asks about continuous attributes only - fitted, pruned or loaded - divides the rows into axis-parallel boxes, one per leaf and so at most one per training sample: every row is in exactly one box and gets the label of the box, and all rows between two rows of a box get the same answer.',
  'all trees without discrete tests, all rows',
  'all rows of the space; a test asks for a few',
  ['classicML/api/models/tree/decision_tree_classifier.py::DecisionTreeClassifier.predict'])
p('Only the support vectors matter',
  'Multipliers of a SupportVectorClassifier that are optimal up to the tolerance stay so, with the same decision function, when samples that are not support vectors are left out of the training set, and when samples beyond the margin are added to it; a support vector cannot be left out.',
  'all training sets, labels -1/+1, penalties, tolerances, kernels (positive semidefinite for the second part), all subsets of the samples',
  'all training sets and subsets; a test retrains on one',
  ['classicML/backend/python/optimizers.py::SequentialMinimalOptimization.run', 'classicML/api/models/support_vector_machine/support_vector_classifier.py::SupportVectorClassifier.fit'])
p('Decision trees and contradictory samples',
  'DecisionTreeClassifier.fit on attributes that are not integers grows a tree exactly if equal rows have equal labels; two equal rows with different labels anywhere in the training set make it raise, a ValueError if all rows are equal. (With attributes tested by value contradictions are harmless, C301.)',
  'all training sets, criteria, recursion limits, tie-breaking rules; the converse for recursion limits at least the number of samples and exact midpoints',
  'all training sets; a test has consistent data',
  ['classicML/backend/python/tree/generators.py::DecisionTreeGenerator.tree_generate', 'classicML/backend/python/tree/criteria.py::Criterion.optimal_division', 'classicML/api/models/tree/decision_tree_classifier.py::DecisionTreeClassifier.fit'])
p('The centroids of k-means stay in the convex hull of the data',
  'After KMeans.fit the centroids are the initial ones or each of them is the mean of at least one sample; every half-space, and every range of a coordinate, that contains the samples and the initial centroids contains the centroids.',
  'all data sets, numbers of epochs, tolerances, initial centroids',
  'all data sets and histories of epochs',
  ['classicML/api/models/cluster/k_means.py::KMeans.fit', 'classicML/backend/python/ops.py::calculate_centroids'])
p('RBF networks far from the data',
  'The output of RadialBasisFunctionNetwork.predict is bounded over all inputs, and far from all centres it is the output bias.',
  'all parameters the network can hold, all inputs',
  'all inputs, arbitrarily far from the training data; a test evaluates a few rows',
  ['classicML/api/models/neural_network/radial_basis_function_network.py::RadialBasisFunctionNetwork.predict', 'classicML/backend/python/initializers.py::RBFNormal', 'classicML/backend/python/optimizers.py::RadialBasisFunctionOptimizer'])
p('Histories of a BP network: predict refuses until trained',
  'After any history of compile, fit, load_weights (completed or failed) on a new BackPropagationNeuralNetwork, predict raises ValueError exactly if no fit and no load_weights has completed; afterwards it always is the forward pass of the current parameters.',
  'all histories of calls, network structures, data, files, random draws',
  'all histories of calls, including failed ones',
  ['classicML/api/models/neural_network/back_propagation_neural_network.py::BackPropagationNeuralNetwork.fit', 'classicML/api/models/neural_network/back_propagation_neural_network.py::BackPropagationNeuralNetwork.load_weights', 'classicML/api/models/neural_network/back_propagation_neural_network.py::BackPropagationNeuralNetwork.predict'])
p('Histories of a BP network: compile and fit, or load, start anew',
  'Calling compile and fit, or load_weights, on a used BackPropagationNeuralNetwork makes it answer as a new instance on which only those calls were made.',
  'all histories of calls, network structures, data, files, random draws',
  'all histories of calls before the last; tests use new instances',
  ['classicML/api/models/neural_network/back_propagation_neural_network.py::BackPropagationNeuralNetwork.compile', 'classicML/api/models/neural_network/back_propagation_neural_network.py::BackPropagationNeuralNetwork.fit', 'classicML/api/models/neural_network/back_propagation_neural_network.py::BackPropagationNeuralNetwork.load_weights'])
p('Histories of a naive Bayes classifier: predict refuses until trained',
  'After any history of compile, fit, load_weights (completed or failed) on a new NaiveBayesClassifier, predict raises ValueError exactly if no fit and no load_weights has completed; afterwards the class probabilities are always present and the answer is computed from them and the stored entries.',
  'all histories of calls, data, files, rows',
  'all histories of calls, including failed ones',
  ['classicML/api/models/bayes/naive_bayes_classifier.py::NaiveBayesClassifier.fit', 'classicML/api/models/bayes/naive_bayes_classifier.py::NaiveBayesClassifier.load_weights', 'classicML/api/models/bayes/naive_bayes_classifier.py::NaiveBayesClassifier.predict'])
p('Histories of a naive Bayes classifier: the last compile, fit or load decides',
  'The answers of a NaiveBayesClassifier are those of a new instance with the last compile and the last completed fit or load: compile and fit on a used instance, or load_weights, give the classifier of a new instance, and compiling a fitted classifier again gives the classifier compiled that way and fitted.',
  'all histories of calls, data, files, rows',
  'all histories of calls before the last; tests use new instances',
  ['classicML/api/models/bayes/naive_bayes_classifier.py::NaiveBayesClassifier.compile', 'classicML/api/models/bayes/naive_bayes_classifier.py::NaiveBayesClassifier.fit', 'classicML/api/models/bayes/naive_bayes_classifier.py::NaiveBayesClassifier.load_weights'])
p('Histories of a decision tree classifier: predict refuses until trained',
  'After any history of compile, fit, load_weights (completed or failed) on a new DecisionTreeClassifier, predict raises ValueError exactly if no fit and no load_weights has completed; afterwards there always is a tree, and it is asked.',
  'all histories of calls, generators, pruners, data, files',
  'all histories of calls, including failed ones',
  ['classicML/api/models/tree/decision_tree_classifier.py::DecisionTreeClassifier.fit', 'classicML/api/models/tree/decision_tree_classifier.py::DecisionTreeClassifier.load_weights', 'classicML/api/models/tree/decision_tree_classifier.py::DecisionTreeClassifier.predict'])
p('Histories of a decision tree classifier: compile and fit, or load, start anew',
  'Calling compile and fit, or load_weights, on a used DecisionTreeClassifier does what it does on a new instance: it completes in the same cases and gives the same answers.',
  'all histories of calls, generators, pruners, data, files',
  'all histories of calls before the last; tests use new instances',
  ['classicML/api/models/tree/decision_tree_classifier.py::DecisionTreeClassifier.compile', 'classicML/api/models/tree/decision_tree_classifier.py::DecisionTreeClassifier.fit', 'classicML/api/models/tree/decision_tree_classifier.py::DecisionTreeClassifier.load_weights'])
p('Histories of Gaussian mixtures and RBF networks: predict refuses until trained',
  'After any history of compile, fit, load_weights (completed or failed) on a new GaussianMixture or RadialBasisFunctionNetwork, predict raises ValueError exactly if no fit and no load_weights has completed; afterwards all parameters are present.',
  'all histories of calls, data, files, random draws',
  'all histories of calls, including failed ones',
  ['classicML/api/models/cluster/gaussian_mixture.py::GaussianMixture.fit', 'classicML/api/models/cluster/gaussian_mixture.py::GaussianMixture.predict', 'classicML/api/models/neural_network/radial_basis_function_network.py::RadialBasisFunctionNetwork.fit', 'classicML/api/models/neural_network/radial_basis_function_network.py::RadialBasisFunctionNetwork.predict'])
p('Histories of Gaussian mixtures and RBF networks: compile and fit, or load, start anew',
  'Calling compile and fit, or load_weights, on a used GaussianMixture or RadialBasisFunctionNetwork does what it does on a new instance: it completes in the same cases and gives the same answers.',
  'all histories of calls, data, files, random draws',
  'all histories of calls before the last; tests use new instances',
  ['classicML/api/models/cluster/gaussian_mixture.py::GaussianMixture.fit', 'classicML/api/models/cluster/gaussian_mixture.py::GaussianMixture.load_weights', 'classicML/api/models/neural_network/radial_basis_function_network.py::RadialBasisFunctionNetwork.fit', 'classicML/api/models/neural_network/radial_basis_function_network.py::RadialBasisFunctionNetwork.load_weights'])
p('An interrupted save is noticed',
  'If save_weights is interrupted at any point, the path afterwards holds the old model or the new one, or at least a file that load_weights refuses; never a file that loads as another model.',
  'all models, instances, contents of the file system, and all points of interruption between two writes',
  'every crash point; tests do not interrupt a save',
  ['classicML/backend/io.py::initialize_weights_file', 'classicML/api/models/neural_network/back_propagation_neural_network.py::BackPropagationNeuralNetwork.save_weights', 'classicML/api/models/neural_network/back_propagation_neural_network.py::BackPropagationNeuralNetwork.load_weights', 'classicML/api/models/neural_network/radial_basis_function_network.py::RadialBasisFunctionNetwork.load_weights'])
p('A repeated attribute of a decision tree',
  'If an attribute of the training table repeats an earlier one, DecisionTreeClassifier answers every row that repeats the attribute as if the repetition were not in the table: the repetition is not asked about, or only where it is constant.',
  'all tables with a repeated column (discrete, continuous, or mixed), impurities, choices among ties of the majority, recursion limits, and query rows',
  'all tables and trees; tests contain no repeated columns',
  ['classicML/backend/python/tree/generators.py::DecisionTreeGenerator.tree_generate', 'classicML/backend/python/tree/criteria.py::Criterion.optimal_division', 'classicML/api/models/tree/decision_tree_classifier.py::DecisionTreeClassifier.fit'])
p('A repeated attribute of stumps, two-level trees and AdaBoost',
  'If an attribute repeats an earlier one on the training rows, a DecisionStumpClassifier, a two-level tree and AdaBoost are the same, with the same coefficients and predictions for all rows, as without the repetition.',
  'all training sets with a repeated column, weights, numbers of estimators and query rows',
  'all data sets and rounds',
  ['classicML/backend/python/tree/generators.py::DecisionStumpGenerator.tree_generate', 'classicML/backend/python/tree/generators.py::TwoLevelDecisionTreeGenerator.tree_generate', 'classicML/api/models/ensemble/boosting.py::AdaBoostClassifier.fit'])
p('An attribute given twice counts the square root of two times',
  'For a support vector classifier (linear, polynomial or RBF kernel, numeric gamma) and for logistic regression by gradient descent, giving an attribute twice has exactly the effect of multiplying it by the square root of two.',
  'all data sets, attributes, penalties, tolerances, permutations, learning rates, numbers of epochs, initial parameters and query rows',
  'all data sets and numbers of epochs; the relation is between two whole trainings',
  ['classicML/backend/python/kernels.py::Linear.__call__', 'classicML/backend/python/kernels.py::RBF.__call__', 'classicML/api/models/support_vector_machine/support_vector_classifier.py::SupportVectorClassifier.fit', 'classicML/backend/python/optimizers.py::GradientDescent.run'])
p('A repeated attribute does not stop the training',
  'Every model that can be trained on a table can be trained on the table with one of its attributes given twice.',
  'all data sets and repeated attributes, all numbers of epochs and initial parameters',
  'all data sets; tests contain no repeated columns',
  ['classicML/backend/python/optimizers.py::NewtonMethod.run', 'classicML/backend/python/ops.py::get_w_v2', 'classicML/api/models/cluster/gaussian_mixture.py::GaussianMixture.fit', 'classicML/api/models/linear_model/linear_discriminant_analysis.py::LinearDiscriminantAnalysis.fit'])
p('Histories of one-dependent estimators: predict refuses until trained',
  'After any history of compile, fit, load_weights (completed or failed) on a new SuperParentOneDependentEstimator or AveragedOneDependentEstimator, predict raises ValueError for every row exactly if no fit and no load_weights has completed; otherwise it answers from what is stored. fit with a compiled super-parent among the attribute names completes.',
  'all histories of calls, tables, labels, files, rows',
  'all histories of calls, including failed ones',
  ['classicML/api/models/bayes/semi_naive_bayes_classifiers.py::SuperParentOneDependentEstimator.fit', 'classicML/api/models/bayes/semi_naive_bayes_classifiers.py::SuperParentOneDependentEstimator.load_weights', 'classicML/api/models/bayes/semi_naive_bayes_classifiers.py::SuperParentOneDependentEstimator.predict', 'classicML/api/models/bayes/semi_naive_bayes_classifiers.py::AveragedOneDependentEstimator.fit', 'classicML/api/models/bayes/semi_naive_bayes_classifiers.py::AveragedOneDependentEstimator.load_weights', 'classicML/api/models/bayes/semi_naive_bayes_classifiers.py::AveragedOneDependentEstimator.predict'])
p('Histories of one-dependent estimators: the last compile and fit, or load, decides',
  'Calling compile and fit, or load_weights, on a used one-dependent estimator gives the answers of a new instance; a fit that raises does not change the answers; compile alone does not either.',
  'all histories of calls, tables, labels, files, rows',
  'all histories of calls before the last; tests use new instances',
  ['classicML/api/models/bayes/semi_naive_bayes_classifiers.py::SuperParentOneDependentEstimator.compile', 'classicML/api/models/bayes/semi_naive_bayes_classifiers.py::SuperParentOneDependentEstimator.fit', 'classicML/api/models/bayes/semi_naive_bayes_classifiers.py::SuperParentOneDependentEstimator.load_weights', 'classicML/api/models/bayes/semi_naive_bayes_classifiers.py::AveragedOneDependentEstimator.compile', 'classicML/api/models/bayes/semi_naive_bayes_classifiers.py::AveragedOneDependentEstimator.fit', 'classicML/api/models/bayes/semi_naive_bayes_classifiers.py::AveragedOneDependentEstimator.load_weights', 'classicML/api/models/bayes/semi_naive_bayes_classifiers.py::AveragedOneDependentEstimator.predict'])
p('Evaluation in batches',
  'The accuracy (binary, categorical), the score and the cross-entropies over two batches of samples put together are the means of those of the batches, weighted with their sizes; the log-likelihoods add up.',
  'all pairs of batches of predictions and labels, of all sizes',
  'ranges over all predictions, labels and sizes of the batches',
  ['classicML/backend/python/metrics.py::BinaryAccuracy', 'classicML/backend/python/metrics.py::CategoricalAccuracy', 'classicML/backend/python/losses.py::BinaryCrossentropy', 'classicML/backend/python/losses.py::CategoricalCrossentropy', 'classicML/backend/python/losses.py::Crossentropy', 'classicML/backend/python/losses.py::LogLikelihood', 'classicML/api/models/base_model.py::BaseModel.score'])
p('Mean squared error in batches',
  'The mean squared error over two batches of samples put together is the mean of the errors of the batches, weighted with their sizes.',
  'all pairs of batches of predictions and labels, of all sizes',
  'ranges over all predictions, labels and sizes of the batches',
  ['classicML/backend/python/losses.py::MeanSquaredError'])
p('A repeated attribute of a naive Bayes classifier',
  'Giving an attribute twice does not change the answers of a NaiveBayesClassifier.',
  'all tables, labels, attributes, rows',
  'ranges over all training tables and rows',
  ['classicML/api/models/bayes/naive_bayes_classifier.py::NaiveBayesClassifier.fit', 'classicML/api/models/bayes/naive_bayes_classifier.py::NaiveBayesClassifier._predict'])
p('An incomplete weights file is reported as KeyError',
  'After any history, load_weights completes exactly if the file has all the attributes the model reads; otherwise it raises KeyError (AttributeError for an unknown kernel or pruning), having replaced exactly the attributes that are read before the first missing one, and the marks of training and loading are as before.',
  'all states of the instances, all subsets of attributes in the file, all values',
  'ranges over all states of an instance and all incomplete files',
  ['classicML/api/models/bayes/naive_bayes_classifier.py::NaiveBayesClassifier.load_weights', 'classicML/api/models/bayes/semi_naive_bayes_classifiers.py::SuperParentOneDependentEstimator.load_weights', 'classicML/api/models/bayes/semi_naive_bayes_classifiers.py::AveragedOneDependentEstimator.load_weights', 'classicML/api/models/tree/decision_tree_classifier.py::DecisionTreeClassifier.load_weights', 'classicML/api/models/cluster/gaussian_mixture.py::GaussianMixture.load_weights', 'classicML/api/models/neural_network/radial_basis_function_network.py::RadialBasisFunctionNetwork.load_weights', 'classicML/api/models/support_vector_machine/support_vector_classifier.py::SupportVectorClassifier.load_weights'])
p('Misuse is refused without side effects',
  'After any history: a table with the wrong number of columns is refused by the fit of naive Bayes and super-parent estimators with ValueError; an unknown criterion or pruning, a pruner without validation set and a fit before compile are refused by decision trees with AttributeError; networks refuse fit before compile. Nothing has changed then.',
  'all states of the instances, all arguments',
  'ranges over all states and arguments',
  ['classicML/api/models/tree/decision_tree_classifier.py::DecisionTreeClassifier.compile', 'classicML/api/models/tree/decision_tree_classifier.py::DecisionTreeClassifier.fit', 'classicML/api/models/bayes/naive_bayes_classifier.py::NaiveBayesClassifier.fit', 'classicML/api/models/neural_network/radial_basis_function_network.py::RadialBasisFunctionNetwork.fit'])
p('The convex hull of a convex hull',
  'Passing the vertices of a computed hull to ConvexHull again gives the same hull; points inside do not change the convex set.',
  'all point sets for which a hull is returned, all results of the unstable sort',
  'ranges over all point sets',
  ['classicML/backend/python/ops.py::ConvexHull'])
p('Two classes: softmax and sigmoid, and the logarithmic losses',
  'With two classes, softmax is the sigmoid of the difference of the inputs; the categorical cross-entropy of the one is the binary cross-entropy of the other and the mean of the loss of logistic regression; both decide alike.',
  'all inputs, all labels (also soft ones), all numbers of samples',
  'ranges over all real inputs',
  ['classicML/backend/python/activations.py::Softmax', 'classicML/backend/python/activations.py::Sigmoid', 'classicML/backend/python/losses.py::CategoricalCrossentropy', 'classicML/backend/python/losses.py::BinaryCrossentropy', 'classicML/backend/python/losses.py::LogLikelihood'])
p('Small disturbances do not change a clear answer',
  'A trained model gives the same answer to a disturbed sample if the disturbance is smaller than a radius that follows from the model and the sample: half the lead of the nearest centroid, the distance from the boundary of a linear model, the value of the decision function over its steepest slope for the RBF kernel, the distance from the dividing points of a tree; training samples of a decision tree may move by half the smallest gap of each attribute.',
  'all trained models, all samples, all disturbances',
  'ranges over all models, samples and disturbances',
  ['classicML/backend/python/ops.py::get_cluster', 'classicML/api/models/linear_model/logistic_regression.py::LogisticRegression', 'classicML/api/models/linear_model/linear_discriminant_analysis.py::LinearDiscriminantAnalysis', 'classicML/api/models/support_vector_machine/support_vector_classifier.py::SupportVectorClassifier', 'classicML/api/models/tree/decision_tree_classifier.py::DecisionTreeClassifier', 'classicML/backend/python/tree/generators.py::DecisionTreeGenerator'])
p('One-dependent estimator with a constant super-parent',
  'If all samples have the same value of the super-parent, the one-dependent estimator answers every row like naive Bayes fitted on the other attributes; naive Bayes itself refuses the constant attribute.',
  'all tables with a constant first column, all labels with both classes, all rows, with and without smoothing',
  'ranges over all tables and rows',
  ['classicML/api/models/bayes/semi_naive_bayes_classifiers.py::SuperParentOneDependentEstimator', 'classicML/api/models/bayes/naive_bayes_classifier.py::NaiveBayesClassifier'])
p('k-means finds well separated clusters',
  'If the samples fall into groups such that samples of one group are at most D apart and samples of different groups more than 2D apart, and the initial centroids are one sample of each group, then training stops within two epochs, the labels are the groups, every centroid is the mean of its group up to the tolerance, and a new row within D of a group and more than 2D from the others is given that group. The condition on the start is needed.',
  'all samples, all groupings, all initial centroids taken one from each group, all tolerances',
  'ranges over all separated data sets',
  ['classicML/api/models/cluster/k_means.py::KMeans', 'classicML/backend/python/ops.py::get_cluster', 'classicML/backend/python/ops.py::calculate_centroids'])
p('A naive Bayes classifier that is right on a sample and is trained on it too',
  'If a naive Bayes classifier answers a row by class c, then a classifier trained on the same data and on this row with label c answers it by c as well.',
  'all data sets, all rows of known values, with and without smoothing',
  'ranges over all data sets and rows',
  ['classicML/api/models/bayes/naive_bayes_classifier.py::NaiveBayesClassifier', 'classicML/backend/python/ops.py::get_conditional_probability', 'classicML/backend/python/ops.py::get_probability_density', 'classicML/backend/python/ops.py::get_prior_probability'])
p('The influence of Laplace smoothing fades',
  'Smoothing moves the estimate of a conditional probability towards the uniform probability by at most (number of values)/(samples of the class + number of values); a naive Bayes classifier without smoothing that answers a row without a tie is agreed with by the smoothed classifier trained on sufficiently many copies of the same data.',
  'all data sets, all rows with a clear answer, all sufficiently large numbers of copies',
  'ranges over all data sets and states a limit',
  ['classicML/api/models/bayes/naive_bayes_classifier.py::NaiveBayesClassifier', 'classicML/backend/python/ops.py::get_conditional_probability', 'classicML/backend/python/ops.py::get_prior_probability'])
p('The regions of a Gaussian mixture',
  'If all components of a Gaussian mixture have the same covariance, the rows of every component form a convex set, and with equal coefficients every row belongs to the component whose mean is nearest in the Mahalanobis distance; with different covariances the region of a component need not be convex.',
  'all numbers of components and features, all positive coefficients, all invertible covariances, all rows',
  'ranges over all parameters and rows',
  ['classicML/api/models/cluster/gaussian_mixture.py::GaussianMixture', 'classicML/backend/python/ops.py::get_gaussian_mixture_distribution_posterior_probability', 'classicML/backend/python/ops.py::get_normal_distribution_probability_density', 'classicML/backend/python/ops.py::get_cluster'])
p('Linear discriminant analysis and the Mahalanobis distance',
  'A fitted linear discriminant analysis answers every row by the class whose centre is nearer to it in the Mahalanobis distance of the pooled within-class scatter (a tie is answered by 0), so it agrees with a two-component Gaussian mixture that has the class centres as means, equal coefficients and that scatter, up to a factor, as common covariance.',
  'all data sets with both classes and an invertible scatter, all rows, all positive factors, all decompositions an SVD may return',
  'ranges over all data sets, rows and decompositions',
  ['classicML/api/models/linear_model/linear_discriminant_analysis.py::LinearDiscriminantAnalysis', 'classicML/backend/python/ops.py::get_w', 'classicML/backend/python/ops.py::get_w_v2', 'classicML/backend/python/ops.py::get_within_class_scatter_matrix', 'classicML/api/models/cluster/gaussian_mixture.py::GaussianMixture'])
p('The best constant forecast',
  'Among forecasts that give every sample the same answer, the cross-entropies are smallest exactly for the class frequencies, the mean squared error exactly for the mean label and binary accuracy is the frequency of the class that is forecast; if only one class occurs, no constant is best. Logistic regression trained by gradient descent with a small learning rate ends up at least as good as every constant forecast.',
  'all non-empty label arrays, all constants, all feature matrices, all learning rates below the stated bound, all positive tolerances',
  'ranges over all labels, constants and features',
  ['classicML/backend/python/losses.py::BinaryCrossentropy', 'classicML/backend/python/losses.py::CategoricalCrossentropy', 'classicML/backend/python/losses.py::MeanSquaredError', 'classicML/backend/python/metrics.py::BinaryAccuracy', 'classicML/api/models/linear_model/logistic_regression.py::LogisticRegression'])
p('Decision trees and the order of the attributes',
  'Fitting a decision tree on the same data with the columns in another order gives the same tree with the attributes renumbered - the same questions, answers, leaf count and height - and therefore the same prediction for every row.',
  'all data sets, discrete and continuous attributes, all impurity measures and both criteria, all permutations of the columns, all rows to predict',
  'ranges over all data sets, permutations and rows',
  ['classicML/api/models/tree/decision_tree_classifier.py::DecisionTreeClassifier', 'classicML/backend/python/tree/criteria.py::Gini', 'classicML/backend/python/tree/criteria.py::Gain', 'classicML/backend/python/tree/generators.py::DecisionTreeGenerator'])
p('Decision stumps, two-level trees, AdaBoost and the order of the attributes',
  'Fitting a decision stump, a two-level tree or AdaBoost on the same samples with the columns in another order gives the same model with the attributes renumbered, and therefore the same prediction for every row.',
  'all data sets with labels plus and minus one, all weights, all permutations of the columns, all rows to predict',
  'ranges over all data sets, permutations and rows',
  ['classicML/api/models/tree/decision_tree_classifier.py::DecisionStumpClassifier', 'classicML/api/models/tree/decision_tree_classifier.py::TwoLevelDecisionTreeClassifier', 'classicML/backend/python/tree/generators.py::DecisionStumpGenerator', 'classicML/backend/python/tree/generators.py::TwoLevelDecisionTreeGenerator', 'classicML/backend/python/tree/criteria.py::WeightedGini'])
