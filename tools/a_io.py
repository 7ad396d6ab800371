IO="classicML/backend/io.py"
M="classicML/api/models/"
T="classicML/backend/training.py"
SV=M+"support_vector_machine/support_vector_classifier.py::SupportVectorClassifier"
PROPS=[
("Default names select their class","the name of every default optimizer, loss, metric, kernel, criterion and pruner, passed to the corresponding getter, yields an equal default object.","every backend class, every gamma","a table over all classes that save/load depends on.",[T]),
("Saved models can be loaded","if save_weights succeeds, load_weights of that file into an instance of the same class succeeds and every data attribute and network parameter has the saved value.","every class, every model state, every file system and every loading instance","all model states, attribute values and instances.",[M+"cluster/k_means.py::KMeans.load_weights",SV+".load_weights",SV+".save_weights",IO]),
("Backend objects survive saving","after save and load the kernel and the metric are those of the saved model.","every kernel (degree, gamma, beta, theta) and metric","all kernels.",[SV+".save_weights",SV+".load_weights",T+"::get_kernel",T+"::get_metric"]),
("A failed load leaves the model as it was","if load_weights raises, the model is unchanged.","every class, file and model state","all files.",[SV+".load_weights",M+"cluster/k_means.py::KMeans.load_weights"]),
("A failed save keeps the old file","if save_weights raises, the file that was at that path is unchanged.","every class, model state and file system","all model states and files.",[IO+"::initialize_weights_file",SV+".save_weights"]),
("Every trained model can be saved","save_weights succeeds for every trained model.","every trained model, any number of samples","unbounded model sizes.",[M+"cluster/k_means.py::KMeans.save_weights",M+"cluster/gaussian_mixture.py::GaussianMixture.save_weights",SV+".save_weights"]),
("Loading replaces the model","the state after load_weights depends on the file only, not on what the loading instance held before.","every file and every instance","all pairs of instance and file.",[M+"neural_network/back_propagation_neural_network.py::BackPropagationNeuralNetwork.load_weights",M+"cluster/gaussian_mixture.py::GaussianMixture.load_weights",M+"tree/decision_tree_classifier.py::DecisionTreeClassifier.load_weights"]),
("fit trains on the data it is given","the model after fit is the one trained on the data of the call, also if weights had been loaded before.","every model state and every data set","histories of load and fit calls.",[M+"tree/decision_tree_classifier.py::DecisionTreeClassifier.fit",M+"linear_model/logistic_regression.py::LogisticRegression.fit"]),
]
STATUS={
"C68":("proved","packaging's parser for the free-text cml_version is a parameter; the regular expression, its leftmost-longest match and the version order are proved against independent specifications."),
"C69":("partial","False for get_loss and get_metric: C69_violated, C69_loss_accepts_anything, C69_metric_none. Proved for the other five getters."),
"C70":("partial","False for the decision stump and two-level tree (C70_stump_unguarded: AttributeError). Proved for the 13 guarded classes over all histories of calls."),
"C108":("proved","Also the exact behaviour of initializers (glorot_normal yields XavierNormal)."),
"C109":("proved","For all 13 classes; library assumptions: pickle is faithful, packaging reads the version string as at least 0.5; documented backend names, and the loading tree classifier has no pruner unless the saved one had."),
"C110":("partial","False: C110_degree_lost (every degree other than 3), C110_gamma_replaced, C110_metric_lost. Proved for default kernels (C110_default_kernel_partial) and optimizers (C110_optimizer)."),
"C111":("partial","False: C111_half_loaded, C111_svc_mixed. Proved for header failures, flags and attributes outside the program."),
"C112":("partial","False: C112_old_content_lost, C112_violated. Other paths are untouched."),
"C113":("partial","False: C113_too_many_samples, C113_too_many_support_vectors for any attribute size limit (HDF5: 64 KB)."),
"C114":("partial","False: C114_stale_layers, C114_number_of_components, C114_tree_pruning. Exact result proved (C114_fresh_instance_partial)."),
"C115":("partial","False for a tree classifier with loaded weights: C115_loaded_tree_not_trained. Proved otherwise."),
}
PLAN={"C68":"Model/IO: header check; regular expression on character lists against a leftmost-longest specification, version order against componentwise order.",
"C69":"Model/Getters: if-chains against tables of documented names.","C108":"Model/Getters.",
"C70":"Model/Lifecycle: histories of calls over Model/Persist; induction.",
"C115":"Model/Lifecycle."}
for k in ["C109","C110","C111","C112","C113","C114"]:
    PLAN[k]="Model/Persist: every save/load method as a straight-line program over attribute dictionaries, files as attribute groups, exceptions stop the program; pickle and HDF5 size limits are parameters."
VIOL={
"C69":"get_metric returns None for unknown names instead of raising; get_loss silently falls back to Crossentropy.",
"C70":"DecisionStumpClassifier and TwoLevelDecisionTreeClassifier have no guard: AttributeError instead of ValueError.",
"C110":"degree of a polynomial kernel, beta/theta of a sigmoid kernel and an own gamma of a kernel instance are not saved; predictions change after reload.",
"C111":"attributes are assigned one by one: a file with a missing attribute leaves a half-overwritten model.",
"C112":"the file is opened with mode 'w' before the model is validated: a failed save destroys the previous file.",
"C113":"arrays are stored as HDF5 attributes (64 KB limit): models with many samples or support vectors cannot be saved.",
"C114":"networks keep surplus layers of the loading instance; n_components / n_clusters are not saved; a tree compiled with pruning cannot load a file without.",
"C115":"DecisionTreeClassifier.fit after load_weights ignores the data.",
}
