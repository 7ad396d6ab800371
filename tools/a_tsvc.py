PROPS=[
("Compiling or loading makes a support vector classifier as good as new",
 "Whatever compile, fit and load_weights calls were made on an SVC instance, completed or not: it refuses to predict (ValueError) exactly until the first fit or load_weights completes; after compile and a fit that completes, or after a load_weights that completes, it answers every table, with a label 1 or -1 per row, as a new instance after the same calls would.",
 "all histories of compile, fit and load_weights calls with any arguments, files with any missing attributes and exceptions, all tables",
 "all histories of one instance; tests make one call of each kind on a new instance",
 ['classicML/api/models/support_vector_machine/support_vector_classifier.py::SupportVectorClassifier.compile','classicML/api/models/support_vector_machine/support_vector_classifier.py::SupportVectorClassifier.fit','classicML/api/models/support_vector_machine/support_vector_classifier.py::SupportVectorClassifier.load_weights']),
("fit of a support vector classifier uses the compiled parameters",
 "Every SVC.fit trains with the C, kernel, gamma and tol of the last call of compile.",
 "all histories of compile, fit and load_weights calls, all data, permutations and numbers of passes",
 "all histories; a test that trains a loaded classifier again with other parameters is needed to notice",
 ['classicML/api/models/support_vector_machine/support_vector_classifier.py::SupportVectorClassifier.compile','classicML/api/models/support_vector_machine/support_vector_classifier.py::SupportVectorClassifier.fit','classicML/api/models/support_vector_machine/support_vector_classifier.py::SupportVectorClassifier.load_weights']),
]
PLAN={"C296":"Histories as a relation over the SVC object of C124, with loads of incomplete files and trainings that raise at every point where the code can; invariant on the marks and the kernel attribute; induction over the history.",
"C297":"Same histories: a load followed by fit is shown to equal compile with the parameters of the file followed by fit; C and tol are kept by every call of fit."}
STATUS={"C296":("proved",""),
"C297":("partial","C297_file_parameters: a fit after load_weights always trains with the parameters of the file, for every earlier compile; C297_violated: with different answers on the training samples. C297_compiled_partial: C and tol are used as long as no file is loaded, the kernel by the first fit after compile (C125_refit_stale: later fits keep gamma and kernel of the first).")}
VIOL={"C297":"load_weights overwrites the compiled C, gamma, kernel and tol, so compile, load_weights, fit trains with the parameters of the file (theorems C297_file_parameters, C297_violated)."}
