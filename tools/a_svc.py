PROPS=[
("SVC predicts by the sign of its decision function",
 "after SVC.fit, predict answers -1 exactly for the rows where the decision function sum_i alpha_i*y_i*K(row,x_i)+b over all the training samples is negative and +1 elsewhere, for multipliers in [0,C] with sum_i alpha_i*y_i=0, although only the support vectors are kept; an untrained classifier refuses with ValueError",
 "every training set with labels +1/-1, kernel, gamma, C>=0, tol, number of epochs, pass order and every list of rows",
 "the dropped samples could matter for some unseen row; tests look at a few rows",
 ["classicML/api/models/support_vector_machine/support_vector_classifier.py:SupportVectorClassifier.fit","classicML/api/models/support_vector_machine/support_vector_classifier.py:SupportVectorClassifier.predict"]),
("gamma='auto' and 'scale' follow the training data",
 "each SVC.fit with gamma='auto' uses 1/features and with gamma='scale' uses 1/(features*variance) of the data it is given; a number is used as it is, and gamma is ignored for a Kernel instance",
 "every sequence of fits, training sets and kernels",
 "depends on the history of the object; tests fit once",
 ["classicML/api/models/support_vector_machine/support_vector_classifier.py:SupportVectorClassifier.fit","classicML/backend/python/kernels.py"]),
("SVC trained on one class answers that class",
 "an SVC trained on samples that all have the same label answers that label",
 "every training set with one label, kernel, parameters and row",
 "quantifies over all data sets and all pass orders",
 ["classicML/api/models/support_vector_machine/support_vector_classifier.py:SupportVectorClassifier.fit","classicML/api/models/support_vector_machine/support_vector_classifier.py:SupportVectorClassifier.predict"]),
]
PLAN={
"C124":"Model/SVC: the object with compile, fit (on top of Model/SMO) and predict on lists of rows. Dropped samples have alpha = 0 (C07), feasibility is C06.",
"C125":"Gamma as auto | scale | number, kernel as name | instance; fit overwrites both, as the code does.",
"C126":"With one label L = H at the first update, so no update ever succeeds; invariant over every reachable state.",
}
STATUS={
"C124":("proved","Exact arithmetic; kernels are parameters. Compiling a trained classifier again makes predict raise TypeError until the next fit (C124_recompiled)."),
"C125":("partial","Holds for the first fit (C125_first_fit_partial). False for later ones: fit replaces gamma by its value and the kernel name by an instance, so the old kernel is used for new data (C125_refit_stale)."),
"C126":("partial","True for +1. False for -1: every prediction is +1 (C126_negative_class_lost)."),
}
VIOL={
"C125":"a second SVC.fit on other data silently uses the gamma of the first data set (C125_refit_stale).",
"C126":"an SVC trained only on the class -1 answers +1 for every row (C126_negative_class_lost).",
}
