PROPS=[
("The best constant forecast",
 "Among forecasts that give every sample the same answer, the cross-entropies are smallest exactly for the class frequencies, the mean squared error exactly for the mean label and binary accuracy is the frequency of the class that is forecast; if only one class occurs, no constant is best. Logistic regression trained by gradient descent with a small learning rate ends up at least as good as every constant forecast.",
 "all non-empty label arrays, all constants, all feature matrices, all learning rates below the stated bound, all positive tolerances",
 "ranges over all labels, constants and features",
 ['classicML/backend/python/losses.py::BinaryCrossentropy','classicML/backend/python/losses.py::CategoricalCrossentropy','classicML/backend/python/losses.py::MeanSquaredError','classicML/backend/python/metrics.py::BinaryAccuracy','classicML/api/models/linear_model/logistic_regression.py::LogisticRegression']),
]
PLAN={"C341":"The loss of a constant depends on the mean label only, so Gibbs' inequality for one sample applies; a logistic regression with zero weights and the logit as bias is that constant, and gradient descent approaches the infimum."}
STATUS={"C341":("proved","C341_binary, C341_one_class, C341_categorical, C341_mean_squared_error, C341_accuracy, C341_logistic_regression; exact arithmetic.")}
VIOL={}
