PROPS=[
("Logistic regression becomes calibrated on its training set",
 "An epoch of training leaves the parameters unchanged exactly if the predicted probabilities add up to the number of positive samples, also when weighted by any feature; with a learning rate of at most 4 / sum(|x_i|^2 + 1) gradient descent approaches that state on every training set, and the squared errors of all epochs together are at most twice the initial loss divided by the learning rate.",
 "all data sets, labels 0/1, initial parameters and numbers of epochs",
 "a limit over the epochs, for all real data",
 ['classicML/backend/python/optimizers.py::GradientDescent.run','classicML/backend/python/optimizers.py::NewtonMethod.run','classicML/api/models/linear_model/logistic_regression.py::LogisticRegression.fit']),
]
PLAN={"C252":"The components of the gradient are the calibration errors; telescoping of the descent inequality bounds the sum of their squares, which are therefore summable."}
STATUS={"C252":("proved","C252_gd_at_rest, C252_newton_at_rest, C252_average (any learning rate), C252_total_error, C252_calibrated.")}
VIOL={}
