M='classicML/backend/python/metrics.py::'; L='classicML/backend/python/losses.py::'
PROPS=[
("Evaluation in batches",
 "The accuracy (binary, categorical), the score and the cross-entropies over two batches of samples put together are the means of those of the batches, weighted with their sizes; the log-likelihoods add up.",
 "all pairs of batches of predictions and labels, of all sizes",
 "ranges over all predictions, labels and sizes of the batches",
 [M+'BinaryAccuracy',M+'CategoricalAccuracy',L+'BinaryCrossentropy',L+'CategoricalCrossentropy',L+'Crossentropy',L+'LogLikelihood','classicML/api/models/base_model.py::BaseModel.score']),
("Mean squared error in batches",
 "The mean squared error over two batches of samples put together is the mean of the errors of the batches, weighted with their sizes.",
 "all pairs of batches of predictions and labels, of all sizes",
 "ranges over all predictions, labels and sizes of the batches",
 [L+'MeanSquaredError']),
("A repeated attribute of a naive Bayes classifier",
 "Giving an attribute twice does not change the answers of a NaiveBayesClassifier.",
 "all tables, labels, attributes, rows",
 "ranges over all training tables and rows",
 ['classicML/api/models/bayes/naive_bayes_classifier.py::NaiveBayesClassifier.fit','classicML/api/models/bayes/naive_bayes_classifier.py::NaiveBayesClassifier._predict']),
]
PLAN={"C327":"Counts and sums over concatenations.","C328":"The square of a sum; equivalence with one batch having total residual zero.","C329":"The factor lists of the longer table are those of the shorter one with one factor repeated; C42 turns both into products."}
STATUS={"C327":("proved","C327_binary_accuracy (both engines), C327_score, C327_categorical_accuracy, C327_binary_crossentropy, C327_categorical_crossentropy, C327_crossentropy, C327_log_likelihood."),
"C328":("partial","C328_mean_squared_error_partial: it holds exactly if one batch has total residual zero; false otherwise (C328_witness)."),
"C329":("partial","C329_counted_twice is the exact law; C329_supported_partial: answers that the attribute supports do not change; false otherwise (C329_witness).")}
VIOL={"C328":"MeanSquaredError squares the sum of the residuals, so two batches with loss 1/2 each can have loss 0 together (C328_witness).",
"C329":"the independence assumption of naive Bayes counts a repeated attribute twice and can reverse the answer (C329_witness); a limit of the method rather than a slip of the code."}
