PROPS=[
("Activation.diff applies the derivative of the activation",
 "Relu.diff(output, relu(z)) is output times the derivative of relu at z for every z other than 0; Sigmoid.diff(output, sigmoid(z), y) is the derivative of the sigmoid times the error y-output, i.e. minus the derivative of the squared error when output is the activation; Softmax.diff(y, softmax(z)) is the derivative of the cross-entropy with respect to each logit for targets that sum to 1",
 "every real logit, output and target, every number of classes",
 "derivatives are limits; finite differences on samples only approximate them",
 ["classicML/backend/python/activations.py:Relu.diff","classicML/backend/python/activations.py:Sigmoid.diff","classicML/backend/python/activations.py:Softmax.diff","classicML/backend/cc/activations/activations.cc"]),
("Naive Bayes answers exactly the rows of known values",
 "a NaiveBayesClassifier constructed with attribute names and fitted answers 0 or 1 for every row whose discrete values occur in the training columns; a row with an unknown discrete value raises KeyError (with or without smoothing), a row of another length ValueError; without attribute names fit succeeds and predict raises TypeError for every row; untrained it raises ValueError",
 "every training table, labels, smoothing, attribute names, value_counts order and every row",
 "the set of rows is infinite and the error depends on the whole training table",
 ["classicML/api/models/bayes/naive_bayes_classifier.py:NaiveBayesClassifier.fit","classicML/api/models/bayes/naive_bayes_classifier.py:NaiveBayesClassifier.predict"]),
]
PLAN={
"C130":"HasDerivAt of the model's own activation functions; softmax via log-sum-exp.",
"C131":"Object model on top of Model/Bayes: names, trained flag, row length; induction over the columns for the dictionary look-ups.",
}
STATUS={
"C130":("proved","Exact arithmetic. In the code comments the ReLU derivative is said to differ from the true one; it does not."),
"C131":("proved","Rows are given as arrays; a DataFrame row is selected by column name (not modelled). Attribute names are supposed distinct."),
}
VIOL={"C87":"softmax subtracts the maximum in the caller's array (C87_violated) and Relu.diff zeroes entries of the caller's output array (C87_relu_diff_violated); the C++ versions copy."}
