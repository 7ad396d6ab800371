PROPS=[
("A sample that is learned keeps its answer",
 "If NaiveBayesClassifier answers a row of continuous attributes with label c, then after this very row has been added to the training data with the label c and the classifier is trained again, it still answers the row with c.",
 "all training sets of continuous attributes that vary in both classes, all rows, both labels, with and without smoothing (exact arithmetic)",
 "all data sets and rows; a test adds one row to one data set",
 ['classicML/api/models/bayes/naive_bayes_classifier.py::NaiveBayesClassifier.fit','classicML/api/models/bayes/naive_bayes_classifier.py::NaiveBayesClassifier._predict','classicML/backend/python/ops.py::get_probability_density']),
]
PLAN={"C299":"Mean and variance after one more value in closed form; the density the code computes (variance in place of the standard deviation) at that value rises whenever the variance does not, and falls below the other class otherwise. Both for the composed fit and predict."}
STATUS={"C299":("partial","C299_near_partial: any number of attributes, rows with n (x - mean)^2 <= (n + 1) variance in each attribute. C299_turned_away: fails for ALL pairs of classes of n >= 2 samples with equal variance v and means 2 D apart, 4 (n + 1) v <= D^2 <= v^2: the value half way is answered 1, and 0 once it is learned as 1.")}
VIOL={"C299":"the variance is used where the density needs the standard deviation, so a learned value can lower the density of its own class at that value and lose its answer (theorem C299_turned_away)."}
