PROPS=[
("Bayes classifiers do not depend on the names of the values of discrete attributes",
 "Giving the values of the discrete attributes other names (different names for different values), in the training data and in the rows, changes no answer of a Bayes classifier.",
 "all data sets, rows and injective renamings, one for each attribute",
 "a relation between two trainings, for all data and renamings",
 ['classicML/api/models/bayes/naive_bayes_classifier.py::NaiveBayesClassifier.fit','classicML/api/models/bayes/semi_naive_bayes_classifiers.py::SuperParentOneDependentEstimator.fit','classicML/api/models/bayes/semi_naive_bayes_classifiers.py::AveragedOneDependentEstimator.predict']),
("Bayes classifiers do not depend on the unit and the origin of continuous attributes",
 "Measuring a continuous attribute in another unit or from another zero point, in the training data and in the rows, changes no answer of a Bayes classifier.",
 "all data sets, rows, units and origins",
 "a relation between two trainings, for all data and units",
 ['classicML/backend/python/ops.py::get_probability_density','classicML/api/models/bayes/naive_bayes_classifier.py::NaiveBayesClassifier.predict','classicML/api/models/bayes/semi_naive_bayes_classifiers.py::SuperParentOneDependentEstimator.predict']),
]
PLAN={"C245":"Stored counts are renamed with the values; the factors read are equal, by induction over the attributes.","C246":"Mean shifts, variance scales by a^2: closed form of the answer in the unit a, from it the exact condition."}
STATUS={"C245":("partial","Proved for naive Bayes and the one-dependent estimator, for every attribute its own renaming, and for the averaged estimator when all attributes use the same renaming. False for the averaged estimator otherwise (C245_witness): the values of one attribute are compared with those of another."),
"C246":("partial","The origin is proved irrelevant for all three classifiers (for the averaged one if discrete values are not numbers). The unit matters for naive Bayes: closed form of the answer in every unit (C246_answer, exact arithmetic) and the exact condition under which it changes with the unit (C246_violated_iff).")}
VIOL={"C245":"AveragedOneDependentEstimator: renaming the values of one attribute so that they coincide with values of another attribute changes the predicted class.",
"C246":"NaiveBayesClassifier uses the variance as standard deviation, so the predicted class depends on the unit of a continuous attribute (exactly when the closer class is not the one with the larger weight)."}
