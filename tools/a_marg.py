PROPS=[
("The margins of AdaBoost grow with training",
 "The fraction of training samples on which the trained AdaBoostClassifier is right by a margin (share of coefficients for the label minus share against it) of at most theta is bounded by the product over the rounds of 2 e^((1-theta)/2) (1-e)^((1+theta)/2), e being the weighted error of the round; it falls exponentially with the number of rounds when all errors are at most 1/2 - g and theta is small against g, so with enough rounds all samples have a margin above theta.",
 "all data sets with labels -1/+1, numbers of rounds, margins theta and edges g",
 "all data sets and numbers of rounds; a test sees one training",
 ['classicML/api/models/ensemble/boosting.py::AdaBoostClassifier.fit']),
("An ensemble is at most twice as bad as its members",
 "On every set of rows labelled -1 and +1, BaggingClassifier makes at most twice as many mistakes as its estimators on average, and AdaBoostClassifier at most twice as many as its estimators on average weighted by their coefficients; where all estimators are right the ensemble is right.",
 "all ensembles, all labelled sets of rows",
 "all ensembles and all rows; a test sees one ensemble",
 ['classicML/api/models/ensemble/bagging.py::BaggingClassifier.predict','classicML/api/models/ensemble/boosting.py::AdaBoostClassifier.predict']),
]
PLAN={"C305":"From the exponential bound of C34 (Markov's inequality at exp(theta * sum of coefficients)), the formula of the coefficients, and the weighted inequality of means for the rate.",
"C306":"Double counting of the votes: a wrong row is wrong for half of the coefficients; sum over the rows by induction."}
STATUS={"C305":("proved","C305_margins: the product bound for every learner; C305_rate: exponential rate for the default learner; C305_all_margins: all margins above theta after enough rounds."),
"C306":("proved","C306_bagging, C306_bagging_perfect, C306_boosting; C306_worse_than_all shows that a factor above 1 is needed: an ensemble can be worse than each member.")}
VIOL={}
