PROPS=[
("AdaBoost's sample weights stay usable through a whole training",
 "In every round of a training of AdaBoost, with any base learners, the sample weights that the learner is given are numbers between 0 and 1 whose total is between 0.9 and 1.1, in single precision, for up to a million samples: repeated rounding and normalization never turn them into NaN.",
 "all numbers of rounds, all sequences of misclassified samples, all orders of summation, all numbers of samples up to 2^20",
 "all histories of rounds: errors accumulate over rounds and underflow depends on the sequence",
 ['classicML/api/models/ensemble/boosting.py::AdaBoostClassifier.fit']),
]
PLAN={"C288":"Model/BoostRounded.lean: the loop with a rounding after each operation, the error summed in any order, alpha in double precision. Invariant of the loop: the total is near 1, so a weight is at least about 1/n and cannot underflow when multiplied by exp(-alpha), because alpha is at most log(1/EPSILON)/2."}
STATUS={"C288":("proved","")}
VIOL={}
