PROPS=[
("A value nearer to the mean has at least the density",
 "get_probability_density never returns, for a value nearer to the mean, a smaller density than for a value farther away (same mean and variance).",
 "all means, positive variances and pairs of values, in single and double precision",
 "all pairs of values; the failing region starts about 13 variances from the mean, where densities are subnormal",
 ['classicML/backend/python/ops.py::get_probability_density','classicML/backend/cc/ops/ops.cc::GetProbabilityDensity']),
("Naive Bayes predicts the class with the nearer mean",
 "With one continuous attribute and two classes of the same size and variance, NaiveBayesClassifier predicts class 0 for the values nearer to the mean of class 0 and class 1 for the others.",
 "all training data of this kind, all values, in exact arithmetic and in single precision",
 "all values: outliers far from both means are rarely tested",
 ['classicML/backend/python/ops.py::get_probability_density','classicML/api/models/bayes/naive_bayes_classifier.py::NaiveBayesClassifier.fit','classicML/api/models/bayes/naive_bayes_classifier.py::NaiveBayesClassifier._predict']),
]
PLAN={"C291":"Model/Bayes.lean density with a rounding of Spec/Rounding.lean: the exact formula decreases with the distance and roundings are monotone, so only the replacement of 0 by 1e-36 can break the order; the distance at which the formula is 2^-140 gives the counterexample for every mean and variance.",
"C292":"nbFit and nbPredict of Model/Bayes.lean: priors are 1/2, so the densities decide; exact arithmetic: iff; any rounding: one direction when nothing underflows; single precision: an interval of values where class 0 has a subnormal density and class 1 the constant 1e-36."}
STATUS={"C291":("partial","C291_partial: holds for every rounding unless the farther value gets the constant 1e-36 and the nearer one a smaller number. C291_far_beats_near (single) and C291_far_beats_near_double: fails for every mean and every variance up to 2^100."),
"C292":("partial","C292_exact_partial: holds without rounding. C292_rounded_partial: in every rounding class 0 is only predicted for values nearer to its mean if no density is replaced. C292_nearer_loses: in single precision, for all such data with means at least 8 variances apart, an interval of values on the far side of the mean of class 0 is classified as 1.")}
VIOL={"C291":"get_probability_density replaces a density that underflows to 0 by 1e-36, which is larger than the densities 2^-149 .. 1e-36 that do not underflow: a value far from the mean gets a higher density than a nearer one (theorems C291_far_beats_near, C291_far_beats_near_double).",
"C292":"Because of the replacement by 1e-36, naive Bayes assigns outliers to the class whose mean is farther away: with samples -1, 1 of class 0 and 9, 11 of class 1 the values from about -13 to -14 are classified as 1 (theorem C292_nearer_loses)."}
