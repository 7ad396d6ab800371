D='classicML/backend/python/data/preprocessing.py::'
A='classicML/backend/python/activations.py::'
P='classicML/backend/python/ops.py::'
T='classicML/backend/python/tree/'
O='classicML/backend/python/optimizers.py::SequentialMinimalOptimization.'
PROPS=[
("Min-max scaling in floating point stays between 0 and 1",
 "With the roundings of the machine, in single or double precision, MinMaxScaler maps numbers that are not all equal into the interval from 0 to 1, ends included; the minimum becomes exactly 0 and the maximum exactly 1, and a larger value does not become smaller. Equal values give NaN.",
 "all arrays of numbers of the format, all monotone roundings with gradual underflow, in particular IEEE round to nearest",
 "all arrays of floating point numbers: rounding errors occur only for particular values",
 [D+'MinMaxScaler.__call__']),
("The inverse of min-max scaling gives the numbers back",
 "Applying inverse to the result of MinMaxScaler returns the original array, in single precision as well.",
 "all arrays of numbers of the format",
 "all arrays; the loss depends on the magnitudes",
 [D+'MinMaxScaler.__call__',D+'MinMaxScaler.inverse']),
("Softmax rows are probabilities in floating point",
 "Every row of the result of Softmax consists of numbers between 0 and 1 in the order of the inputs with total 1 up to rounding, in single precision, for every matrix of finite inputs; the largest result is where the largest input is.",
 "all matrices, all orders of summation, all roundings",
 "all matrices: underflow occurs only for particular differences between rows",
 [A+'Softmax.__call__']),
("Sample weights and posterior probabilities in floating point",
 "The sample weights of AdaBoost and the posterior probabilities of a Gaussian mixture are numbers between 0 and 1 with total 1, in single precision as well.",
 "all weights, densities and mixing coefficients, all orders of summation",
 "all values; the failures need particular magnitudes",
 ['classicML/api/models/ensemble/boosting.py::AdaBoostClassifier.fit',P+'get_gaussian_mixture_distribution_posterior_probability',P+'get_gaussian_mixture_distribution_probability_density']),
("Mixing coefficients with sum 1 are accepted",
 "A list of mixing coefficients is accepted exactly if its sum is 1, whatever the order of the coefficients.",
 "all lists of coefficients of double precision",
 "all lists; whether the rounded sum is exactly 1 depends on every digit",
 [P+'init_mixture_coefficient']),
("Different values are separated by their dividing point in floating point",
 "The dividing point stored for two neighbouring values of a numerical attribute lies above the smaller and not above the larger one, so that training on data in which equal rows have equal labels ends and reproduces all labels, in 32-bit precision as well.",
 "all training sets, all impurities, all roundings",
 "all data sets; needs values that are close relative to the precision",
 [T+'criteria.py::Criterion.get_value',T+'generators.py::DecisionTreeGenerator.tree_generate']),
("The sigmoid in floating point",
 "The sigmoid of a finite number is strictly between 0 and 1, increases, and is below 1/2 exactly for negative arguments, in single precision as well.",
 "all numbers, all roundings",
 "all numbers; saturation and ties depend on the precision",
 [A+'Sigmoid.__call__']),
("Multipliers stay in the box in floating point",
 "A step of sequential minimal optimization keeps both multipliers between 0 and C and does not change the sum of the multipliers times the labels, in 32-bit precision as well.",
 "all multipliers, all values of C, all roundings",
 "all states of the optimizer; the errors need particular magnitudes",
 [O+'_update_alpha',P+'clip_alpha']),
("Accuracies compare as exact fractions",
 "The accuracy is between 0 and 1, equals 1 exactly if all answers are correct and 0 exactly if none is, and two accuracies on the same number of samples compare as the numbers of correct answers; so does the error by which decision stumps are chosen, in double precision, for up to 2^50 samples.",
 "all numbers of samples and of correct answers, all roundings with small errors",
 "all pairs of counts: rounding could make different fractions equal",
 ['classicML/backend/python/metrics.py::BinaryAccuracy.__call__','classicML/backend/python/metrics.py::CategoricalAccuracy.__call__',T+'generators.py::DecisionStumpGenerator.evaluate']),
("Standardizing equal values in floating point",
 "StandardScaler keeps the order of the values, and equal values (which have no spread) give the same result in floating point as in exact arithmetic: no number.",
 "all arrays of numbers of the format, all lengths, all roundings",
 "all arrays; the computed mean of equal numbers differs from them only for particular values and lengths",
 [D+'StandardScaler.__call__']),
]
PLAN={
"C275":"Spec/Rounding.lean: what a rounding is, and IEEE round to nearest even, proved to be one. Model/Rounded.lean: the scaler with a rounding after each operation. Monotonicity of the rounding.",
"C276":"Same model; the minimum is restored because 0 times anything plus the minimum is exact; a concrete pair for the failure.",
"C277":"Sums as binary trees of additions; a sum of non-negative numbers is at least each of them; relative error by induction on the tree. Underflow of the correctly rounded exponential function decided exactly.",
"C278":"As C277, with products of double precision rounded twice. The first weights: n times a binary fraction is 1 only for powers of two.",
"C279":"Dyadic coefficients are added exactly; concrete lists for the failures.",
"C280":"Rounded midpoints of numbers of the format lie between them; generation succeeds by induction if they separate; recursion without end by induction on the limit if they do not.",
"C281":"Monotonicity of roundings; bounds of exp for the exact values.",
"C282":"Interval arithmetic with an absolute error per operation; concrete multipliers for the failures.",
"C283":"Error bound 2(u+eta) against the gap 1/n.",
"C284":"Monotonicity; the sums of one and two equal numbers are exact; a concrete array of three for the failure."}
STATUS={
"C275":("proved","For every rounding in the sense of IsRounding; IEEE round to nearest is one (f32_isRounding, f64_isRounding). No overflow."),
"C276":("partial","The minimum is restored and the order kept; the other values need not be restored."),
"C277":("partial","Proved for rows whose exponentials do not all underflow, in particular for a single row and the row with the largest entry; exactly which rows fail is proved for single precision."),
"C278":("partial","Non-negative and ordered always, at most 1 in one format, total within explicit bounds of 1; or all NaN if everything underflows."),
"C279":("partial","Proved for multiples of 2^-k."),
"C280":("partial","Proved whenever the stored dividing points separate; otherwise exactly the recursion fails."),
"C281":("partial","Range and monotonicity (not strict)."),
"C282":("partial","Within explicit multiples of the rounding error, unless the computed bounds cross."),
"C283":("proved","For every rounding with errors small against 1/n; double precision up to 2^50 samples."),
"C284":("partial","Order kept; equal values for arrays of one or two.")}
VIOL={
"C276":"in single precision -1 and 2^-30 are scaled to 0 and 1 and come back as -1 and 0 (C276_lost).",
"C277":"z -= np.max(z) subtracts the largest entry of the whole matrix, not of each row: in single precision every row that lies 104 or more below it becomes NaN (C277_lost; exactly when: C277_nan_iff), although the same row alone is fine. Inputs that differ by less than about 2^-25 get equal results (C277_tie).",
"C278":"n times the first weight is 1 only if n is a power of two (C278_first_total). After the first round of EM the mixing coefficients are of double precision, the density of the mixture of single precision; with very small densities a posterior probability of 745/512 results (C278_above_one).",
"C279":"np.sum(init) != 1 compares a rounded sum: [0.7, 0.2, 0.1] is refused, [0.1, 0.2, 0.7] accepted (C279_refused); [1, 2^-60] is accepted (C279_wrong_accepted).",
"C280":"the dividing point is rounded to single precision: for half of the pairs of neighbouring numbers of single precision, and for all double precision values that are rounded down to the smallest, fitting ends with RecursionError (C280_diverges, C280_neighbours).",
"C281":"in single precision the sigmoid is exactly 1 from 18 on (C281_saturates) and exactly 1/2 for small negative arguments (C281_half).",
"C282":"with multipliers 7*2^-19 and 100 and C=101 a step leaves -2^-19 for the first multiplier (C282_negative); for C=1000.2, which is rounded up in single precision, the second multiplier becomes negative when the first is at the rounded bound (C282_crossed).",
"C284":"three equal numbers (1.5 + 2^-22) of single precision are scaled to -8388608 each: their computed mean is the next number, and the deviation is divided by its square (C284_constant)."}
