PROPS=[
("After an update the two samples sit on the margin",
 "after a successful SMO update of a pair of samples whose errors were known exactly, each of the two samples whose multiplier is strictly between 0 and C lies exactly on its margin: y f(x) = 1; in any case the two remaining errors cancel",
 "every data set with labels +1/-1, symmetric kernel, C, state of training and pair of samples",
 "a test sees the end of a few training runs; the bias after each single update for all kernels and boxes is not observable there",
 ["classicML/backend/python/optimizers.py:SequentialMinimalOptimization._update_alpha"]),
("The training schedule of the SVM",
 "training starts with a sweep over all samples in order; a sweep over all samples that changes nothing ends the training; otherwise sweeps over the samples with multipliers strictly between 0 and C follow, until one of them changes nothing, and then a sweep over all samples again; with epochs = e >= 0 there are at most e sweeps and fewer only because of the stopping rule, with epochs = -1 only the stopping rule ends the training",
 "every data set, kernel, C, tol, epochs and sequence of random permutations",
 "the alternation depends on the whole history of updates; the result alone does not show it",
 ["classicML/backend/python/optimizers.py:SequentialMinimalOptimization.run"]),
]
PLAN={
"C118":"Closed form of the error after a two-variable update; the mean bias makes the two errors cancel; if both multipliers end strictly inside the box the step was not clipped, and the errors are also equal, hence 0. Witness for the remaining case.",
"C119":"Spec: an inductive sweep relation and an inductive schedule with its log (Spec/SMO), simulated by the loop of `run` for every number of passes; then for `Returns`.",
}
STATUS={
"C118":("partial","The errors always cancel; both samples are on the margin if both multipliers end inside the box. False if only one does (C118_off_margin), because the code always averages the two candidate biases."),
"C119":("proved","For every valid problem; labels must be +1/-1 and C >= 0 (needed for the masks)."),
}
VIOL={"C118":"the bias is the mean of the two candidates even if only one multiplier is strictly inside the box, so that sample is off its margin right after its update (C118_off_margin)."}
