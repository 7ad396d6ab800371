PROPS=[
("The binary loss of a trained network is a finite number",
 "The binary cross-entropy reported for the single-precision sigmoid outputs of a network is a finite number, as it is for exact sigmoid outputs, which are never 0 or 1.",
 "all numbers of samples, all logits, labels 0 and 1 as vector or column, both engines",
 "all logits; tests use small ones, where the rounded sigmoid is strictly between 0 and 1",
 ['classicML/backend/python/losses.py::BinaryCrossentropy.__call__','classicML/backend/python/activations.py::Sigmoid.__call__','classicML/backend/cc/losses.cc::BinaryCrossentropy::PyCall']),
]
PLAN={"C295":"Composition of the single-precision sigmoid (C281, exponential correctly rounded) with the losses over numbers extended by infinities and NaN (C143). The logarithms and sums of the loss itself are exact in the model, which can only make it finite more often."}
STATUS={"C295":("partial","C295_confident_nan: fails for every right answer with a logit of 18 or more (NaN in both engines, whatever the other samples). C295_confident_infinite: infinite for a wrong one. C295_moderate_partial: holds while all logits lie between -16 and 16.")}
VIOL={"C295":"The sigmoid of single precision is exactly 1 for logits of 18 or more, and BinaryCrossentropy then computes 0 * log(0): the loss of a training set with one such right answer is NaN in both engines (theorem C295_confident_nan)."}
