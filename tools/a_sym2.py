G="classicML/backend/python/tree/generators.py::"
AB="classicML/api/models/ensemble/boosting.py::AdaBoostClassifier"
PROPS=[
("Stumps, two-level trees and AdaBoost do not depend on the units of the features",
 "Giving every feature its own new unit (a positive factor) and origin (an offset) changes the dividing points accordingly and nothing else: stumps, two-level trees and AdaBoost give every row the label they gave it before, with the same coefficients and weights, and raise in the same cases.",
 "all weighted data sets, factors, offsets, numbers of estimators and rows",
 "A relation between two trainings for all data and all changes of units.",
 [G+"DecisionStumpGenerator",G+"TwoLevelDecisionTreeGenerator",AB+".fit",AB+".predict"]),
("Stumps, two-level trees and AdaBoost do not depend on the order of the samples",
 "Training on the same samples in another order gives the same stump, the same two-level tree and the same boosted ensemble (each sample carrying its own weights).",
 "all weighted data sets, permutations of the samples, numbers of estimators",
 "A relation between two trainings for all data and permutations.",
 [G+"DecisionStumpGenerator",G+"TwoLevelDecisionTreeGenerator",AB+".fit"]),
("The training error of AdaBoost falls exponentially",
 "If every tree trained has weighted error at most 1/2 - g with g > 0, then after T rounds at most the fraction exp(-2 g^2 T) of the training samples is labelled wrongly; with more than ln(n)/(2 g^2) rounds (and fewer than 10^17 samples) every training sample is labelled correctly.",
 "all data sets with labels 1 and -1, numbers of estimators, edges g > 0",
 "A rate over all data and all numbers of rounds.",
 [AB+".fit",AB+".predict"]),
]
PLAN={"C186":"Candidate points are equivariant (sorting commutes with increasing maps), every error and weighted Gini value is unchanged, so the first best candidate corresponds; induction over the levels and over the rounds.",
"C187":"Candidate points, weights and Gini values are permutation invariant; induction over the levels and over the rounds with the weights permuted.",
"C188":"From the product bound C34 with 2 sqrt(e(1-e)) <= exp(-2 g^2); early stopping only happens with error below EPSILON, where the bound is below 1/n."}
STATUS={"C186":("proved",""),"C187":("proved",""),"C188":("proved","")}
VIOL={}
