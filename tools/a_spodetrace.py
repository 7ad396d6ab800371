F='classicML/api/models/bayes/semi_naive_bayes_classifiers.py::'
S=F+'SuperParentOneDependentEstimator.'; A=F+'AveragedOneDependentEstimator.'
PROPS=[
("Histories of one-dependent estimators: predict refuses until trained",
 "After any history of compile, fit, load_weights (completed or failed) on a new SuperParentOneDependentEstimator or AveragedOneDependentEstimator, predict raises ValueError for every row exactly if no fit and no load_weights has completed; otherwise it answers from what is stored. fit with a compiled super-parent among the attribute names completes.",
 "all histories of calls, tables, labels, files, rows",
 "all histories of calls, including failed ones",
 [S+'fit',S+'load_weights',S+'predict',A+'fit',A+'load_weights',A+'predict']),
("Histories of one-dependent estimators: the last compile and fit, or load, decides",
 "Calling compile and fit, or load_weights, on a used one-dependent estimator gives the answers of a new instance; a fit that raises does not change the answers; compile alone does not either.",
 "all histories of calls, tables, labels, files, rows",
 "all histories of calls before the last; tests use new instances",
 [S+'compile',S+'fit',S+'load_weights',A+'compile',A+'fit',A+'load_weights',A+'predict']),
]
PLAN={"C325":"Invariant over histories with the generic able_run; every stored element carries the smoothing it was fitted with.",
"C326":"Induction over histories: nothing is stored and no super-parent index is kept before the first completed call; loads replace, fits append; the averaged estimator empties its members before it checks the table."}
STATUS={"C325":("proved","C325_spode, C325_spode_fit, C325_aode. Attribute names given to the constructor and distinct."),
"C326":("partial","Proved for the first training (C326_spode_first_partial; for the averaged estimator also after loads, C326_aode_first_partial), for loads (C326_spode_load_partial, C326_aode_load_partial) and compile (C326_spode_compile); false otherwise: C326_spode_fit_adds, C326_spode_never_drops, C326_spode_witness, C326_aode_fit_adds, C326_aode_failed_fit, C326_aode_witness.")}
VIOL={"C326":"fit of a one-dependent estimator adds to what earlier fits or a loaded file left, so answers mix all data sets ever seen (C326_spode_fit_adds, C326_spode_witness, C326_aode_fit_adds); a fit of an AveragedOneDependentEstimator refused because of the number of columns leaves a trained instance answering 1 for every row (C326_aode_failed_fit, C326_aode_witness)."}
