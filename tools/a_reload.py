PROPS=[
("Loading a frame leaves it alone",
 "Dataset.from_dataframe does not change the caller's frame; a second Dataset made from the same frame has the same y and the same class_indices.",
 "all frames with string or integer labels, all numbers of classes, all histories of two loads",
 "The change is made in the caller's object, and its effect on a second load depends on how all class numbers are sorted as strings.",
 ["classicML/backend/python/data/dataset.py::Dataset.from_dataframe","classicML/backend/python/data/dataset.py::Dataset._preprocessing_binary_labels","classicML/backend/python/data/dataset.py::Dataset._preprocessing_categorical_labels"]),
("An ensemble compiled without a seed gets a seed of its own",
 "BaggingClassifier.compile() without seed draws a random seed for that classifier: classifiers compiled one after the other in one process are sampled independently.",
 "all processes, all sequences of calls between the compilations, all streams of random numbers, all data",
 "The claim is about all histories of a process; a test sees two equal seeds as a coincidence.",
 ["classicML/api/models/ensemble/bagging.py::BaggingClassifier.compile","classicML/api/models/ensemble/bagging.py::BaggingClassifier.fit"]),
]
PLAN={"C168":"Model.Reload: the caller's label column after the in-place loops of the label functions; a second load on that column. Ranks of classes (Spec.Preprocess.rank) and the exact merging condition C67_iff.",
"C169":"Model.Reload: a process as a list of events with numpy's stream of numbers; induction over the events."}
STATUS={"C168":("partial","False: two classes of answer words lose their names (C168_words_second_load, exact condition C168_two_classes_iff), EVERY frame with eleven or more word classes has classes merged by the second load (C168_eleven_classes), integer classes are renumbered in place (C168_ints_iff). Proved: same y for three to ten word classes (C168_ten_classes_partial), nothing changes for test or unsupervised sets and two-class integers (C168_unchanged_partial). Feature columns with fillna=False: see C107."),
"C169":("partial","False: C169_shared_seed (the default is computed once, at import). Proved: an explicit seed is used (C169_explicit_seed_partial).")}
VIOL={"C168":"from_dataframe writes the class numbers into the caller's label column; loading the same frame again loses the class names, and with eleven or more classes merges classes (\"10\" sorts before \"2\").",
"C169":"The default seed of BaggingClassifier.compile is drawn once at import: all classifiers compiled without a seed share it and, on the same data, are identical."}
