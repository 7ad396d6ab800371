P="classicML/backend/python/data/preprocessing.py"
D="classicML/backend/python/data/dataset.py::Dataset"
PROPS=[
("Scalers work on tables","MinMaxScaler and StandardScaler with the default axis accept every non-empty table and scale each row (axis=-1) or each column (axis=0) by its own statistics.","every table","all shapes and entries.",[P+"::MinMaxScaler",P+"::StandardScaler"]),
("Encoders can be reused","class_indices of an encoder that is called a second time describes the labels of that call: distinct classes have distinct codes.","every sequence of label lists","histories of calls.",[P+"::OneHotEncoder",P+"::DummyEncoder",P+"::MaxMarginEncoder"]),
("Labels agree with class_indices in every label mode","after from_dataframe the encoded label of every sample (integer, one-hot row or sign) is class_indices[original label].","every label column and label mode","all label columns.",[D+".from_dataframe",D+"._encoder_label",D+"._set_real_class_indices"]),
("from_tensor_slices supports the documented label modes","from_tensor_slices accepts label vectors in every label mode, and data without labels for unsupervised data sets; class_indices covers all classes.","every label vector and label mode","all label vectors.",[D+".from_tensor_slices"]),
("A data set can be reloaded","after loading a second frame class_indices has exactly the classes of that frame.","every sequence of loads","histories of loads.",[D+".from_dataframe",D+"._preprocessing_categorical_labels"]),
("Normalisation of a loaded table","with normalization=True every non-constant numeric column of x is its min-max scaled version.","every numeric table, integer or float","all tables.",[D+"._preprocessing_features"]),
("Standardisation and normalisation together","with both flags set the result is the normalisation of the standardised column.","every column with positive variance","all columns.",[D+"._preprocessing_features"]),
("Layout of a digitised table","with digitization=True x consists of the numeric columns in order followed by one block of 0/1 columns per discrete column, one column per distinct value; without it all columns stay in place.","every table","all tables and mixtures of column kinds.",[D+"._preprocessing_features"]),
("Loading does not modify the caller's array","from_tensor_slices(x) leaves x unchanged.","every array and setting","all arrays and settings.",[D+".from_tensor_slices",D+"._preprocessing_features"]),
]
STATUS={
"C61":("proved","Constant and empty data are characterised too (C61_constant)."),
"C62":("partial","Variance 1 is false: C62_variance (the variance becomes 1/variance, for all data). Mean 0 and inverse proved."),
"C63":("proved","For fresh and reused encoders; also DummyEncoder."),
"C64":("proved","Also that three classes are merged silently (outside the claim)."),
"C65":("partial","Present values undergo a conversion to single precision: C65_precision_lost shows that integers above 2^24 change for every such conversion. Proved in full otherwise (numeric and categorical columns)."),
"C66":("partial","False: C66_violated ('Yes'/'no'), integer labels other than 0/1 (C66_ints_iff); exact conditions proved (C66_strings_iff, C66_words_iff)."),
"C67":("partial","False for negative labels and for numeral strings (C67_violated, C67_strings_violated); exact condition C67_iff."),
"C99":("partial","False: C99_default_axis_refused (all non-square tables), C99_square_wrong_row, C99_violated. Proved for axis=0 and for a single row."),
"C100":("partial","False: C100_stale (all pairs of labels)."),
"C101":("partial","False for two integer classes other than 0/1: C101_ints_refused (KeyError). Proved for documented words and for three or more non-negative classes; C101_encode for any agreeing dictionary."),
"C102":("partial","False: C102_tensor_modes, C102_no_labels, C102_classes_forgotten."),
"C103":("partial","False: C103_stale, C103_violated."),
"C104":("partial","False for integer tables: C104_integer_table. Proved for float tables."),
"C105":("proved","Exact arithmetic."),
"C106":("proved",""),
"C107":("partial","False with fillna=False: C107_overwritten. Proved for the other settings."),
}
PLAN={k:"Model/Preprocess, Model/Dataset: lists of cells, dictionaries as association lists, rounding and parsing as parameters." for k in STATUS}
VIOL={
"C62":"StandardScaler divides by the variance instead of the standard deviation.",
"C65":"Imputer converts every numeric column to float32 and back: integers above 2^24 change although present.",
"C66":"binary labels: class_indices follows the sorted order, y the key words: 'Yes'/'no' disagree; integer labels such as 1/2 stay raw while class_indices says 0/1.",
"C67":"_preprocessing_categorical_labels relabels sequentially in place: labels -1, 0, 1 are merged into one class.",
"C99":"scalers with the default axis raise ValueError on every non-square table; on square tables entry (i,j) is scaled with row j.",
"C100":"reused OneHotEncoder keeps stale classes; two classes share a code.",
"C101":"two integer classes other than 0/1 with label_mode one-hot or max-margin raise KeyError.",
"C102":"from_tensor_slices: TypeError for one-hot/max-margin (labels are reshaped to a column), AttributeError without labels even for unsupervised data, class_indices forgets all but two classes.",
"C103":"class_indices accumulates over loads of multi-class frames.",
"C104":"normalization of an integer table truncates: all entries become 0 except the maxima, which become 1.",
"C107":"from_tensor_slices with fillna=False overwrites the caller's float32 array.",
}
