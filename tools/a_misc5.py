U="classicML/backend/python/_utils.py::ProgressBar"
CU="classicML/backend/cc/_utils/_utils.cc::ProgressBar"
D="classicML/backend/python/data/dataset.py::Dataset"
PROPS=[
("The progress bar shows the remaining and the elapsed time",
 "The bar shows the remaining time (duration of the last epoch times the number of epochs left) as seconds below a minute and as minutes with two digits of seconds below 60 from a minute on, near the end the elapsed time and the average time of an epoch so far.",
 "all numbers of epochs, epochs, clock readings, roundings; both engines",
 "Holds for all clock readings; tests cannot control the clock.",
 [U+"._draw_detail",CU+"::_draw_detail"]),
("The terminal shows the progress line of the current epoch",
 "After every epoch the last line on the terminal is exactly the line of that epoch, and training leaves one finished line.",
 "all numbers of epochs, reports (times, values, names without control characters) and states of the terminal",
 "Depends on all lines written before.",
 [U+"._dynamic_display",U+"._update_info",U+"._draw_detail",U+".__call__"]),
("The progress bar shows loss and metric to half a unit of the fourth decimal",
 "The numbers shown are the loss and the metric rounded to four decimals.",
 "all values; both engines",
 "For all numbers; boundaries of rounding.",
 [U+"._draw_detail",CU+"::_draw_detail"]),
("A CSV file with missing entries can be loaded",
 "With fillna=True (the default) from_csv loads every table of numbers and texts with missing entries, and no entry of the result is missing.",
 "all tables of whole numbers, decimal numbers and texts, with any missing entries",
 "Over all tables and positions of the missing entries.",
 [D+".from_csv",D+"._convert_dtype",D+"._preprocessing_features","classicML/backend/python/data/preprocessing.py::Imputer._fillna"]),
("from_csv keeps the whole numbers of the file",
 "A whole number in the file is the same number in the loaded column.",
 "all columns and integer widths",
 "For all numbers, in particular outside of the range of the working precision.",
 [D+".from_csv",D+"._convert_dtype"]),
("from_csv with normalization=True scales every column to [0, 1]",
 "Every column that is not constant is replaced by (v - min)/(max - min).",
 "all tables",
 "The type of the array depends on the values of all columns.",
 [D+".from_csv",D+"._convert_dtype",D+"._preprocessing_features"]),
]
PLAN={"C196":"Model.Progress writes the text character by character (decimal digits, rounding to nearest, both engines); a reader (Spec.Progress.value) gets the numbers back.",
"C197":"A terminal as finished lines, current line and cursor column; induction over the epochs: the visible line is as long as the longest so far.",
"C198":"Digits of the nearest multiple of 10^-4 (Python) and of 10^-6, cut (C++).",
"C199":"Model.Csv: convert_dtypes and astype column by column; exact conditions for the two exceptions, otherwise the result is complete.",
"C200":"wrap bits v = v iff v is in range.",
"C201":"If all columns hold whole numbers the array is an integer array and the scaled values are truncated."}
STATUS={"C196":("partial","Proved: minutes, seconds (up to '60s'), elapsed time. False: the last half second before a minute reads 60s (C196_sixty); ms/step divides by all epochs, not by those done (C196_per_step); the C++ bar counts whole seconds and drops leading zeros (C196_cc_whole_seconds, C196_cc_no_leading_zero)."),
"C197":("partial","Exact condition C197_line_iff (no earlier line was longer) and C197_finished. False whenever the remaining time falls below a minute (C197_violated): the end of the old line stays, e.g. the metric 0.9500 reads 0.950099."),
"C198":("partial","Proved for the Python engine (C198_python). The C++ engine cuts the digits: error up to a whole unit (C198_cc_partial), C198_violated."),
"C199":("partial","False: C199_whole_numbers (a column of whole numbers with a gap: ValueError), C199_text_gap_first (a text column with a gap before the first word: TypeError). Every other file loads and is complete (C199_loads_partial)."),
"C200":("partial","True exactly for numbers of at most 32 (64) bits (C200_whole_iff); larger ones are silently reduced modulo 2^32 (C200_violated)."),
"C201":("partial","False for every file that holds only whole numbers, also written 1.0 (C201_violated: ones at the maximum, zeros elsewhere). Proved for files with a column that is not whole (C201_mixed_partial with C104_float_partial).")}
VIOL={"C196":"The bar shows '60s' for the last half second before a minute (C196_sixty); the time per step before the last epoch is too small by e/n (C196_per_step); the C++ bar shows 0s for every epoch within one second and one whole second for an epoch of any length that crosses one (C196_cc_whole_seconds).",
"C197":"A shorter progress line leaves the end of the previous one on the terminal (C197_violated): digits of the old metric appear behind the new one.",
"C198":"The C++ bar cuts instead of rounding: 0.99996 is shown as 0.9999 (C198_violated).",
"C199":"from_csv raises ValueError for every file with a column of whole numbers in which an entry is missing (C199_whole_numbers) and TypeError for a text column whose first entry is missing (C199_text_gap_first), although fillna=True.",
"C200":"from_csv reduces whole numbers modulo 2^32 without a warning (C200_violated).",
"C201":"from_csv with normalization=True turns every file of whole numbers into zeros and ones (C201_violated)."}
