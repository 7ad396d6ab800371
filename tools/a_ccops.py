OC="classicML/backend/cc/ops/ops.cc"; MO="classicML/backend/cc/matrix_op.cc"; PO="classicML/backend/python/ops.py"
LD="classicML/api/models/linear_model/linear_discriminant_analysis.py"
PROPS=[
("Linear discriminant analysis with the C++ engine finds Fisher's direction",
 "with the C++ engine fit stores the class means and a projection vector w with S_w w = mu_0 - mu_1 (up to scale), and predicts the same labels as the textbook method",
 "all data sets, numbers of features, and all valid singular value decompositions",
 "all scatter matrices and all decompositions the linear algebra library may return",
 [OC+"::GetW_V2",OC+"::GetWithinClassScatterMatrix",MO+"::BroadcastSub",LD+"::LinearDiscriminantAnalysis.fit"]),
("type_of_target of both engines gives the same answer",
 "cc_type_of_target_v2 answers what type_of_target answers, for every array of numbers or strings",
 "all arrays of every dtype kind, shape and content, all roundings to single precision",
 "all values and strings; depends on float32 rounding, on the bytes of strings and on an unassigned variable",
 [OC+"::TypeOfTarget_V2",MO+"::AnyDiscreteInteger",MO+"::Unique",PO+"::type_of_target"]),
("The convex hull of the C++ engine encloses the points",
 "the C++ ConvexHull returns a closed chain of input points without right turns that encloses all points, the same as the Python ConvexHull",
 "all point sets and all results of the two unstable sorts",
 "all point sets; the order of equal keys is not determined",
 [OC+"::ConvexHull::ComputeConvexHull",OC+"::ConvexHull::GetSlope",PO+"::ConvexHull"]),
("The probability estimates and differences of both engines agree",
 "the C++ functions for conditional and joint prior probabilities, densities and differences of tensors return the values of the Python functions",
 "all counts, samples, means, variances, tensors and thresholds",
 "all counts, including those near the range of the integer type",
 [OC+"::GetConditionalProbability",OC+"::GetDependentPriorProbability",OC+"::GetProbabilityDensity",OC+"::CompareDifferences2",PO+"::get_conditional_probability"]),
]
PLAN={
"C147":"GetW_V2 over an arbitrary valid SVD (orthogonal factors, sorted singular values): length of the vector computed through orthogonality, two-feature diagonal case solved completely; data set on which every SVD misclassifies.",
"C148":"Arrays as dtype kind, shape and values (rationals with a rounding parameter, strings as code points); comparison with the Python model of C05.",
"C149":"The scan of C02/C03 with arbitrary results of the two sorts; uniqueness of the sorted order for different slopes.",
"C150":"Counts modulo 2^bits; entrywise characterisation of the loop over the tensor.",
}
STATUS={
"C147":("partial","Scatter, means and the one-feature predictions agree. The vector solves the equation in no dimension when the scatter stretches (or shrinks) every vector; for two uncorrelated features it is the scatter times the difference, off the textbook line; a separable data set is misclassified."),
"C148":("partial","Agreement when rounding to float32 changes nothing and first characters determine the strings. False for words with the same first letter, numbers that round to integers, out-of-range floats, bool and unsigned arrays."),
"C149":("partial","Closed left-turning chain always; agreement with Python and enclosure for pairwise different slopes below the largest float. False for collinear points under an unstable sort and for slopes beyond the largest float."),
"C150":("partial","Agreement below the range of the integer type; the density and the differences agree always. Counts that wrap around give estimates above 1."),
}
VIOL={
"C147":"ops.cc `GetW_V2` multiplies by the singular values instead of dividing, and uses Vᵀ for V: `w` weighs the feature that varies most the most. `C147_violated`, `C147_wrong_line`, `C147_misclassified`. An empty class is undefined behaviour (`C147_empty_class`).",
"C148":"C++ `type_of_target` compares only the first byte of strings, rounds numbers to float32, converts out-of-range floats to int32, and leaves its counter unassigned for bool and unsigned arrays. `C148_first_character`, `C148_continuous_lost`, `C148_out_of_range`, `C148_other_kinds`.",
"C149":"C++ ConvexHull sorts by slope with an unstable sort, so collinear points may produce a polygon that leaves out an input point; the largest float stands for infinity, so steeper points are sorted behind vertical ones. `C149_unstable`, `C149_overflow`.",
"C150":"C++ `GetConditionalProbability` adds counts in uint32; `C150_wraps`.",
}
