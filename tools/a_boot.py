PROPS=[
("Bootstrap samples represent the data on average",
 "Over all n^n index arrays that bootstrap_sampling can draw for n rows, each as likely as the others: the average total of any quantity of the sampled rows and labels is its total over the data (every row occurs once on average, class shares are kept on average); exactly k^n arrays give samples without any row of a given kind when k rows are not of that kind; a row that occurs once in the data is left out by the fraction (1-1/n)^n of the arrays, which is at most 1/e and tends to 1/e.",
 "all data sets of any size, all quantities of rows and labels, all kinds of rows, sums over all index arrays",
 "the statement is about all n^n draws at once; a test sees one seed",
 ['classicML/backend/python/ops.py::bootstrap_sampling','classicML/api/models/ensemble/bagging.py::BaggingClassifier']),
]
PLAN={"C300":"bootstrapSampling of C01 evaluated in closed form for every index array; the sums over all arrays by exchanging sums and by the product formula for functions; the limit from Mathlib."}
STATUS={"C300":("proved","np.random.choice is taken to draw all index arrays with equal probability; the theorems are about the sums over all of them.")}
VIOL={}
