PROPS=[
("Attributes a decision tree does not ask about do not influence it",
 "If the tree DecisionTreeClassifier builds from a table asks no question about some columns, then fit on the table without these columns completes too, builds the same tree (with the columns renumbered), and answers every row as the tree of the whole table does.",
 "all tables with discrete and continuous columns, labels, sets of left out columns, impurity functions (gini, entropy, gain) and recursion limits",
 "all tables and all sets of columns; a test compares one table with one column left out",
 ['classicML/backend/python/tree/generators.py','classicML/backend/python/tree/criteria.py']),
]
PLAN={"C298":"A simulation between the two runs of the generator: the first minimum (maximum) over all columns, when it is a kept column, is the first one over the kept columns; induction over the recursion limit and the branches. Trees are compared by renumbering; attrs and renumber are defined separately in Spec/TreeDrop."}
STATUS={"C298":("proved","")}
VIOL={}
