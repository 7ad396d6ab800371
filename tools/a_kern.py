K="classicML/backend/python/kernels.py"
PROPS=[("Sigmoid kernel Gram matrices are positive semidefinite","with its default parameters the Sigmoid kernel is a valid SVM kernel: every Gram matrix is positive semidefinite and the curvature used by SMO is non-negative.","every dimension and every finite set of points","all point sets.",[K+"::Sigmoid"]),]
STATUS={"C60":("proved","Also for the polynomial kernel with gamma >= 0; the curvature result holds for every PSD kernel."),
"C98":("partial","False for the default parameters in every dimension: C98_not_psd, C98_negative_curvature. Symmetry and boundedness proved.")}
PLAN={"C60":"Model/Kernels over the reals; PSD by squares, Schur products (poly) and the power series of exp (RBF).","C98":"Witness at the origin."}
VIOL={"C98":"Sigmoid kernel (gamma=1, beta=1, theta=-1) gives K(0,0)=tanh(-1)<0 and negative SMO curvature."}
