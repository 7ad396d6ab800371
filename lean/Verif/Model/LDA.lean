import Verif.Prelude
import Mathlib.Algebra.Order.Field.Basic
import Mathlib.Algebra.BigOperators.Group.Finset.Basic
import Mathlib.Algebra.Order.Group.Unbundled.Abs
import Mathlib.Data.Fintype.BigOperators
import Mathlib.LinearAlgebra.Matrix.NonsingularInverse

/-!
# Model of `LinearDiscriminantAnalysis` (classicML/api/models/linear_model/linear_discriminant_analysis.py)

`d` features.  Arithmetic is exact.  A row vector of shape `(1, d)` is a function `Fin d → K`.
The mean of an empty class is `NaN`: `none`.  The singular value decomposition of LAPACK / Eigen is a parameter; what is
assumed about its result is in `Verif/Spec/LDA.lean`.
-/

namespace CML.LDA
open Finset Matrix

variable {K : Type*} [Field K] [LinearOrder K] {d : Nat}

/-- The three results `U, Sigma, V_t` of `np.linalg.svd` (ops.py:594); of Eigen the fields `matrixU()`, `singularValues()`
and the transpose of `matrixV()` (ops.cc:394-397). -/
structure SVD (K : Type*) (d : Nat) where
  U : Matrix (Fin d) (Fin d) K
  Sigma : Fin d → K
  Vt : Matrix (Fin d) (Fin d) K

/-- `x[y == c]` (linear_discriminant_analysis.py:44-45) for `x` and `y` of equal length. -/
def rowsOf (x : List (Fin d → K)) (y : List Int) (c : Int) : List (Fin d → K) :=
  ((x.zip y).filter fun p => p.2 == c).map Prod.fst

/-- `np.mean(X, axis=0, keepdims=True)` (linear_discriminant_analysis.py:47-48); `NaN` for an empty `X`. -/
def colMean (X : List (Fin d → K)) : Option (Fin d → K) :=
  if X.length = 0 then none else some fun j => (X.map fun r => r j).sum / (X.length : K)

/-- `np.matmul((X - mu).T, (X - mu))` (ops.py:619-620; ops.cc:415-416). -/
def classScatter (X : List (Fin d → K)) (mu : Fin d → K) : Matrix (Fin d) (Fin d) K :=
  fun a b => (X.map fun r => (r a - mu a) * (r b - mu b)).sum

/-- ops.py:602-624 `get_within_class_scatter_matrix`; ops.cc:408-421 `GetWithinClassScatterMatrix`. -/
def scatter (X0 X1 : List (Fin d → K)) (mu0 mu1 : Fin d → K) : Matrix (Fin d) (Fin d) K :=
  classScatter X0 mu0 + classScatter X1 mu1

/-- ops.py:550-574 `get_w` (`get_w_v1` of the backend); ops.cc:376-386 `GetW`.  A singular matrix raises `LinAlgError`, a
subclass of `ValueError`. -/
noncomputable def getW (S : Matrix (Fin d) (Fin d) K) (mu0 mu1 : Fin d → K) : Except PyErr (Fin d → K) :=
  if S.det = 0 then .error .valueError else .ok (S⁻¹ *ᵥ (mu0 - mu1))

/-- `np.linalg.inv(np.diag(Sigma))`. -/
def invDiag (s : Fin d → K) : Matrix (Fin d) (Fin d) K := Matrix.diagonal fun i => (s i)⁻¹

/-- ops.py:595 `S_w_i = V_t.T * np.linalg.inv(np.diag(Sigma)) * U.T`: on `ndarray`s `*` is the elementwise product. -/
def pseudoInv (r : SVD K d) : Matrix (Fin d) (Fin d) K :=
  fun i j => r.Vtᵀ i j * invDiag r.Sigma i j * r.Uᵀ i j

/-- ops.py:577-598 `get_w_v2`, the `get_w` of the Python backend (backend/__init__.py:122). -/
def getWV2 (svd : Matrix (Fin d) (Fin d) K → SVD K d) (S : Matrix (Fin d) (Fin d) K) (mu0 mu1 : Fin d → K) :
    Except PyErr (Fin d → K) :=
  if ∃ i, (svd S).Sigma i = 0 then .error .valueError else .ok (pseudoInv (svd S) *ᵥ (mu0 - mu1))

/-- ops.cc:391-406 `GetW_V2`, the `get_w` of the C++ backend (backend/__init__.py:91): the variable called `V_t` is
`svd.matrixV()`, hence `V_t.transpose()` is the transpose of V, and `Sigma_mat` is not inverted. -/
def getWCC (svd : Matrix (Fin d) (Fin d) K → SVD K d) (S : Matrix (Fin d) (Fin d) K) (mu0 mu1 : Fin d → K) :
    Fin d → K :=
  ((svd S).Vt * Matrix.diagonal (svd S).Sigma * (svd S).Uᵀ) *ᵥ (mu0 - mu1)

/-- The attributes `w`, `mu_0`, `mu_1` of the model (linear_discriminant_analysis.py:26-28); `w = none` is a vector of `NaN`. -/
structure Trained (K : Type*) (d : Nat) where
  w : Option (Fin d → K)
  mu0 : Option (Fin d → K)
  mu1 : Option (Fin d → K)

/-- linear_discriminant_analysis.py:31-57 `fit` with the projection function `gw` of the backend.  The boolean index raises
`IndexError` when the lengths differ.  When one class is empty its mean is `NaN`, the scatter of the empty class is the zero
matrix, and the projection vector is `NaN` (or the inversion fails, when the scatter of the other class is singular). -/
def fit (gw : Matrix (Fin d) (Fin d) K → (Fin d → K) → (Fin d → K) → Except PyErr (Fin d → K))
    (x : List (Fin d → K)) (y : List Int) : Except PyErr (Trained K d) :=
  if x.length ≠ y.length then .error .indexError
  else
    let X0 := rowsOf x y 0
    let X1 := rowsOf x y 1
    let mu0 := colMean X0
    let mu1 := colMean X1
    match gw (scatter X0 X1 (mu0.getD 0) (mu1.getD 0)) (mu0.getD 0) (mu1.getD 0) with
    | .error e => .error e
    | .ok w => .ok { w := if mu0.isSome && mu1.isSome then some w else none, mu0 := mu0, mu1 := mu1 }

/-- linear_discriminant_analysis.py:77-81 for one row: `coord`, the two centres, and the comparison. -/
def predictRow (w mu0 mu1 : Fin d → K) (r : Fin d → K) : Int :=
  let coord := r ⬝ᵥ w
  let center0 := w ⬝ᵥ mu0
  let center1 := w ⬝ᵥ mu1
  if |coord - center0| > |coord - center1| then 1 else 0

/-- linear_discriminant_analysis.py:59-84 `predict` of a trained model; every comparison with `NaN` is `False`. -/
def predict (m : Trained K d) (x : List (Fin d → K)) : List Int :=
  x.map fun r =>
    match m.w, m.mu0, m.mu1 with
    | some w, some mu0, some mu1 => predictRow w mu0 mu1 r
    | _, _, _ => 0

end CML.LDA
