import Mathlib.Analysis.SpecialFunctions.Exp
import Mathlib.Analysis.Complex.Trigonometric
import Mathlib.Algebra.BigOperators.Group.Finset.Basic

/-!
# Model of the kernels (classicML/backend/python/kernels.py, classicML/backend/cc/kernels/kernels.cc)

A call of a kernel on arrays evaluates the function below on the pairs of rows (the matrix product `x_j x_iᵀ`, or the rows of
`x_j - x_i` with broadcasting); only the function of two rows is modelled.  Arithmetic is exact.
-/

namespace CML.Kern

variable {d : Nat}

/-- The entry of `np.matmul(x_j, x_i.T)` for two rows. -/
noncomputable def dot (x y : Fin d → ℝ) : ℝ := ∑ i, y i * x i

/-- kernels.py:35-47 `Linear.__call__`; kernels.cc:35-47. -/
noncomputable def linear (x y : Fin d → ℝ) : ℝ := dot x y

/-- kernels.py:67-79 `Polynomial.__call__`; kernels.cc:61-75. -/
noncomputable def poly (gamma : ℝ) (degree : Nat) (x y : Fin d → ℝ) : ℝ := gamma * dot x y ^ degree

/-- kernels.py:96-108 `RBF.__call__` (and `Gaussian`); kernels.cc:88-101. -/
noncomputable def rbf (gamma : ℝ) (x y : Fin d → ℝ) : ℝ := Real.exp (gamma * -∑ i, (y i - x i) ^ 2)

/-- kernels.py:139-151 `Sigmoid.__call__`; kernels.cc:128-141. -/
noncomputable def sigmoidKernel (gamma beta theta : ℝ) (x y : Fin d → ℝ) : ℝ := gamma * Real.tanh (beta * dot x y + theta)

end CML.Kern
