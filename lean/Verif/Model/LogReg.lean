import Verif.Model.Activations
import Verif.Model.Losses
import Mathlib.LinearAlgebra.Matrix.NonsingularInverse
import Mathlib.Data.Fin.Tuple.Basic

/-!
# Model of logistic regression (classicML/api/models/linear_model/logistic_regression.py) and of its two optimisers
(`GradientDescent`, `NewtonMethod` of classicML/backend/python/optimizers.py)

Arithmetic is exact.  `n` samples, `d` features; the parameters `beta` of shape (d+1, 1) are a function `Fin (d+1) → ℝ`.
-/

namespace CML.LogReg
open Finset Matrix

variable {n d : Nat}

/-- optimizers.py:577-580, 692-695: `np.c_[x, np.ones((n, 1))]`. -/
def hat (x : Fin n → Fin d → ℝ) : Fin n → Fin (d + 1) → ℝ := fun i => Fin.snoc (x i) 1

/-- optimizers.py:581, 696: `np.matmul(x_hat, parameters)`. -/
def scores (x : Fin n → Fin d → ℝ) (beta : Fin (d + 1) → ℝ) : Fin n → ℝ := fun i => ∑ j, hat x i j * beta j

/-- optimizers.py:566-584 `GradientDescent.forward`, 681-699 `NewtonMethod.forward`: the predicted probabilities. -/
noncomputable def forward (x : Fin n → Fin d → ℝ) (beta : Fin (d + 1) → ℝ) : Fin n → ℝ := fun i => sigmoid (scores x beta i)

/-- optimizers.py:586-603 `GradientDescent.backward`, 701-718 `NewtonMethod.backward`. -/
def backward (yPred yTrue : Fin n → ℝ) (xh : Fin n → Fin (d + 1) → ℝ) : Fin (d + 1) → ℝ :=
  fun j => ∑ i, (-xh i j * (yTrue i - yPred i))

/-- optimizers.py:721-733 `NewtonMethod._get_hessian_matrix`: `np.eye(n) * y_pred * (1 - y_pred)` broadcasts the column
`y_pred` over the columns of the identity. -/
noncomputable def hessian (yPred : Fin n → ℝ) (xh : Fin n → Fin (d + 1) → ℝ) : Matrix (Fin (d + 1)) (Fin (d + 1)) ℝ :=
  let P : Matrix (Fin n) (Fin n) ℝ :=
    Matrix.of fun i k => (1 : Matrix (Fin n) (Fin n) ℝ) i k * yPred i * (1 - yPred i)
  (Matrix.of xh)ᵀ * P * Matrix.of xh

/-- optimizers.py:533-537: one epoch of gradient descent. -/
noncomputable def gdStep (lr : ℝ) (x : Fin n → Fin d → ℝ) (y : Fin n → ℝ) (beta : Fin (d + 1) → ℝ) : Fin (d + 1) → ℝ :=
  fun j => beta j - lr * backward (forward x beta) y (hat x) j

/-- optimizers.py:508-553 `GradientDescent.run` without the monitoring part (lines 542-552). -/
noncomputable def gdRun (lr : ℝ) (x : Fin n → Fin d → ℝ) (y : Fin n → ℝ) : Nat → (Fin (d + 1) → ℝ) → (Fin (d + 1) → ℝ)
  | 0, beta => beta
  | e + 1, beta => gdRun lr x y e (gdStep lr x y beta)

/-- optimizers.py:643-649, 667-679: one epoch of Newton's method; a singular Hessian raises `LinAlgError`. -/
noncomputable def newtonStep (x : Fin n → Fin d → ℝ) (y : Fin n → ℝ) (beta : Fin (d + 1) → ℝ) : Except PyErr (Fin (d + 1) → ℝ) :=
  let p := forward x beta
  let H := hessian p (hat x)
  if H.det = 0 then .error .valueError else .ok (beta - H⁻¹ *ᵥ backward p y (hat x))

/-- optimizers.py:617-665 `NewtonMethod.run` without the monitoring part. -/
noncomputable def newtonRun (x : Fin n → Fin d → ℝ) (y : Fin n → ℝ) : Nat → (Fin (d + 1) → ℝ) → Except PyErr (Fin (d + 1) → ℝ)
  | 0, beta => .ok beta
  | e + 1, beta =>
    match newtonStep x y beta with
    | .error err => .error err
    | .ok b => newtonRun x y e b

/-- losses.py:112-129 as called at optimizers.py:541, 653: the value of the default loss `log_likelihood`. -/
noncomputable def loss (x : Fin n → Fin d → ℝ) (y : Fin n → ℝ) (beta : Fin (d + 1) → ℝ) : ℝ :=
  logLikelihoodOf y (scores x beta)

end CML.LogReg
