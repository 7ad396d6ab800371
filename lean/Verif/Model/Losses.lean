import Verif.Prelude
import Mathlib.Analysis.SpecialFunctions.Log.Basic
import Mathlib.Algebra.BigOperators.Group.Finset.Basic
import Mathlib.Data.Fintype.BigOperators

/-!
# Model of the loss functions (classicML/backend/python/losses.py, classicML/backend/cc/losses/losses.cc)

Arithmetic is exact.  A matrix with `n` rows and `k` columns is a function `Fin n → Fin k → ℝ`.  `np.log` of a number that is
not positive (`-inf`, `NaN`) is not modelled: the theorems speak of positive arguments.
-/

namespace CML
open Finset

variable {n k : Nat}

/-- losses.py:36-52 `BinaryCrossentropy.__call__` for predictions of shape (n, 1); losses.cc:39-51. -/
noncomputable def binaryCrossentropy (p y : Fin n → ℝ) : ℝ :=
  -((∑ i, y i * Real.log (p i)) + ∑ i, (1 - y i) * Real.log (1 - p i)) / (n : ℝ)

/-- losses.py:61-77 `CategoricalCrossentropy.__call__`; losses.cc:65-75. -/
noncomputable def categoricalCrossentropy (p y : Fin n → Fin k → ℝ) : ℝ :=
  -(∑ i, ∑ j, y i j * Real.log (p i j)) / (n : ℝ)

/-- losses.py:87-103 `Crossentropy.__call__`; losses.cc:88-101. -/
noncomputable def crossentropy (p y : Fin n → Fin k → ℝ) : ℝ :=
  if h : k = 1 then binaryCrossentropy (fun i => p i ⟨0, by omega⟩) (fun i => y i ⟨0, by omega⟩) else categoricalCrossentropy p y

/-- losses.py:112-129 `LogLikelihood.__call__`; losses.cc:114-126.  `z` is `np.matmul(x_hat, beta)`. -/
noncomputable def logLikelihoodOf (y z : Fin n → ℝ) : ℝ := ∑ i, (-y i * z i + Real.log (1 + Real.exp (z i)))

/-- losses.py:138-151 `MeanSquaredError.__call__` for arrays of equal shape; losses.cc:139-150. -/
noncomputable def meanSquaredError (p y : Fin n → ℝ) : ℝ := (∑ i, (p i - y i)) ^ 2 / (2 * (n : ℝ))

/-- losses.py:138-151 `MeanSquaredError.__call__` for predictions of shape (n, 1) and labels of shape (n,): numpy broadcasts
the difference to shape (n, n). -/
noncomputable def meanSquaredErrorBroadcast (p y : Fin n → ℝ) : ℝ := (∑ i, ∑ j, (p i - y j)) ^ 2 / (2 * (n : ℝ))

end CML
