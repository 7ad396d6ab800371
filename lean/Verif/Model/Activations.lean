import Verif.Prelude
import Mathlib.Analysis.SpecialFunctions.Exp
import Mathlib.Algebra.BigOperators.Group.Finset.Basic
import Mathlib.Data.Fintype.BigOperators
import Mathlib.Data.Finset.Max
import Mathlib.Order.CompleteLattice.Basic

/-!
# Model of the activation functions (classicML/backend/python/activations.py, classicML/backend/cc/activations/activations.cc)

Arithmetic is exact (real numbers).  A matrix with `n` rows and `k` columns is a function `Fin n → Fin k → ℝ`.
-/

namespace CML
open Finset

/-- activations.py:44-54 `Relu.__call__`; activations.cc:44-58, on one entry. -/
noncomputable def relu (z : ℝ) : ℝ := max 0 z

/-- activations.py:56-71 `Relu.diff` on one entry: `da = output; da[a <= 0] = 0`. -/
noncomputable def reluDiff (output a : ℝ) : ℝ := if a ≤ 0 then 0 else output

/-- activations.py:56-71 `Relu.diff` seen by the caller: `np.asarray(output)` is the caller's own array, so that `da[a <= 0] = 0`
writes into it; the pair is (result, content of the caller's `output` afterwards). The C++ version (activations.cc:61-76) copies. -/
noncomputable def reluDiffCall {n k : Nat} (output a : Fin n → Fin k → ℝ) : (Fin n → Fin k → ℝ) × (Fin n → Fin k → ℝ) :=
  (fun i j => reluDiff (output i j) (a i j), fun i j => reluDiff (output i j) (a i j))

/-- activations.py:80-90 `Sigmoid.__call__`; activations.cc:90-95, on one entry. -/
noncomputable def sigmoid (z : ℝ) : ℝ := 1 / (1 + Real.exp (-z))

/-- activations.py:92-113 `Sigmoid.diff`; activations.cc:99-109, on one entry. -/
noncomputable def sigmoidDiff (output a yTrue : ℝ) : ℝ := a * (1 - a) * (yTrue - output)

/-- activations.py:122-134 `Softmax.__call__`; activations.cc:121-138: `M` is `np.max(z)`, the maximum of the WHOLE matrix,
and `e` is the exponential function (exact: `Real.exp`). -/
noncomputable def softmaxWith {n k : Nat} (e : ℝ → ℝ) (M : ℝ) (z : Fin n → Fin k → ℝ) : Fin n → Fin k → ℝ :=
  fun i j => e (z i j - M) / ∑ l, e (z i l - M)

/-- `np.max(z)` of a non-empty matrix. -/
noncomputable def maxEntry {n k : Nat} (z : Fin (n + 1) → Fin (k + 1) → ℝ) : ℝ :=
  (Finset.univ : Finset (Fin (n + 1) × Fin (k + 1))).sup' ⟨(0, 0), mem_univ _⟩ fun p => z p.1 p.2

/-- activations.py:122-134 `Softmax.__call__` on a matrix with at least one entry (`np.max` of an empty one raises). -/
noncomputable def softmax {n k : Nat} (z : Fin (n + 1) → Fin (k + 1) → ℝ) : Fin (n + 1) → Fin (k + 1) → ℝ :=
  softmaxWith Real.exp (maxEntry z) z

/-- activations.py:122-134 seen by the caller: the Python version assigns `z -= np.max(z)` in place; the pair is
(result, content of the caller's array afterwards). -/
noncomputable def softmaxCall {n k : Nat} (z : Fin (n + 1) → Fin (k + 1) → ℝ) :
    (Fin (n + 1) → Fin (k + 1) → ℝ) × (Fin (n + 1) → Fin (k + 1) → ℝ) :=
  (softmax z, fun i j => z i j - maxEntry z)

/-- activations.py:135-147 `Softmax.diff`; activations.cc:141-149 on one entry: called as `softmax.diff(y_true, a)`. -/
noncomputable def softmaxDiff (output a : ℝ) : ℝ := a - output

end CML
