import Mathlib.Analysis.SpecialFunctions.Exp

/-! # The linear, the polynomial and the RBF kernel on rows given as lists -/

namespace CML.SVC

/-- kernels.py:35-47 `Linear.__call__`, on two rows given as lists of the same length. -/
def linearList {K : Type*} [Field K] (u v : List K) : K := (List.zipWith (· * ·) u v).sum

/-- kernels.py:96-108 `RBF.__call__` and 111-116 `Gaussian`, on two rows given as lists of the same length. -/
noncomputable def rbfList (gamma : ℝ) (u v : List ℝ) : ℝ := Real.exp (gamma * -(List.zipWith (fun a b => (b - a) ^ 2) u v).sum)

/-- kernels.py:67-79 `Polynomial.__call__`, on two rows given as lists of the same length. -/
def polyList {K : Type*} [Field K] (gamma : K) (degree : Nat) (u v : List K) : K := gamma * linearList u v ^ degree

end CML.SVC
