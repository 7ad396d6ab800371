import Verif.Model.LogReg
import Mathlib.Analysis.Calculus.FDeriv.Basic
import Mathlib.Analysis.Normed.Module.FiniteDimension
import Mathlib.Topology.Algebra.Module.Basic

/-! # Specifications for logistic regression -/

namespace CML.LogReg
open Finset

variable {n d m : Nat}

/-- The probability that logistic regression gives to class 1 for a row: the logistic function of `w·x + b`, where the last
parameter is `b`. -/
noncomputable def prob (x : Fin d → ℝ) (beta : Fin (d + 1) → ℝ) : ℝ :=
  1 / (1 + Real.exp (-((∑ j : Fin d, x j * beta j.castSucc) + beta (Fin.last d))))

/-- The negative log-likelihood of labels 0 / 1. -/
noncomputable def negLogLikelihood (x : Fin n → Fin d → ℝ) (y : Fin n → ℝ) (beta : Fin (d + 1) → ℝ) : ℝ :=
  -∑ i, Real.log (if y i = 1 then prob (x i) beta else 1 - prob (x i) beta)

/-- Labels are 0 or 1. -/
def Labels (y : Fin n → ℝ) : Prop := ∀ i, y i = 0 ∨ y i = 1

/-- `g` is the vector of partial derivatives of `f` at `b` (and `f` is differentiable there). -/
def IsGradient (f : (Fin m → ℝ) → ℝ) (g b : Fin m → ℝ) : Prop :=
  HasFDerivAt f (∑ j, g j • (ContinuousLinearMap.proj j : (Fin m → ℝ) →L[ℝ] ℝ)) b

/-- The squared length of a vector. -/
def sqNorm (v : Fin m → ℝ) : ℝ := ∑ j, v j ^ 2

/-- The features in other coordinates: `A` mixes (or rescales) them, `t` moves the origin. -/
def recode (A : Matrix (Fin d) (Fin d) ℝ) (t : Fin d → ℝ) (r : Fin d → ℝ) : Fin d → ℝ := fun k => (∑ j, r j * A j k) + t k

end CML.LogReg
