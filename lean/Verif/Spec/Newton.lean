import Verif.Spec.LogReg

/-! # Specifications for Newton's method -/

namespace CML.LogReg
open Finset

variable {n d : Nat}

/-- The linear score `w·x + b` of a row. -/
def score (x : Fin d → ℝ) (beta : Fin (d + 1) → ℝ) : ℝ := (∑ j : Fin d, x j * beta j.castSucc) + beta (Fin.last d)

/-- The curvature of the negative log-likelihood at `beta` in the direction `v`. -/
noncomputable def curvature (x : Fin n → Fin d → ℝ) (beta v : Fin (d + 1) → ℝ) : ℝ :=
  ∑ i, prob (x i) beta * (1 - prob (x i) beta) * score (x i) v ^ 2

/-- The attributes (with the constant) are linearly independent: only the zero vector gives every row the score 0. -/
def FullRank (x : Fin n → Fin d → ℝ) : Prop := ∀ v : Fin (d + 1) → ℝ, (∀ i, score (x i) v = 0) → v = 0

/-- Four rows `a, a, -a, -a` of one feature, labelled 0, 1, 0, 1: the best model is the constant probability 1/2. -/
def noisyRows (a : ℝ) : Fin 4 → Fin 1 → ℝ := ![![a], ![a], ![-a], ![-a]]
/-- Their labels. -/
def noisyLabels : Fin 4 → ℝ := ![0, 1, 0, 1]

end CML.LogReg
