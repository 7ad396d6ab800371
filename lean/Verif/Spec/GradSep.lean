import Verif.Spec.Newton

/-! # Specifications for gradient descent on separable data -/

namespace CML.LogReg

variable {n d : Nat}

/-- The score of a row counted positive towards its own class. -/
noncomputable def towards (y s : ℝ) : ℝ := if y = 1 then s else -s

/-- The parameters `u` give every row a score of at least `γ` towards its own class. -/
def Separates (x : Fin n → Fin d → ℝ) (y : Fin n → ℝ) (u : Fin (d + 1) → ℝ) (γ : ℝ) : Prop := ∀ i, γ ≤ towards (y i) (score (x i) u)

/-- Every row gets its own class: a probability above 1/2 for class 1, below 1/2 for class 0. -/
def AllCorrect (x : Fin n → Fin d → ℝ) (y : Fin n → ℝ) (beta : Fin (d + 1) → ℝ) : Prop :=
  ∀ i, (y i = 1 → 1 / 2 < prob (x i) beta) ∧ (y i = 0 → prob (x i) beta < 1 / 2)

end CML.LogReg
