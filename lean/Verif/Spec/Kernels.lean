import Verif.Model.Kernels

/-! # Specifications for kernels -/

namespace CML.Kern

variable {d : Nat}

/-- A symmetric function of two rows. -/
def Symm (k : (Fin d → ℝ) → (Fin d → ℝ) → ℝ) : Prop := ∀ x y, k x y = k y x

/-- All Gram matrices of the kernel are positive semidefinite: `Σᵢⱼ cᵢ cⱼ k(xᵢ, xⱼ) ≥ 0` for any number of rows and coefficients. -/
def PSD (k : (Fin d → ℝ) → (Fin d → ℝ) → ℝ) : Prop :=
  ∀ (n : Nat) (x : Fin n → Fin d → ℝ) (c : Fin n → ℝ), 0 ≤ ∑ i, ∑ j, c i * c j * k (x i) (x j)

/-- The curvature of the dual problem along a pair of multipliers. -/
noncomputable def curvature (k : (Fin d → ℝ) → (Fin d → ℝ) → ℝ) (x y : Fin d → ℝ) : ℝ := k x x + k y y - 2 * k x y

end CML.Kern
