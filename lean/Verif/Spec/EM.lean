import Verif.Model.GMM

/-! # Specification for the likelihood climbed by the EM algorithm -/

namespace CML.GMM
open Finset

variable {n k d : Nat}

/-- The textbook density of the normal distribution `N(m, S)` at `u`:
`exp (-(u-m)ᵀ S⁻¹ (u-m) / 2) / √((2π)^d det S)`. -/
noncomputable def gaussian (m : Fin d → ℝ) (S : Matrix (Fin d) (Fin d) ℝ) (u : Fin d → ℝ) : ℝ :=
  Real.exp (-(dotProduct (u - m) (S⁻¹.mulVec (u - m))) / 2) / Real.sqrt ((2 * Real.pi) ^ d * S.det)

/-- Log-likelihood of the data under a Gaussian mixture. -/
noncomputable def logLik (x : Fin n → Fin d → ℝ) (P : Params ℝ k d) : ℝ :=
  ∑ j, Real.log (∑ i, P.alpha i * gaussian (P.mu i) (Matrix.of (P.sigma i)) (x j))

end CML.GMM
