import Verif.Spec.LDA

/-! # Specification: distance of a row from a class in the metric of the pooled scatter -/

namespace CML.LDA
open Finset Matrix

variable {K : Type*} [Field K] [LinearOrder K] {d : Nat}

/-- The scatter of two classes around their centres. -/
def pooled (X0 X1 : List (Fin d → K)) (mu0 mu1 : Fin d → K) : Matrix (Fin d) (Fin d) K :=
  ((deviations X0 mu0).map outer).sum + ((deviations X1 mu1).map outer).sum

/-- Squared Mahalanobis distance of `r` from `m` in the metric of `S`. -/
noncomputable def maha (S : Matrix (Fin d) (Fin d) K) (r m : Fin d → K) : K := (r - m) ⬝ᵥ (S⁻¹ *ᵥ (r - m))

end CML.LDA
