import Verif.Spec.GMM

/-! # Specifications for data of deficient dimension -/

namespace CML.GMM
open Finset

variable {n d : Nat}

/-- The samples lie in a hyperplane: some linear combination of the attributes is constant on the data. -/
def Flat (x : Fin n → Fin d → ℝ) : Prop := ∃ v : Fin d → ℝ, v ≠ 0 ∧ ∃ c, ∀ j, ∑ l, v l * x j l = c

/-- The default covariance: 0.1 on the diagonal. -/
noncomputable def defaultCovariance (d : Nat) : Fin d → Fin d → ℝ := fun a b => if a = b then 0.1 else 0

end CML.GMM
