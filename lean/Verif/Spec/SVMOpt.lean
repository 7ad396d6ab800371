import Verif.Spec.SMO

/-! # Specification: optimality of the multipliers of a support vector machine -/

namespace CML.SMO
open Finset

variable {K : Type*} [Field K] [LinearOrder K] {n : Nat}

/-- The kernel values come from a positive semidefinite kernel. -/
def GramPSD (p : Problem K n) : Prop :=
  (∀ k l, p.gram k l = p.gram l k) ∧ ∀ v : Fin n → K, 0 ≤ ∑ k, ∑ l, v k * v l * p.gram k l

/-- Optimal up to the tolerance: no feasible multipliers are better by more than `tol` times their distance (the sum of the absolute differences). -/
def NearOptimal (p : Problem K n) (alphas : Fin n → K) : Prop :=
  DualFeasible p alphas ∧
    ∀ betas, DualFeasible p betas → dualObjective p betas ≤ dualObjective p alphas + p.tol * ∑ i, |betas i - alphas i|

/-- The squared distance of two samples in the feature space of the kernel. -/
def featDist (p : Problem K n) (i j : Fin n) : K := p.gram i i + p.gram j j - 2 * p.gram i j

/-- The data are coarse for the step width `1e-5` of the optimiser: for samples with different labels the distance is more than 200000, or zero, or `C` is below
the step width. -/
def Coarse (p : Problem K n) : Prop :=
  ∀ i j, p.y i ≠ p.y j → featDist p i j ≤ 0 ∨ 200000 < featDist p i j ∨ p.C < 1 / 100000

end CML.SMO
