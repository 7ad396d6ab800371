import Verif.Spec.SVMOpt

namespace CML.SMO

variable {K : Type*} [Field K] [LinearOrder K] {n k : Nat}

/-- The training problem with the samples `σ 0`, `σ 1`, … only. -/
def Problem.only (p : Problem K n) (σ : Fin k → Fin n) : Problem K k :=
  { y := fun i => p.y (σ i), gram := fun i j => p.gram (σ i) (σ j), C := p.C, tol := p.tol }

end CML.SMO
