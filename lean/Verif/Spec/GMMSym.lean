import Verif.Model.GMM

/-! # Specification: the parameters of a Gaussian mixture in other coordinates and with renumbered components -/

namespace CML.GMM
open Matrix

variable {K : Type*} [Field K] {n k d : Nat}

/-- An affine change of coordinates of a sample. -/
def move (A : Matrix (Fin d) (Fin d) K) (t : Fin d → K) (u : Fin d → K) : Fin d → K := A *ᵥ u + t

/-- The same mixture in the new coordinates. -/
def Params.move (A : Matrix (Fin d) (Fin d) K) (t : Fin d → K) (P : Params K k d) : Params K k d where
  mu i := GMM.move A t (P.mu i)
  sigma i a b := (A * Matrix.of (P.sigma i) * Aᵀ) a b
  alpha := P.alpha

/-- The mixture with the features in another order and from another origin. -/
def Params.relabel (σ : Equiv.Perm (Fin d)) (t : Fin d → K) (P : Params K k d) : Params K k d where
  mu i l := P.mu i (σ l) + t l
  sigma i a b := P.sigma i (σ a) (σ b)
  alpha := P.alpha

/-- The same mixture with component `i` called `τ⁻¹ i`. -/
def Params.renumber (τ : Equiv.Perm (Fin k)) (P : Params K k d) : Params K k d := ⟨P.mu ∘ τ, P.sigma ∘ τ, P.alpha ∘ τ⟩

/-- `e` steps of expectation maximisation, without the stopping rule. -/
def steps [LinearOrder K] (dens : Density K d) (x : Fin n → Fin d → K) : Nat → Params K k d → Option (Params K k d)
  | 0, P => some P
  | e + 1, P => (emStep dens x P).bind (steps dens x e)

end CML.GMM
