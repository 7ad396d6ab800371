import Verif.Spec.LDA

/-! # Specification: Fisher's criterion for a direction of projection -/

namespace CML.LDA
open Matrix

variable {K : Type*} [Field K] [LinearOrder K] {d : Nat}

/-- The spread of the rows around `mu` after projection on `v`: the sum of the squared distances. -/
def spread (v : Fin d → K) (X : List (Fin d → K)) (mu : Fin d → K) : K := (X.map fun r => (v ⬝ᵥ r - v ⬝ᵥ mu) ^ 2).sum

/-- The spread within the two classes after projection on `v`. -/
def within (X0 X1 : List (Fin d → K)) (mu0 mu1 v : Fin d → K) : K := spread v X0 mu0 + spread v X1 mu1

/-- Fisher's criterion: the squared distance of the projected centres relative to the spread within the classes. -/
def fisher (X0 X1 : List (Fin d → K)) (mu0 mu1 v : Fin d → K) : K := (v ⬝ᵥ mu0 - v ⬝ᵥ mu1) ^ 2 / within X0 X1 mu0 mu1 v

/-- `w` is a direction of projection (the data do not collapse on it) that no other one beats. -/
def BestDirection (X0 X1 : List (Fin d → K)) (mu0 mu1 w : Fin d → K) : Prop :=
  0 < within X0 X1 mu0 mu1 w ∧ ∀ v, 0 < within X0 X1 mu0 mu1 v → fisher X0 X1 mu0 mu1 v ≤ fisher X0 X1 mu0 mu1 w

/-- All rows of a class moved by `t`. -/
def shifted (t : Fin d → K) (X : List (Fin d → K)) : List (Fin d → K) := X.map fun r => r + t

end CML.LDA
