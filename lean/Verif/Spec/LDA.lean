import Verif.Model.LDA

/-! # Specifications for linear discriminant analysis -/

namespace CML.LDA
open Finset Matrix

variable {K : Type*} [Field K] [LinearOrder K] {d : Nat}

/-- What LAPACK and Eigen promise about a singular value decomposition: orthogonal factors, non-negative singular values in
descending order, and the product is the matrix. -/
structure IsSVD (S : Matrix (Fin d) (Fin d) K) (r : SVD K d) : Prop where
  orthU : r.Uᵀ * r.U = 1
  orthV : r.Vt * r.Vtᵀ = 1
  nonneg : ∀ i, 0 ≤ r.Sigma i
  sorted : ∀ i j, i ≤ j → r.Sigma j ≤ r.Sigma i
  prod : r.U * Matrix.diagonal r.Sigma * r.Vt = S

/-- The outer product of a vector with itself. -/
def outer (v : Fin d → K) : Matrix (Fin d) (Fin d) K := fun a b => v a * v b

/-- The deviations of the rows of a class from `mu`. -/
def deviations (X : List (Fin d → K)) (mu : Fin d → K) : List (Fin d → K) := X.map fun r => r - mu

/-- Symmetric and positive semidefinite. -/
def IsPSD (S : Matrix (Fin d) (Fin d) K) : Prop := Sᵀ = S ∧ ∀ v : Fin d → K, 0 ≤ v ⬝ᵥ (S *ᵥ v)

/-- `v` is the centre of gravity of the rows: the deviations from it add up to zero. -/
def IsCentroid (X : List (Fin d → K)) (v : Fin d → K) : Prop := X ≠ [] ∧ (deviations X v).sum = 0

/-- The distance of two rows after projection on `w`. -/
def projDist (w a b : Fin d → K) : K := |w ⬝ᵥ a - w ⬝ᵥ b|

/-- An affine change of coordinates of a row. -/
def move (A : Matrix (Fin d) (Fin d) K) (t : Fin d → K) (r : Fin d → K) : Fin d → K := A *ᵥ r + t

/-- The classes 0 and 1 exchanged. -/
def other (c : Int) : Int := 1 - c

end CML.LDA
