import Verif.Model.GMM

/-! # Specifications for the Gaussian mixture -/

namespace CML.GMM
open Finset

variable {K : Type*} [Field K] [LinearOrder K] {n k d : Nat}

/-- A probability vector. -/
def IsProb {m : Nat} (w : Fin m → K) : Prop := (∀ i, 0 ≤ w i) ∧ ∑ i, w i = 1

/-- `v` is a convex combination of the rows of `x`. -/
def IsConvexComb (x : Fin n → Fin d → K) (v : Fin d → K) : Prop :=
  ∃ w : Fin n → K, IsProb w ∧ ∀ l, v l = ∑ j, w j * x j l

/-- Symmetric and positive semidefinite. -/
def IsPSD (S : Fin d → Fin d → K) : Prop :=
  (∀ a b, S a b = S b a) ∧ ∀ v : Fin d → K, 0 ≤ ∑ a, ∑ b, v a * S a b * v b

/-- Densities are positive when defined. -/
def DensOK (dens : Density K d) : Prop := ∀ u m s p, dens u m s = some p → 0 < p

/-- Parameters reached from `P0` by `t` EM steps. -/
inductive Steps (dens : Density K d) (x : Fin n → Fin d → K) (P0 : Params K k d) : Nat → Params K k d → Prop
  | zero : Steps dens x P0 0 P0
  | succ (t P Q) (h : Steps dens x P0 t P) (hs : emStep dens x P = some Q) : Steps dens x P0 (t + 1) Q

/-- The standard normal density on the real line. -/
noncomputable def stdNormal (z : ℝ) : ℝ := Real.exp (-z ^ 2 / 2) / √(2 * Real.pi)

/-- The density at `u` of the random vector `mu + A z`, where `z` has independent standard normal entries and `A` is
invertible (change of variables): `z` is the solution of `u = mu + A z`. -/
def IsAffineNormalDensity {d : Nat} (mu : Fin d → ℝ) (A : Matrix (Fin d) (Fin d) ℝ) (u : Fin d → ℝ) (p : ℝ) : Prop :=
  ∃ z : Fin d → ℝ, (∀ i, u i = mu i + ∑ j, A i j * z j) ∧ p = (∏ i, stdNormal (z i)) / |A.det|

end CML.GMM
