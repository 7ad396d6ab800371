import Verif.Prelude
import Mathlib.Algebra.Order.Field.Basic
import Mathlib.Algebra.BigOperators.Group.Finset.Basic
import Mathlib.Data.Fintype.BigOperators
import Mathlib.LinearAlgebra.Matrix.NonsingularInverse
import Mathlib.Analysis.SpecialFunctions.Pow.Real
import Mathlib.Analysis.SpecialFunctions.Trigonometric.Basic

/-!
# Model of `GaussianMixture` (classicML/api/models/cluster/gaussian_mixture.py) and of its operations (ops.py)

`n` samples, `k` components, `d` features.  Arithmetic is exact; a division by zero (numpy: `NaN`/`inf`) and a
`LinAlgError` of the density end the run of the model (`none`), so the theorems speak of runs free of them.
-/

namespace CML.GMM
open Finset

variable {K : Type*} [Field K] [LinearOrder K] {n k d : Nat}

/-- The attributes `mu`, `sigma`, `alpha` of the model (gaussian_mixture.py:60-62). -/
structure Params (K : Type*) (k d : Nat) where
  mu : Fin k → Fin d → K
  sigma : Fin k → Fin d → Fin d → K
  alpha : Fin k → K

/-- The density of one sample under one component, `none` when the covariance cannot be inverted. -/
abbrev Density (K : Type*) (d : Nat) := (Fin d → K) → (Fin d → K) → (Fin d → Fin d → K) → Option K

/-- ops.py:442-470 `get_gaussian_mixture_distribution_probability_density` for sample `u` (its component densities given). -/
def mixtureDensity (alpha : Fin k → K) (p : Fin k → K) : K := ∑ i, alpha i * p i

/-- ops.py:409-439 `get_gaussian_mixture_distribution_posterior_probability`. -/
def posterior (dens : Density K d) (x : Fin n → Fin d → K) (P : Params K k d) : Option (Fin n → Fin k → K) :=
  if ∃ j i, dens (x j) (P.mu i) (P.sigma i) = none then none
  else
    let p := fun j i => (dens (x j) (P.mu i) (P.sigma i)).getD 0
    if ∃ j, mixtureDensity P.alpha (p j) = 0 then none
    else some fun j i => P.alpha i * p j i / mixtureDensity P.alpha (p j)

/-- ops.py:247-269 `calculate_means`. -/
def calculateMeans (x : Fin n → Fin d → K) (g : Fin n → Fin k → K) : Fin k → Fin d → K :=
  fun i l => (∑ j, g j i * x j l) / ∑ j, g j i

/-- ops.py:153-181 `calculate_covariances`; `np.outer(v, v)` has entries `v_a * v_b`. -/
def calculateCovariances (x : Fin n → Fin d → K) (mu : Fin k → Fin d → K) (g : Fin n → Fin k → K) :
    Fin k → Fin d → Fin d → K :=
  fun i a b => (∑ j, g j i * ((x j a - mu i a) * (x j b - mu i b))) / ∑ j, g j i

/-- ops.py:272-286 `calculate_mixture_coefficient`. -/
def calculateMixtureCoefficient (g : Fin n → Fin k → K) : Fin k → K :=
  fun i => 1 * 1 / (n : K) * ∑ j, g j i

/-- gaussian_mixture.py:113-122: E step and computation of the new parameters; `none` on a division by zero. -/
def emStep (dens : Density K d) (x : Fin n → Fin d → K) (P : Params K k d) : Option (Params K k d) :=
  match posterior dens x P with
  | none => none
  | some g =>
    if (∃ i, ∑ j, g j i = 0) ∨ n = 0 then none
    else
      let mu := calculateMeans x g
      some { mu := mu, sigma := calculateCovariances x mu g, alpha := calculateMixtureCoefficient g }

/-- gaussian_mixture.py:124-126 with ops.py:313-332 `compare_differences(...).any()`. -/
def differs (tol : K) (P Q : Params K k d) : Prop :=
  (∃ i l, tol < |P.mu i l - Q.mu i l|) ∨ (∃ i a b, tol < |P.sigma i a b - Q.sigma i a b|) ∨
    ∃ i, tol < |P.alpha i - Q.alpha i|

instance (tol : K) (P Q : Params K k d) : Decidable (differs tol P Q) := by
  unfold differs; infer_instance

/-- gaussian_mixture.py:112-131: the training loop, `epochs` iterations left. -/
def fitLoop (dens : Density K d) (x : Fin n → Fin d → K) (tol : K) : Nat → Params K k d → Option (Params K k d)
  | 0, P => some P
  | e + 1, P =>
    match emStep dens x P with
    | none => none
    | some Q => if differs tol P Q then fitLoop dens x tol e Q else some P

/-- gaussian_mixture.py:141-172 `predict`: `get_cluster(-gamma)`, i.e. `np.argmin` of the negated row (ops.py:335-349). -/
def predict (dens : Density K d) (P : Params K k d) (x : Fin n → Fin d → K) : Option (Fin n → Option Nat) :=
  (posterior dens x P).map fun g j => argmin? (List.ofFn fun i => -g j i)

/-- gaussian_mixture.py:92-139 `fit` from initial parameters: the trained parameters and `clusters`. -/
def fit (dens : Density K d) (x : Fin n → Fin d → K) (tol : K) (epochs : Nat) (P0 : Params K k d) :
    Option (Params K k d × (Fin n → Option Nat)) :=
  match fitLoop dens x tol epochs P0 with
  | none => none
  | some P => (predict dens P x).map fun c => (P, c)

/-- The `init` argument of `init_mixture_coefficient` after `np.squeeze`: nothing, a 0-D array, a 1-D array, something that is
neither list nor array. -/
inductive CoefInit (K : Type*)
  | none
  | scalar
  | vec (l : List K)
  | other

/-- ops.py:719-756 `init_mixture_coefficient`; `len()` of a 0-D array raises `TypeError`.  A 1-D array of length 1 is squeezed
to a 0-D one.  Arrays of more dimensions are not modelled. -/
def initMixtureCoefficient (nComponents : Nat) : CoefInit K → Except PyErr (List K)
  | .none => .ok (List.replicate nComponents (1 * 1 / (nComponents : K)))
  | .scalar => .error .typeError
  | .vec [_] => .error .typeError
  | .vec l =>
    if l.length ≠ nComponents then .error .valueError
    else if l.sum ≠ 1 then .error .valueError
    else .ok l
  | .other => .error .typeError

/-- ops.py:473-498 `get_normal_distribution_probability_density`.  `fl` is the conversion to the working precision
(line 493); `np.linalg.inv` raises for a singular matrix, the square root of a negative determinant is `NaN`: both `none`. -/
noncomputable def normalDensity (fl : ℝ → ℝ) : Density ℝ d := fun u mu sigma =>
  if Matrix.det (Matrix.of sigma) ≤ 0 then none
  else
    let v : Fin d → ℝ := fun a => u a - mu a
    let q := ∑ a, ∑ b, v a * (Matrix.of sigma)⁻¹ a b * v b
    let p := fl (1 / (Real.sqrt (Matrix.det (Matrix.of sigma)) * (2 * Real.pi) ^ ((d : ℝ) / 2)) * Real.exp (-1 / 2 * q))
    some (if p = 0 then 1e-36 else p)

end CML.GMM
