import Mathlib.Algebra.BigOperators.Group.Finset.Basic
import Mathlib.Algebra.Field.Basic
import Mathlib.Data.Fintype.BigOperators

/-! # Mean and covariance matrix of a sample -/

namespace CML
open Finset

variable {K : Type*} [Field K] {n d : Nat}

/-- The mean of the rows. -/
def sampleMean (x : Fin n → Fin d → K) : Fin d → K := fun l => (∑ j, x j l) / (n : K)

/-- The (biased) covariance matrix of the rows. -/
def sampleCov (x : Fin n → Fin d → K) : Fin d → Fin d → K :=
  fun a b => (∑ j, (x j a - sampleMean x a) * (x j b - sampleMean x b)) / (n : K)

end CML
