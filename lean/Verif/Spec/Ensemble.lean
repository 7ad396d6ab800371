import Verif.Model.Ensemble
import Mathlib.Analysis.Real.Sqrt

/-! # Specification of the ensembles -/

namespace CML.Ada

open Finset

variable {X : Type*} {n : Nat}

/-- A strictly positive probability vector. -/
def IsDistribution (D : Fin n → ℝ) : Prop := (∀ i, 0 < D i) ∧ ∑ i, D i = 1

/-- Probability, under `D`, of the samples which `h` labels wrongly. -/
noncomputable def weightedError (D : Fin n → ℝ) (x : Fin n → X) (y : Fin n → Int) (h : X → Int) : ℝ :=
  ∑ i with h (x i) ≠ y i, D i

/-- The coefficient-weighted vote of the members on a row. -/
noncomputable def weightedVote (ms : List ((X → Int) × ℝ)) (r : X) : ℝ := (ms.map fun q => q.2 * ((q.1 r : Int) : ℝ)).sum

/-- Number of samples for which the predicted label is not the given one. -/
noncomputable def mistakes (rule : X → Option Int) (x : Fin n → X) (y : Fin n → Int) : Nat :=
  (univ.filter fun i => rule (x i) ≠ some (y i)).card

end CML.Ada
