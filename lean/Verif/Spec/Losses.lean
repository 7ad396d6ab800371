import Verif.Model.Losses
import Verif.Model.Activations

/-! # Specifications for losses and activations -/

namespace CML
open Finset

variable {n k : Nat}

/-- Strictly between 0 and 1. -/
def IsOpenProb (p : ℝ) : Prop := 0 < p ∧ p < 1

/-- Half the mean of the squared differences. -/
noncomputable def halfMeanSquare (p y : Fin n → ℝ) : ℝ := (∑ i, (p i - y i) ^ 2) / (2 * (n : ℝ))

/-- A row that is a one-hot label. -/
def IsOneHot (y : Fin k → ℝ) : Prop := ∃ c, y c = 1 ∧ ∀ j, j ≠ c → y j = 0

end CML
