import Mathlib.Analysis.SpecialFunctions.Sqrt
import Mathlib.Data.Fin.Tuple.Basic

/-! # Rows with an attribute given twice, and rows with an attribute stretched -/

namespace CML.Twice

/-- A row (a list) with its attribute `k` given once more, at the end. -/
def again (k : Nat) (u : List ℝ) : List ℝ := u ++ [u.getD k 0]

/-- A row (a list) with its attribute `k` in a unit `√2` times smaller. -/
noncomputable def stretch (k : Nat) (u : List ℝ) : List ℝ := u.set k (Real.sqrt 2 * u.getD k 0)

/-- A row (a tuple) with its attribute `k` given once more, at the end. -/
def againF {d : Nat} (k : Fin d) (u : Fin d → ℝ) : Fin (d + 1) → ℝ := Fin.snoc (α := fun _ => ℝ) u (u k)

/-- A row (a tuple) with its attribute `k` in a unit `√2` times smaller. -/
noncomputable def stretchF {d : Nat} (k : Fin d) (u : Fin d → ℝ) : Fin d → ℝ := Function.update u k (Real.sqrt 2 * u k)

end CML.Twice
