import Verif.Prelude
import Mathlib.Data.Fintype.BigOperators
import Mathlib.Algebra.BigOperators.Fin
import Mathlib.Logic.Equiv.Fin.Basic

/-! # A training set given several times over -/

namespace CML.Repeat

/-- The table `f`, `r` times one after the other (`np.tile` / `np.concatenate([x] * r)`). -/
def tile (r : Nat) {n : Nat} {α : Type*} (f : Fin n → α) : Fin (r * n) → α := fun i => f i.modNat

/-- The same for a list of rows. -/
def times (r : Nat) {α : Type*} (l : List α) : List α := (List.replicate r l).flatten

end CML.Repeat
