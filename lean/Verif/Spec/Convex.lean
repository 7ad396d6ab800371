import Mathlib.Algebra.Order.Field.Basic

/-! # Points between two points -/

namespace CML

/-- `z` lies on the segment between `x` and `y`. -/
def Between {K : Type*} [Field K] [LinearOrder K] {d : Nat} (x y z : Fin d → K) : Prop :=
  ∃ t : K, 0 ≤ t ∧ t ≤ 1 ∧ ∀ i, z i = (1 - t) * x i + t * y i

/-- The same for rows given as lists of equal length. -/
def BetweenRows {K : Type*} [Field K] [LinearOrder K] (x y z : List K) : Prop :=
  x.length = y.length ∧ ∃ t : K, 0 ≤ t ∧ t ≤ 1 ∧ z = List.zipWith (fun a b => (1 - t) * a + t * b) x y

end CML
