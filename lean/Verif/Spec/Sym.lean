import Mathlib.Algebra.Order.Field.Basic

/-! # Specification: changes of units -/

namespace CML

/-- Every feature in its own new unit (factor `a k`) and from its own new origin (`t k`). -/
def rescale {K : Type*} [Field K] {m : Nat} (a t : Fin m → K) (r : Fin m → K) : Fin m → K := fun k => a k * r k + t k

end CML
