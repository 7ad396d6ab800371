import Verif.Spec.Tree

/-! # Specification: boxes -/

namespace CML.DTree

variable {K : Type*} [LinearOrder K] {m : Nat}

/-- A box in the space of the attributes: for every attribute a lower bound (included) and an upper bound (excluded), both possibly missing. -/
structure Box (K : Type*) (m : Nat) where
  lo : Fin m → Option K
  hi : Fin m → Option K

/-- The point is in the box. -/
def Box.Has (b : Box K m) (p : Fin m → K) : Prop := ∀ a, (∀ t, b.lo a = some t → t ≤ p a) ∧ ∀ t, b.hi a = some t → p a < t

end CML.DTree
