import Verif.Spec.TreeSym

/-! # Increasing transformations of the attributes -/

namespace CML.DTree

variable {K : Type*} [Field K] [LinearOrder K] {m : Nat}

/-- `φ a`, applied to attribute `a`, keeps the order of the values that occur in the table (for example a logarithm, a square root, a change
of unit). -/
def Increasing (φ : Fin m → K → K) (X : List (Row K m)) : Prop :=
  ∀ a, ∀ x ∈ X, ∀ y ∈ X, x a < y a → φ a (x a) < φ a (y a)

/-- The transformed row. -/
def moved (φ : Fin m → K → K) (r : Row K m) : Row K m := fun a => φ a (r a)

/-- Two trainings, the second with transformed attributes: the same exception, or two trees with the same numbers of leaves and heights that
answer every training row alike. -/
def SameOnTraining (φ : Fin m → K → K) (xs : List (Row K m)) (a b : Except PyErr (Tree K K m)) : Prop :=
  (∃ e, a = .error e ∧ b = .error e) ∨
  ∃ T T', a = .ok T ∧ b = .ok T' ∧ (∀ r ∈ xs, predict id (moved φ r) T' = predict id r T) ∧ T.nl = T'.nl ∧ T.ht = T'.ht

end CML.DTree
