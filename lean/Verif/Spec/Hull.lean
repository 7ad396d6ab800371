import Verif.Model.Hull

/-! # Specification of a convex hull -/

namespace CML.Hull

variable {K : Type*} [Field K] [LinearOrder K]

/-- Twice the signed area of the triangle `u v q`: positive if `q` is to the left of the directed line from `u` to `v`. -/
def area (u v q : K × K) : K :=
  (v.1 - u.1) * (q.2 - u.2) - (q.1 - u.1) * (v.2 - u.2)

/-- `q` is on or to the left of every edge (pair of consecutive vertices) of the polygonal line. -/
def LeftOfEdges (poly : List (K × K)) (q : K × K) : Prop :=
  ∀ l₁ u v l₂, poly = l₁ ++ u :: v :: l₂ → 0 ≤ area u v q

/-- No three consecutive vertices make a right turn. -/
def NoRightTurn (poly : List (K × K)) : Prop :=
  ∀ l₁ u v w l₂, poly = l₁ ++ u :: v :: w :: l₂ → 0 ≤ area u v w

/-- Exactly one of the points (counted with repetitions) has the smallest x. -/
def UniqueLeftmost (points : List (K × K)) : Prop :=
  ∃ l₁ s l₂, points = l₁ ++ s :: l₂ ∧ ∀ q ∈ l₁ ++ l₂, s.1 < q.1

end CML.Hull
