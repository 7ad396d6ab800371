import Verif.Model.SmallTrees
import Verif.Spec.Sym

/-! # Specification: stumps and two-level trees in new units -/

namespace CML.Small

variable {K : Type*} [Field K] {m : Nat}

/-- A stump in the new units. -/
def Stump.rescale (a t : Fin m → K) (s : Stump K m) : Stump K m := { s with point := a s.feature * s.point + t s.feature }

/-- A row in the new units. -/
def Sample.rescale (a t : Fin m → K) (s : Sample K m) : Sample K m := { s with x := CML.rescale a t s.x }

/-- A two-level tree in the new units. -/
def T2.rescale (a t : Fin m → K) : T2 K m → T2 K m
  | .leaf c => .leaf c
  | .node k p u l => .node k (a k * p + t k) (u.rescale a t) (l.rescale a t)

end CML.Small
