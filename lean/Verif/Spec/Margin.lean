import Verif.Model.Tree
import Mathlib.Analysis.SpecialFunctions.Pow.Real

/-! # Distances between rows, and the questions of a tree (for C334) -/

namespace CML

/-- The Euclidean distance of two rows. -/
noncomputable def rowDist {d : Nat} (u v : Fin d → ℝ) : ℝ := √(∑ k, (u k - v k) ^ 2)

/-- The Euclidean length of a row. -/
noncomputable def rowNorm {d : Nat} (u : Fin d → ℝ) : ℝ := √(∑ k, u k ^ 2)

namespace DTree

mutual
/-- The continuous questions of a tree: attribute and dividing point. -/
def Tree.questions {V K : Type} {m : Nat} : Tree V K m → List (Fin m × K)
  | .leaf _ => []
  | .cont a t _ _ g l => (a, t) :: (g.questions ++ l.questions)
  | .disc _ _ _ br => br.questions
/-- The continuous questions in the branches of a discrete node. -/
def Forest.questions {V K : Type} {m : Nat} : Forest V K m → List (Fin m × K)
  | .nil => []
  | .cons _ t r => t.questions ++ r.questions
end

end DTree
end CML
