import Verif.Spec.SmallTrees
import Verif.Spec.SmallTwice

/-! # Small trees whose questions are not tied with another attribute -/

namespace CML.Small

variable {K : Type*} [Field K] [LinearOrder K] {m : Nat}

/-- Every question of the tree has, on the samples that reach it, a smaller weighted Gini index than every candidate question about any other attribute. -/
def T2.NoTies : T2 K m → List (Sample K m) → Prop
  | .leaf _, _ => True
  | .node a t u l, d => (∀ b, b ≠ a → ∀ s ∈ candidatePoints (d.map fun q => q.x b), giniSplit d a t < giniSplit d b s) ∧
      u.NoTies (d.filter fun s => t ≤ s.x a) ∧ l.NoTies (d.filter fun s => s.x a < t)

/-- The stump makes fewer mistakes than every candidate stump that asks about another feature. -/
def Stump.NoTies (s : Stump K m) (data : List ((Fin m → K) × Int)) : Prop :=
  ∀ b, b ≠ s.feature → ∀ t ∈ candidatePoints (data.map fun q => q.1 b), ∀ md, mistakes s.predict data < mistakes (thresholdRule b t md) data

end CML.Small
