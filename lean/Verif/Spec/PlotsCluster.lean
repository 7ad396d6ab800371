import Verif.Model.PlotsCluster
import Verif.Spec.Hull

/-! # Specifications for the figures of the clusterings -/

namespace CML.PlotsCluster

variable {K : Type*} {d : Nat}

/-- A point inside of the axes, the unit square (`plt.axis([0, 1, 0, 1])`, classicML/api/plots/utils.py:89). -/
def Visible [Field K] [LinearOrder K] (p : K × K) : Prop := 0 ≤ p.1 ∧ p.1 ≤ 1 ∧ 0 ≤ p.2 ∧ p.2 ≤ 1

/-- The points of the samples with label `c`. -/
def labelled (points : List (K × K)) (labels : List Nat) (c : Nat) : List (K × K) :=
  ((points.zip labels).filter fun p => p.2 = c).map Prod.fst

/-- The sort by x used by `ConvexHull`: some permutation that is increasing in x. -/
def SortsByX [Field K] [LinearOrder K] (argsort : List (K × K) → List (K × K)) : Prop := ∀ l, Hull.IsArgsort l (argsort l)

/-- A closed line through points of `pts` only, starting at a leftmost one, which goes around them without right turn. -/
def Outlines [Field K] [LinearOrder K] (pts hull : List (K × K)) : Prop :=
  ∃ start body, hull = start :: body ++ [start] ∧ (∀ q ∈ pts, start.1 ≤ q.1) ∧ (∀ v ∈ hull, v ∈ pts) ∧ body ≠ [] ∧ Hull.NoRightTurn (start :: body)

end CML.PlotsCluster
