import Verif.Model.SmallTrees
import Verif.Spec.Tree

/-! # Specification of decision stumps and two-level trees -/

namespace CML.Small

variable {K : Type*} [Field K] [LinearOrder K] {m : Nat}

/-- Number of samples a rule gets wrong. -/
def mistakes (rule : (Fin m → K) → Int) (data : List ((Fin m → K) × Int)) : Nat :=
  (data.filter fun q => rule q.1 ≠ q.2).length

/-- The threshold rule "minus one on the side given by the mode". -/
def thresholdRule (i : Fin m) (t : K) (md : Mode) (r : Fin m → K) : Int :=
  if (md = .gte ∧ t ≤ r i) ∨ (md = .le ∧ r i < t) then -1 else 1

/-- `t` is the midpoint of two values of the column, with no value strictly between them. -/
def ConsecutiveMidpoint (col : List K) (t : K) : Prop :=
  ∃ a ∈ col, ∃ b ∈ col, a ≤ b ∧ (∀ c ∈ col, c ≤ a ∨ b ≤ c) ∧ t = (a + b) / 2

/-- Number of leaves. -/
def T2.leaves : T2 K m → Nat
  | .leaf _ => 1
  | .node _ _ u l => u.leaves + l.leaves

/-- Depth. -/
def T2.depth : T2 K m → Nat
  | .leaf _ => 0
  | .node _ _ u l => max u.depth l.depth + 1

/-- The leaves, each with the samples that reach it. -/
def T2.reach : T2 K m → List (Sample K m) → List (Int × List (Sample K m))
  | .leaf c, d => [(c, d)]
  | .node a t u l, d => u.reach (d.filter fun s => t ≤ s.x a) ++ l.reach (d.filter fun s => s.x a < t)

/-- Total weight of the samples with a property. -/
def weightWhere (p : Sample K m → Bool) (d : List (Sample K m)) : K := ((d.filter p).map Sample.w).sum

/-- Weighted Gini index of a labelled, weighted set (written with the set of its labels). -/
def giniIndex (d : List (Sample K m)) : K :=
  1 - ((d.map Sample.y).dedup.map fun c => (weightWhere (fun s => s.y = c) d / weightWhere (fun _ => true) d) ^ 2).sum

/-- Weighted Gini index of a split. -/
def giniSplit (d : List (Sample K m)) (a : Fin m) (t : K) : K :=
  (weightWhere (fun s => t ≤ s.x a) d * giniIndex (d.filter fun s => t ≤ s.x a) +
    weightWhere (fun s => s.x a < t) d * giniIndex (d.filter fun s => s.x a < t)) / weightWhere (fun _ => true) d

end CML.Small
