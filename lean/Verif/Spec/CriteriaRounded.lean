import Verif.Spec.Criteria
import Verif.Spec.Rounded

/-! # Specification of the criteria in floating point -/

namespace CML.DTree
open CML.Float

variable {V : Type*} {K : Type*} {m : Nat} [Field K] [LinearOrder K]

/-- The sum of a list is computed by adding all its entries in some order. -/
def IsTotal (fl : K → K) (total : List K → K) : Prop :=
  total [] = 0 ∧ ∀ l, l ≠ [] → ∃ o : Order l.length, o.Complete ∧ total l = o.sum fl l.get

/-- A logarithm to the base 2: increasing on the positive numbers, exact for the powers 1, 1/2, 1/4, …, down to the smallest number of double precision. -/
structure IsLog2 (lg : K → K) : Prop where
  mono : ∀ x y, 0 < x → x ≤ y → lg x ≤ lg y
  pow : ∀ k : Nat, k ≤ 1074 → lg (1 / 2 ^ k) = -k

/-- The tests an attribute offers: comparison with the rounded midpoint of neighbouring values, or a branch per value. -/
def Offers (fc : K → K) (num : V → K) (continuous : Bool) (D : List V) : Option K → Prop
  | some t => continuous = true ∧ ∃ a ∈ D.map num, ∃ b ∈ D.map num, a < b ∧ (∀ c ∈ D.map num, c ≤ a ∨ b ≤ c) ∧ t = fc (fc (a + b) / 2)
  | none => continuous = false

/-- After the test all samples of a group have the same label. -/
def Perfect [DecidableEq V] (num : V → K) (D : List V) (y : List Int) : Option K → Prop
  | some t => Pure (labelsWhere (fun v => decide (t ≤ num v)) D y) ∧ Pure (labelsWhere (fun v => decide (num v < t)) D y)
  | none => ∀ v, Pure (labelsWhere (fun w => decide (w = v)) D y)

/-- An impurity for up to `N` samples: 0 if all labels are equal, at least `delta` and at most `top` otherwise. -/
structure IsImpurity (imp : List Int → K) (N : Nat) (delta top : K) : Prop where
  pure : ∀ y, y ≠ [] → Pure y → imp y = 0
  impure : ∀ y, ¬ Pure y → y.length ≤ N → delta ≤ imp y ∧ imp y ≤ top

end CML.DTree
