import Verif.Spec.Rounding
import Verif.Model.Rounded
import Mathlib.Data.Fintype.BigOperators

namespace CML.Float

variable {K : Type*} [Field K] [LinearOrder K]

/-- The number is one of the format. -/
def IsNumber (fl : K → K) (x : K) : Prop := fl x = x

/-- The order of summation adds every number exactly once. -/
def Order.Complete {n : Nat} (o : Order n) : Prop := o.entries.Nodup ∧ ∀ i, i ∈ o.entries

/-- Sums of two numbers of the format have the relative error `u`; all results have the relative error `u` up to the absolute error `eta` (underflow). -/
structure HasError (fl : K → K) (u eta : K) : Prop where
  add : ∀ x y, IsNumber fl x → IsNumber fl y → |fl (x + y) - (x + y)| ≤ u * |x + y|
  any : ∀ x, |fl x - x| ≤ u * |x| + eta

/-- An exponential function of the format: increasing, never negative, 1 at 0, with values in the format. -/
structure IsExp (fl ex : K → K) : Prop where
  mono : ∀ x y, x ≤ y → ex x ≤ ex y
  nonneg : ∀ x, 0 ≤ ex x
  zero : ex 0 = 1
  number : ∀ x, IsNumber fl (ex x)

/-- `wide` is a format with more numbers than `fl`. -/
structure IsWider (fl wide : K → K) : Prop where
  ofNarrow : IsRounding fl
  ofWide : IsRounding wide
  number : ∀ x, IsNumber fl x → IsNumber wide x

/-- The largest entry of a matrix. -/
def IsLargest {m n : Nat} (z : Fin m → Fin n → K) (M : K) : Prop := (∃ i j, z i j = M) ∧ ∀ i j, z i j ≤ M

/-- Results up to `B` in absolute value have an absolute error of at most `eps`. -/
def HasAbsError (fl : K → K) (B eps : K) : Prop := ∀ x, |x| ≤ B → |fl x - x| ≤ eps

/-- The sum of non-negative numbers is not negative. -/
def SumOK (total : List K → K) : Prop := ∀ x : List K, (∀ v ∈ x, 0 ≤ v) → 0 ≤ total x

/-- A rounded square root: non-negative, increasing, with relative error at most `u`. -/
structure IsRoot (fl root : K → K) (u : K) : Prop where
  nonneg : ∀ x, 0 ≤ x → 0 ≤ root x
  mono : ∀ x y, 0 ≤ x → x ≤ y → root x ≤ root y
  low : ∀ x, 0 ≤ x → IsNumber fl x → (1 - u) ^ 2 * x ≤ root x * root x
  high : ∀ x, 0 ≤ x → IsNumber fl x → root x * root x ≤ (1 + u) ^ 2 * x

/-- A logarithm of the format: increasing on the positive numbers, 0 at 1. -/
structure IsLog (lg : K → K) : Prop where
  mono : ∀ x y, 0 < x → x ≤ y → lg x ≤ lg y
  one : lg 1 = 0

/-- The sample weights are numbers of the format between 0 and 1, with total at least `low` and at most `high`. -/
def IsWeighting {n : Nat} (fl : K → K) (low high : K) (w : Fin n → Option K) : Prop :=
  ∃ v : Fin n → K, (∀ i, w i = some (v i) ∧ 0 ≤ v i ∧ v i ≤ 1 ∧ IsNumber fl (v i)) ∧ low ≤ ∑ i, v i ∧ ∑ i, v i ≤ high

end CML.Float
