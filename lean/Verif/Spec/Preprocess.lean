import Verif.Prelude
import Mathlib.Algebra.Order.Field.Basic
import Mathlib.Algebra.BigOperators.Group.List.Basic
import Mathlib.Data.Finset.Card
import Mathlib.Data.Finset.Dedup

/-! # Specification of the pre-processors -/

namespace CML.Prep

variable {K : Type*} [Field K]

/-- `m` is the mean of the (non-empty) list. -/
def IsMean (l : List K) (m : K) : Prop := l ≠ [] ∧ m * l.length = l.sum

/-- `s` is the (population) variance of the (non-empty) list. -/
def IsVar (l : List K) (s : K) : Prop := ∃ m, IsMean l m ∧ IsMean (l.map fun v => (v - m) ^ 2) s

/-- `r` is the row of length `n` with a 1 in column `j` and 0 elsewhere. -/
def IsUnitRow (r : List K) (n j : Nat) : Prop := r.length = n ∧ j < n ∧ ∀ k < n, r[k]? = some (if k = j then 1 else 0)

/-- Number of classes of a label list. -/
def numClasses {α : Type*} [DecidableEq α] (labels : List α) : Nat := labels.toFinset.card

/-- The class index of `l`: the number of classes smaller than `l`. -/
def rank {α : Type*} [LinearOrder α] (labels : List α) (l : α) : Nat := (labels.toFinset.filter (· < l)).card

/-- `c` occurs in the list at least as often as anything else. -/
def MostFrequent {α : Type*} [DecidableEq α] (l : List α) (c : α) : Prop := c ∈ l ∧ ∀ a, l.count a ≤ l.count c

/-- Numbers with a 24-bit significand (the single-precision numbers without a bound on the exponent). -/
def Float32 (x : ℚ) : Prop := ∃ m e : ℤ, |m| < 2 ^ 24 ∧ x = m * (2 : ℚ) ^ e

end CML.Prep
