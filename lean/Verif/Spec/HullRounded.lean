import Mathlib.Algebra.Order.Field.Basic
import Mathlib.Data.Int.Cast.Lemmas

/-! # Points of a grid of integers, and roundings that are exact for small integers -/

namespace CML.Hull

variable {K : Type*} [Field K] [LinearOrder K]

/-- The coordinates of the point are integers of absolute value at most `B`. -/
def IsGrid (B : Int) (p : K × K) : Prop := ∃ x y : Int, |x| ≤ B ∧ |y| ≤ B ∧ p = ((x : K), (y : K))

/-- The rounding is exact for the integers up to `N`, and has a relative error of less than `1 / N` for fractions with small denominator. -/
structure ExactUpTo (fl : K → K) (N : Int) : Prop where
  int : ∀ m : Int, |m| ≤ N → fl (m : K) = m
  ratio : ∀ a b : Int, a ≠ 0 → b ≠ 0 → |b| ≤ N → (N : K) * |fl ((a : K) / b) - (a : K) / b| < |(a : K) / b|

end CML.Hull
