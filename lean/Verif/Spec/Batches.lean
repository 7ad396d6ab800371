import Mathlib.Algebra.Field.Basic

/-! # Specification for C327, C328: evaluation in two batches -/

namespace CML

/-- `v` is the mean of `a` and `b`, weighted with the numbers of samples `n` and `m`. -/
def IsWeighted {K : Type*} [Field K] (n m : Nat) (a b v : K) : Prop := v = ((n : K) * a + (m : K) * b) / ((n : K) + (m : K))

end CML
