import Verif.Prelude
import Mathlib.Algebra.Order.Field.Basic

/-! # Specification of the metrics -/

namespace CML.Metrics

/-- `v` is the fraction of the pairs that satisfy `p`. -/
def IsFraction {K α : Type*} [Field K] (v : K) (p : α → Bool) (l : List α) : Prop :=
  v = ((l.filter p).length : K) / (l.length : K)

end CML.Metrics
