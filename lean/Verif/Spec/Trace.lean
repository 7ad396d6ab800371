import Verif.Model.Trace
import Verif.Spec.FailedFit

/-! # Specifications about histories of calls -/

namespace CML.Failed

/-- Some call of the history completed (raised nothing) at the moment it was made. -/
def SomeCompleted {O E : Type*} (step : O → E → O × Option PyErr) (o : O) (h : List E) : Prop :=
  ∃ pre c post, h = pre ++ c :: post ∧ (step (run step o pre) c).2 = none

end CML.Failed
