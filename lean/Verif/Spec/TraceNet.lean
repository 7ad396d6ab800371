import Verif.Model.TraceNet
import Verif.Spec.Trace

/-! # Specification for C312, C313: histories of a network -/

namespace CML.Failed

/-- The call is one that makes an instance able to predict. -/
def NetCall.trains : NetCall → Prop
  | .fit .. => True
  | .load .. => True
  | _ => False

/-- Loading a complete file. -/
def NetCall.loads : NetCall → Prop
  | .load .. => True
  | _ => False

/-- Some call of the history completed and trained or loaded the instance. -/
def NetReady (lr₀ : ℝ) (o : NetObj) (h : List NetCall) : Prop :=
  ∃ pre c post, h = pre ++ c :: post ∧ c.trains ∧ ((run (NetObj.step lr₀) o pre).step lr₀ c).2 = none

/-- The call with another network structure. -/
def NetCall.restructure (f : List Nat → List Nat) : NetCall → NetCall
  | .compile l lr => .compile (f l) lr
  | .badCompile l lr e => .badCompile (f l) lr e
  | c => c

end CML.Failed
