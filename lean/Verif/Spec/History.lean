import Verif.Model.History

/-! # Specification of the history -/

namespace CML.Hist

variable {V K : Type}

/-- The value that a call records in the list `w`; `key` is the engine's name of the second parameter. -/
def Op.recorded (key : String) (w : Which) : Op V → Option V
  | .call l m => some (match w with | .loss => l | .metric => m)
  | .named k l m => if k = key then some (match w with | .loss => l | .metric => m) else none
  | _ => none

/-- The values of all calls, in order. -/
def recorded (key : String) (w : Which) (ops : List (Op V)) : List V :=
  ops.filterMap (Op.recorded key w)

/-- The two values of a call, `none` for other steps. -/
def Op.values : Op V → Option (V × V)
  | .call l m => some (l, m)
  | .named _ l m => some (l, m)
  | _ => none

/-- Every value of every call is a number. -/
def Numeric (num : V → Option K) (ops : List (Op V)) : Prop :=
  ∀ o ∈ ops, ∀ l m, o.values = some (l, m) → (∃ a, num l = some a) ∧ ∃ b, num m = some b

/-- The step leaves the lists that the history handed out alone. -/
def Op.HandsOff : Op V → Prop
  | .append _ _ => False
  | .assign _ _ => False
  | _ => True

/-- The step is a call with both arguments by position. -/
def Op.Positional : Op V → Prop
  | .call _ _ => True
  | _ => False

end CML.Hist
