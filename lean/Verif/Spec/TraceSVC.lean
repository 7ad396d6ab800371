import Verif.Model.TraceSVC

/-! # Specifications about histories of a support vector classifier -/

namespace CML.SVC

variable {K N : Type} [Field K] [LinearOrder K]

/-- The call is a `fit` or a `load_weights`, and it completed. -/
def Learned : Call K N × Option PyErr → Prop
  | (.fit .., none) => True
  | (.load _, none) => True
  | _ => False

/-- Both instances answer every table in the same way. -/
def Alike (o o' : Obj K N) : Prop := ∀ rows, o.predict rows = o'.predict rows

/-- The calls are calls of `fit` (completed or not). -/
def OnlyFits (h : List (Call K N × Option PyErr)) : Prop := ∀ p ∈ h, ∃ n perms x y d epochs, p.1 = .fit n perms x y d epochs

end CML.SVC
