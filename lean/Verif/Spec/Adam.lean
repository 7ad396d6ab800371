import Verif.Model.Adam
import Verif.Spec.Network

/-! # Specification vocabulary for Adam on a network -/

namespace CML.Net

/-- The derivative with respect to entry (r, c) of the weights of layer `l` in a list of gradients (0 if there is no such layer). -/
def weightGrad (l r c : Nat) (gs : List Grad) : ℝ := ((gs[l]?).map fun g => g.dw.e r c).getD 0

/-- The derivative with respect to entry (0, c) of the bias of layer `l`. -/
def biasGrad (l r c : Nat) (gs : List Grad) : ℝ := ((gs[l]?).map fun g => g.db.e r c).getD 0

end CML.Net
