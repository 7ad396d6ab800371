import Verif.Spec.Network
import Verif.Spec.RBF

/-! # Specification for C293, C294: the loss after a training step -/

namespace CML.Net

/-- There is a bound such that `step lr`, for every learning rate below it, succeeds and lowers `loss`. -/
def Lowers (loss : List Layer → ℝ) (step : ℝ → Except PyErr (List Layer)) (P : List Layer) : Prop :=
  ∃ bound > 0, ∀ lr, 0 < lr → lr < bound → ∃ P', step lr = .ok P' ∧ loss P' < loss P

/-- A label row with a single 1. -/
def OneHot (k : Nat) (y : ℕ → ℝ) : Prop := ∃ c < k, ∀ j < k, y j = if j = c then 1 else 0

end CML.Net

namespace CML.RBF

/-- Half of the mean squared error of the network `P` with `h` hidden units on the samples `x` with label column `y`. -/
noncomputable def errorOf (h : Nat) (x y : Net.Mat) (P : Params) : ℝ :=
  halfMSE x.rows h 2 (P.w.e 0) (P.beta.e 0) (P.b.e 0 0) P.c.e x.e fun i => y.e i 0

/-- The network computes the label of every sample. -/
def FitsExactly (h : Nat) (x y : Net.Mat) (P : Params) : Prop :=
  ∀ i < x.rows, output h 2 (P.w.e 0) (P.beta.e 0) (P.b.e 0 0) P.c.e (x.e i) = y.e i 0

end CML.RBF
