import Verif.Model.TraceGMM
import Verif.Spec.Trace

/-! # Specification for C318, C319: histories of Gaussian mixtures and RBF networks -/

namespace CML.Failed

variable {I M S A X C R D P L Y : Type}

/-- A call that makes the mixture able to predict if it completes. -/
def GMCall.trains : GMCall I M S A X C → Prop
  | .fit .. => True
  | .load .. => True
  | _ => False

/-- Some call of `fit` or `load_weights` in the history completed. -/
def GMReady (ops : GMOps I M S A X C) (h : List (GMCall I M S A X C)) : Prop :=
  ∃ pre c post, h = pre ++ c :: post ∧ c.trains ∧ ((run (GMState.step ops) {} pre).step ops c).2 = none

/-- The call completed, or it is a `fit` that failed only when the trained mixture was asked for the clusters of its samples. -/
def GMState.Good (ops : GMOps I M S A X C) (o : GMState I M S A C) (c : GMCall I M S A X C) : Prop :=
  c.trains ∧ ((o.step ops c).2 = none ∨ ∃ x n e m s a, c = .fit x n ∧ (o.step ops c).2 = some e ∧ (o.step ops c).1.mu = some m ∧ (o.step ops c).1.sigma = some s ∧
    (o.step ops c).1.alpha = some a ∧ (o.step ops c).1.trained = true ∧ ops.clusters x (m, s, a) = .error e)

/-- A call of `fit` or `load_weights`. -/
def RBCall.trains : RBCall R D P L → Prop
  | .fit .. => True
  | .load .. => True
  | _ => False

/-- A call of `load_weights` of a complete file. -/
def RBCall.loads : RBCall R D P L → Prop
  | .load .. => True
  | _ => False

/-- Some call of `fit` or `load_weights` in the history completed. -/
def RBReady (init : Nat → R → P) (train : L → D → P → P × Option PyErr) (h : List (RBCall R D P L)) : Prop :=
  ∃ pre c post, h = pre ++ c :: post ∧ c.trains ∧ ((run (RBState.step init train) {} pre).step init train c).2 = none

end CML.Failed
