import Verif.Model.TraceSpode

/-! # Specification for C325, C326: histories of the one-dependent estimators -/

namespace CML.Failed
open Bayes

variable {V : Type} [DecidableEq V]

/-- A call of `fit` or `load_weights`. -/
def SPCall.trains : SPCall V → Prop
  | .fit .. => True
  | .load .. => True
  | _ => False

/-- Some call of `fit` or `load_weights` in the history completed. -/
def SPReady (emb : List ℝ → List V) (names : List String) (h : List (SPCall V)) : Prop :=
  ∃ pre c post, h = pre ++ c :: post ∧ c.trains ∧ ((run (SPState.step emb names) {} pre).step emb names c).2 = none

/-- The call is no `load_weights` of a complete file. -/
def SPCall.keeps : SPCall V → Prop
  | .load (some _) (some _) (some _) => False
  | _ => True

/-- A call of `fit` or `load_weights`. -/
def AOCall.trains : AOCall V → Prop
  | .fit .. => True
  | .load .. => True
  | _ => False

/-- A call of `fit`. -/
def AOCall.fits : AOCall V → Prop
  | .fit .. => True
  | _ => False

/-- Some call of `fit` or `load_weights` in the history completed. -/
def AOReady (names : List String) (h : List (AOCall V)) : Prop :=
  ∃ pre c post, h = pre ++ c :: post ∧ c.trains ∧ ((run (AOState.step names) {} pre).step names c).2 = none

/-- Some call of `fit` in the history completed. -/
def AOFitted (names : List String) (h : List (AOCall V)) : Prop :=
  ∃ pre c post, h = pre ++ c :: post ∧ c.fits ∧ ((run (AOState.step names) {} pre).step names c).2 = none

end CML.Failed
