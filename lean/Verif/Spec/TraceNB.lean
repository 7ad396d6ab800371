import Verif.Model.TraceNB
import Verif.Spec.Trace

/-! # Specification for C314, C315: histories of a naive Bayes classifier -/

namespace CML.Failed

/-- A call that makes the classifier able to predict if it completes. -/
def NBCall.trains {V : Type} : NBCall V → Prop
  | .fit .. => True
  | .load .. => True
  | _ => False

/-- Some call of the history trained or loaded the classifier and completed. -/
def NBReady {V : Type} [DecidableEq V] (order : List V → List V) (names : List String) (h : List (NBCall V)) : Prop :=
  ∃ pre c post, h = pre ++ c :: post ∧ c.trains ∧ ((run (NBState.step order names) {} pre).step order names c).2 = none

end CML.Failed
