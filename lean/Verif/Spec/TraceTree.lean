import Verif.Model.TraceTree
import Verif.Spec.Trace

/-! # Specification for C316, C317: histories of a decision tree classifier -/

namespace CML.Failed

/-- A call that makes the classifier able to predict if it completes. -/
def TreeCall.trains {D T : Type} : TreeCall D T → Prop
  | .fit .. => True
  | .load .. => True
  | _ => False

/-- A call of `load_weights`. -/
def TreeCall.loads {D T : Type} : TreeCall D T → Prop
  | .load .. => True
  | _ => False

/-- Some call of the history trained or loaded the classifier and completed. -/
def TreeReady {D T : Type} (gen : String → D → Except PyErr T) (prune : Pruning → D → D → T → T × Option PyErr) (h : List (TreeCall D T)) : Prop :=
  ∃ pre c post, h = pre ++ c :: post ∧ c.trains ∧ ((run (TreeState.step gen prune) {} pre).step gen prune c).2 = none

end CML.Failed
