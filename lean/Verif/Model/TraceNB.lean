import Verif.Model.Trace

/-!
# Histories of calls of a NaiveBayesClassifier

classicML/api/models/bayes/naive_bayes_classifier.py; the attribute names are those given to the constructor. `smoothing` is `None` before `compile`, which counts as
`False` wherever it is used.
-/

namespace CML.Failed
open Bayes

variable {V : Type} [DecidableEq V]

/-- naive_bayes_classifier.py:33-49: the instance. -/
structure NBState (V : Type) where
  smoothing : Bool := false
  obj : NBObj V := {}

/-- A call: `compile`; `fit` on a table with these columns (each as long as the labels); `load_weights` of a complete file; of a file that lacks attributes (those read before the
missing one are given; simplification: `p_0` and `p_1` are missing together); of a file that `io.initialize_weights_file` refuses. -/
inductive NBCall (V : Type)
  | compile (smoothing : Bool)
  | fit (cols : List (Col V)) (y : List Int)
  | load (smoothing : Bool) (p : ℝ × ℝ) (pi0 pi1 : Dict String (Stored V))
  | incomplete (smoothing : Option Bool) (p : Option (ℝ × ℝ)) (pi0 : Option (Dict String (Stored V)))
  | badFile (e : PyErr)

/-- naive_bayes_classifier.py:264-277: a load that meets a missing attribute; the attributes before it are assigned. -/
def NBState.incomplete (o : NBState V) : Option Bool → Option (ℝ × ℝ) → Option (Dict String (Stored V)) → NBState V
  | none, _, _ => o
  | some s, none, _ => ⟨s, o.obj⟩
  | some s, some p, none => ⟨s, { o.obj with prior := some p }⟩
  | some s, some p, some d => ⟨s, { o.obj with prior := some p, pi0 := d }⟩

/-- naive_bayes_classifier.py:51-58, 60-144, 246-277: one call. Line 75 refuses a table with another number of columns than names (`ValueError`). -/
noncomputable def NBState.step (order : List V → List V) (names : List String) (o : NBState V) : NBCall V → NBState V × Option PyErr
  | .compile s => (⟨s, o.obj⟩, none)
  | .fit cols y =>
    if cols.length ≠ names.length then (o, some .valueError)
    else (⟨o.smoothing, (o.obj.fit order o.smoothing (names.zip cols) y).1⟩, (o.obj.fit order o.smoothing (names.zip cols) y).2)
  | .load s p d0 d1 => (⟨s, { o.obj with prior := some p, pi0 := d0, pi1 := d1, loaded := true }⟩, none)
  | .incomplete s p d => (o.incomplete s p d, some .keyError)
  | .badFile e => (o, some e)

/-- naive_bayes_classifier.py:146-232 `predict` for one row with as many values as names. -/
noncomputable def NBState.predict (fl : ℝ → ℝ) (names : List String) (o : NBState V) (x : List (Cell V)) : Except PyErr Int :=
  NBObj.predict fl o.smoothing names o.obj x

end CML.Failed
