import Verif.Model.Trace
import Verif.Model.Spode

/-!
# Histories of calls of the one-dependent estimators

classicML/api/models/bayes/semi_naive_bayes_classifiers.py; the attribute names are those given to the constructor and are supposed distinct. Every stored attribute keeps the value of
`smoothing` it was fitted with (line 213), so every element of `_list_of_p_c` comes with its own flag.
-/

namespace CML.Failed
open Bayes

variable {V : Type} [DecidableEq V]

/-- semi_naive_bayes_classifiers.py:209-215: an element of `_list_of_p_c` with the value of `smoothing` of the call of `fit` that made it. -/
abbrev Flagged (V : Type) := Entry V × Bool

/-- semi_naive_bayes_classifiers.py:157-215: the elements made by one call of `fit`. -/
noncomputable def madeBy (cols : List (Col V)) (sp : List V) (y : List Int) (smoothing : Bool) : List (Flagged V) :=
  (spodeEntries cols sp y smoothing).map fun e => (e, smoothing)

/-- semi_naive_bayes_classifiers.py:367-414: the factors of the elements of one class, each with its own `smoothing` (lines 397, 413). -/
noncomputable def ownFactors (fl : ℝ → ℝ) (c : Int) (x : List (Cell V)) : List (Flagged V) → Except PyErr (List (Option ℝ))
  | [] => .ok []
  | e :: es =>
    if e.1.cat = c then
      match entryFactors fl e.2 e.1 x with
      | .error err => .error err
      | .ok ps => match ownFactors fl c x es with
        | .error err => .error err
        | .ok qs => .ok (ps ++ qs)
    else ownFactors fl c x es

/-- semi_naive_bayes_classifiers.py:239-267, 339-365: the class of one row. -/
noncomputable def answer (fl : ℝ → ℝ) (es : List (Flagged V)) (x : List (Cell V)) : Except PyErr Int :=
  match ownFactors fl 0 x es, ownFactors fl 1 x es with
  | .ok f0, .ok f1 => .ok (label (score (some 0) f0) (score (some 0) f1))
  | .error e, _ => .error e
  | _, .error e => .error e

/-! ## SuperParentOneDependentEstimator -/

/-- semi_naive_bayes_classifiers.py:109-122: the instance; `None` for `smoothing` counts as `False`. -/
structure SPState (V : Type) where
  superName : Option String := none
  superIndex : Option Nat := none
  smoothing : Bool := false
  entries : List (Flagged V) := []
  trained : Bool := false
  loaded : Bool := false

/-- A call: `compile`; `fit` on a table with these columns (each as long as the labels); `load_weights` of a file that passes the checks of `io.initialize_weights_file`, with the
attributes it contains; of a file that does not pass them. -/
inductive SPCall (V : Type)
  | compile (name : String) (smoothing : Bool)
  | fit (cols : List (Col V)) (y : List Int)
  | load (name : Option String) (smoothing : Option Bool) (entries : Option (List (Flagged V)))
  | badFile (e : PyErr)

/-- semi_naive_bayes_classifiers.py:136-219 `fit`. Line 150 refuses a table with another number of columns than names (`ValueError`); lines 154-156 look for the super-parent; without
labels nothing more is looked at; line 159 raises `ValueError` without a super-parent and `IndexError` for a column that does not exist. `emb` turns the numbers of a continuous column
into values. -/
noncomputable def SPState.fit (emb : List ℝ → List V) (names : List String) (o : SPState V) (cols : List (Col V)) (y : List Int) : SPState V × Option PyErr :=
  if cols.length ≠ names.length then (o, some .valueError)
  else
    let i := findIndex o.superName o.superIndex names 0
    if y = [] then ({ o with superIndex := i, trained := true }, none)
    else match i with
      | none => ({ o with superIndex := i }, some .valueError)
      | some k => match cols[k]? with
        | none => ({ o with superIndex := i }, some .indexError)
        | some c => ({ o with superIndex := i, entries := o.entries ++ madeBy cols (superValues emb c) y o.smoothing, trained := true }, none)

/-- semi_naive_bayes_classifiers.py:281-311 `load_weights`: the attributes are assigned one after the other; a missing one is a `KeyError`. -/
def SPState.load (o : SPState V) : Option String → Option Bool → Option (List (Flagged V)) → SPState V × Option PyErr
  | none, _, _ => (o, some .keyError)
  | some n, none, _ => ({ o with superName := some n }, some .keyError)
  | some n, some s, none => ({ o with superName := some n, smoothing := s }, some .keyError)
  | some n, some s, some es => ({ o with superName := some n, smoothing := s, entries := es, loaded := true }, none)

/-- semi_naive_bayes_classifiers.py:124-134, 136-219, 281-311: one call. -/
noncomputable def SPState.step (emb : List ℝ → List V) (names : List String) (o : SPState V) : SPCall V → SPState V × Option PyErr
  | .compile n s => ({ o with superName := some n, smoothing := s }, none)
  | .fit cols y => o.fit emb names cols y
  | .load n s es => o.load n s es
  | .badFile e => (o, some e)

/-- semi_naive_bayes_classifiers.py:221-267 `predict` for one row: `ValueError` before training; `ValueError` for another number of values than names. -/
noncomputable def SPState.predict (fl : ℝ → ℝ) (names : List String) (o : SPState V) (x : List (Cell V)) : Except PyErr Int :=
  if o.trained = false ∧ o.loaded = false then .error .valueError
  else if x.length ≠ names.length then .error .valueError
  else answer fl o.entries x

/-! ## AveragedOneDependentEstimator -/

/-- semi_naive_bayes_classifiers.py:431-442: the instance; `pool` is `_list_of_p_c`. -/
structure AOState (V : Type) where
  smoothing : Bool := false
  m : Nat := 0
  pool : List (Flagged V) := []
  attr : List (List (Flagged V)) := []
  trained : Bool := false
  loaded : Bool := false

/-- A call, as for the super-parent estimator. -/
inductive AOCall (V : Type)
  | compile (smoothing : Bool) (m : Nat)
  | fit (cols : List (Col V)) (y : List Int)
  | load (smoothing : Option Bool) (m : Option Nat) (attr : Option (List (List (Flagged V))))
  | badFile (e : PyErr)

/-- semi_naive_bayes_classifiers.py:456-497 `fit`. Line 470 empties `_attribute_list` before line 473 can refuse the table; `_list_of_p_c` is never emptied, and all elements of
`_attribute_list` are this one list. -/
noncomputable def AOState.fit (names : List String) (o : AOState V) (cols : List (Col V)) (y : List Int) : AOState V × Option PyErr :=
  if cols.length ≠ names.length then ({ o with attr := [] }, some .valueError)
  else
    let pool := (superParents o.m cols).foldl (fun acc sp => acc ++ madeBy cols sp y o.smoothing) o.pool
    ({ o with pool := pool, attr := List.replicate (superParents o.m cols).length pool, trained := true }, none)

/-- semi_naive_bayes_classifiers.py:541-571 `load_weights`: `_list_of_p_c` is not touched. -/
def AOState.load (o : AOState V) : Option Bool → Option Nat → Option (List (List (Flagged V))) → AOState V × Option PyErr
  | none, _, _ => (o, some .keyError)
  | some s, none, _ => ({ o with smoothing := s }, some .keyError)
  | some s, some m, none => ({ o with smoothing := s, m := m }, some .keyError)
  | some s, some m, some a => ({ o with smoothing := s, m := m, attr := a, loaded := true }, none)

/-- semi_naive_bayes_classifiers.py:444-454, 456-497, 541-571: one call. -/
noncomputable def AOState.step (names : List String) (o : AOState V) : AOCall V → AOState V × Option PyErr
  | .compile s m => ({ o with smoothing := s, m := m }, none)
  | .fit cols y => o.fit names cols y
  | .load s m a => o.load s m a
  | .badFile e => (o, some e)

/-- semi_naive_bayes_classifiers.py:359-363, 611-614: the elements used for the `i`-th member of `_attribute_list`; a file with more members than names (`IndexError`) is not modelled. -/
noncomputable def usedBy (num : V → Option ℝ) (attr : List (List (Flagged V))) (x : List (Cell V)) (i : Nat) : List (Flagged V) :=
  match attr[i]?, x[i]? with
  | some es, some c => es.filter fun e => c.is num e.1.value
  | _, _ => []

/-- semi_naive_bayes_classifiers.py:499-527 `predict` for one row, 600-619 `_predict`. -/
noncomputable def AOState.predict (fl : ℝ → ℝ) (num : V → Option ℝ) (names : List String) (o : AOState V) (x : List (Cell V)) : Except PyErr Int :=
  if o.trained = false ∧ o.loaded = false then .error .valueError
  else if x.length ≠ names.length then .error .valueError
  else answer fl ((List.range o.attr.length).flatMap (usedBy num o.attr x)) x

end CML.Failed
