import Verif.Model.Metrics
import Verif.Model.Calls

/-!
# `score` and the containers of its labels

`BaseModel.score` (classicML/api/models/base_model.py:43-60) with the Python metrics (classicML/backend/python/metrics.py).  The predictions are what
`predict` returned; the labels come in the container the caller chose.  Column names of a table of labels are strings.
-/

namespace CML.Score
open CML.Metrics

variable {K : Type} [Field K] [LinearOrder K]

/-- What `predict` returned: a number, a vector, or a matrix with `width` columns. -/
inductive Pred (K : Type)
  | zero (a : K)
  | one (l : List K)
  | two (width : Nat) (rows : List (List K))

/-- The labels of the caller: 1-D array, 2-D array with `width` columns, list, list of lists, `Series`, `DataFrame`. -/
inductive Labels (K : Type)
  | array1 (l : List Int)
  | array2 (width : Nat) (rows : List (List K))
  | list (l : List Int)
  | lists (rows : List (List K))
  | series (l : List Int)
  | frame (cols : List String) (rows : List (List K))

/-- What a `predict` of Calls returns as a prediction array (`BaseModel.score` keeps the shape). -/
def ofOut : Calls.Out K → Pred K
  | .scalar a => .zero a
  | .vec l => .one l

/-- metrics.py:89 on an entry of a 2-D array of labels with one column. -/
def wrongNum (p y : K) : Bool :=
  decide ((p < 1 / 2 ∧ y = 1) ∨ (1 / 2 ≤ p ∧ y = 0) ∨ (1 / 2 ≤ p ∧ y = -1))

/-- metrics.py:71-92 with a 2-D array of labels: the truth value of a row with several entries raises `ValueError` (on every row one of the
comparisons with the label is evaluated). -/
def binaryColumns (pred : List K) (width : Nat) (rows : List (List K)) : Except PyErr K :=
  if pred.length = 0 then .error .zeroDivision
  else if width = 1 then
    .ok (((pred.length : K) - ((pred.zip rows).countP fun q => wrongNum q.1 (q.2.headD 0) : Nat)) / (pred.length : K))
  else if rows.length = 0 then .ok 1
  else .error .valueError

/-- metrics.py:71-92 `BinaryAccuracy.__call__`: a list has no `ndim`, a `Series` has no `reshape`; iterating over a `DataFrame` yields the
column names, which equal none of 1, 0, -1. -/
def binaryCall (pred : List K) : Labels K → Except PyErr K
  | .array1 l => binaryAccuracy pred l
  | .array2 w rows => binaryColumns pred w rows
  | .list _ => .error .attributeError
  | .lists _ => .error .attributeError
  | .series _ => .error .attributeError
  | .frame _ _ => if pred.length = 0 then .error .zeroDivision else .ok ((pred.length : K) / (pred.length : K))

/-- metrics.py:107-122 with labels that are numbers: `np.argmax` of a number is 0. -/
def catNumbers (rows : List (List K)) (n : Nat) : Except PyErr K := categoricalAccuracy rows (List.replicate n [0])

/-- metrics.py:107-122 `CategoricalAccuracy.__call__`: `y_true[0]` of a `DataFrame` is a column, which does not exist (`KeyError`). -/
def categoricalCall (rows : List (List K)) : Labels K → Except PyErr K
  | .array1 l => catNumbers rows l.length
  | .array2 _ t => categoricalAccuracy rows t
  | .list l => catNumbers rows l.length
  | .lists t => categoricalAccuracy rows t
  | .series l => catNumbers rows l.length
  | .frame _ t => if t.length = 0 then categoricalAccuracy rows [] else .error .keyError

/-- base_model.py:53-60 `score` and metrics.py:47-63 `Accuracy.__call__`: a vector becomes a column; `y_pred.shape[1]` of a number raises `IndexError`. -/
def scoreCall (pred : Pred K) (y : Labels K) : Except PyErr K :=
  match pred with
  | .zero _ => .error .indexError
  | .one l => binaryCall l y
  | .two w rows => if w = 1 then binaryCall (rows.map fun r => r.headD 0) y else categoricalCall rows y

end CML.Score
