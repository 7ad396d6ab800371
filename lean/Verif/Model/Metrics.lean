import Verif.Prelude
import Mathlib.Algebra.Order.Field.Basic

/-!
# Model of the metrics

classicML/backend/python/metrics.py, classicML/backend/cc/metrics/metrics.cc and `BaseModel.score`
(classicML/api/models/base_model.py:43-60).  Predictions are numbers in an ordered field; labels are integers.
-/

namespace CML.Metrics

variable {K : Type*} [Field K] [LinearOrder K]

/-- metrics.py:92: the test that takes one off the score. -/
def wrong (p : K) (y : Int) : Bool :=
  decide ((p < 1 / 2 ∧ y = 1) ∨ (1 / 2 ≤ p ∧ y = 0) ∨ (1 / 2 ≤ p ∧ y = -1))

/-- metrics.py:77-95 `BinaryAccuracy.__call__` on a column of predictions; `zip` stops at the shorter array, the divisor is the
number of predictions. -/
def binaryAccuracy (pred : List K) (y : List Int) : Except PyErr K :=
  if pred.length = 0 then .error .zeroDivision
  else .ok (((pred.length : K) - ((pred.zip y).countP fun q => wrong q.1 q.2 : Nat)) / (pred.length : K))

/-- metrics.cc:61-80 `BinaryAccuracy::PyCall`: as above after a shape check (only non-empty arrays are modelled). -/
def binaryAccuracyCC (pred : List K) (y : List Int) : Except PyErr K :=
  if pred.length ≠ y.length then .error .valueError else binaryAccuracy pred y

/-- `[np.argmax(a[i]) for i in range(len(a))]`; an empty row raises `ValueError`. -/
def argmaxRows (a : List (List K)) : Option (List Nat) := a.mapM argmax?

/-- metrics.py:109-124 `CategoricalAccuracy.__call__`; `np.equal` broadcasts an array of length 1 and raises `ValueError` for other
length mismatches; the mean of nothing is NaN, modelled as an error. -/
def categoricalAccuracy (pred true' : List (List K)) : Except PyErr K :=
  match argmaxRows pred, argmaxRows true' with
  | some p, some t =>
    let pairs := if p.length = t.length then some (p.zip t)
      else if t.length = 1 then some (p.flatMap fun a => t.map fun b => (a, b))
      else if p.length = 1 then some (p.flatMap fun a => t.map fun b => (a, b))
      else none
    match pairs with
    | none => .error .valueError
    | some l => if l.length = 0 then .error .zeroDivision
      else .ok ((l.countP fun q => decide (q.1 = q.2) : Nat) / (l.length : K))
  | _, _ => .error .valueError

/-- metrics.cc:87-107: the loop of `CategoricalAccuracy::PyCall`, taking one off for every row whose first maxima differ
(`maxCoeff` of an empty row is an assertion failure, modelled as `none`). -/
def catLoopCC : List (List K × List K) → K → Option K
  | [], acc => some acc
  | (p, t) :: rest, acc =>
    match argmax? p, argmax? t with
    | some a, some b => catLoopCC rest (if b ≠ a then acc - 1 else acc)
    | _, _ => none

/-- metrics.cc:87-107 `CategoricalAccuracy::PyCall`: shape check, loop, division (zero rows give NaN, modelled as an error; rows of
each matrix have equal lengths in the code). -/
def categoricalAccuracyCC (pred true' : List (List K)) : Except PyErr K :=
  if pred.length ≠ true'.length ∨ pred.map List.length ≠ true'.map List.length then .error .valueError
  else match catLoopCC (pred.zip true') (pred.length : K) with
    | none => .error .valueError
    | some acc => if pred.length = 0 then .error .zeroDivision else .ok (acc / (pred.length : K))

/-- base_model.py:43-60 `score` for a classifier whose `predict` returns a vector of labels (it becomes one column, so
`Accuracy` chooses `BinaryAccuracy`). -/
def score (predicted : List Int) (y : List Int) : Except PyErr K :=
  binaryAccuracy (predicted.map fun c : Int => (c : K)) y

end CML.Metrics
