import Verif.Dict
import Mathlib.Algebra.Order.Field.Basic
import Mathlib.Algebra.BigOperators.Group.List.Basic

/-!
# Model of the pre-processors (classicML/backend/python/data/preprocessing.py)

Numbers are elements of a field `K` with exact arithmetic; `none : Option K` is a value that is not a finite
number (`NaN` or infinity, the result of a division by zero).  Conversions to the working precision
(`np.asarray(.., dtype=float32)`) are a function `fl : K → K`.
-/

namespace CML.Prep

variable {K : Type*} [Field K] [LinearOrder K]

/-- Division with numpy's result for a zero divisor (not a finite number). -/
def npDiv (a b : K) : Option K := if b = 0 then none else some (a / b)

/-! ## Scalers on a one-dimensional array -/

/-- preprocessing.py:226-241 `MinMaxScaler.__call__` on a 1-D array: the attributes `min`, `max` and the result;
`np.min` of an empty array raises `ValueError`. -/
def minMaxCall (x : List K) : Except PyErr ((K × K) × List (Option K)) :=
  match x.min?, x.max? with
  | some lo, some hi => .ok ((lo, hi), x.map fun v => npDiv (v - lo) (hi - lo))
  | _, _ => .error .valueError

/-- preprocessing.py:243-255 `MinMaxScaler.inverse` on a 1-D array, with the stored `(min, max)`. -/
def minMaxInverse (st : K × K) (z : List (Option K)) : List (Option K) :=
  z.map fun v => v.map fun v => v * (st.2 - st.1) + st.1

/-- `np.mean` of a 1-D array. -/
def mean (x : List K) : Option K := npDiv x.sum (x.length : K)

/-- `np.var` of a 1-D array: the mean of the squared deviations. -/
def var (x : List K) : Option K :=
  (mean x).bind fun m => mean (x.map fun v => (v - m) * (v - m))

/-- preprocessing.py:346-361 `StandardScaler.__call__` on a 1-D array; note the division by the variance (line 359).
An empty array gives an empty result and `NaN` attributes. -/
def standardCall (x : List K) : (Option K × Option K) × List (Option K) :=
  ((mean x, var x), x.map fun v => (mean x).bind fun m => (var x).bind fun s => npDiv (v - m) s)

/-- preprocessing.py:363-375 `StandardScaler.inverse` on a 1-D array. -/
def standardInverse (st : Option K × Option K) (z : List (Option K)) : List (Option K) :=
  z.map fun v => v.bind fun v => st.1.bind fun m => st.2.map fun s => v * s + m

/-! ## Scalers on a table -/

/-- A 2-D array. -/
structure Tab (K : Type*) where
  rows : Nat
  cols : Nat
  e : Nat → Nat → K

/-- Row `i` of a table. -/
def Tab.row (t : Tab K) (i : Nat) : List K := (List.range t.cols).map (t.e i)

/-- Column `j` of a table. -/
def Tab.col (t : Tab K) (j : Nat) : List K := (List.range t.rows).map fun i => t.e i j

/-- numpy broadcasting of a table with a vector of length `n`: the vector is aligned with the LAST axis.  `cell v j` is the
result for the table entry `v` and the vector entry number `j`. -/
def broadcastLast {β : Type*} (cell : K → Nat → β) (t : Tab K) (n : Nat) : Except PyErr (Tab β) :=
  if t.cols = n then .ok ⟨t.rows, t.cols, fun i j => cell (t.e i j) j⟩
  else if n = 1 then .ok ⟨t.rows, t.cols, fun i j => cell (t.e i j) 0⟩
  else if t.cols = 1 then .ok ⟨t.rows, n, fun i j => cell (t.e i 0) j⟩
  else .error .valueError

/-- One entry of preprocessing.py:239, `v` scaled with the minimum and maximum of `l`. -/
def minMaxCell (l : List K) (v : K) : Option K :=
  match l.min?, l.max? with
  | some lo, some hi => npDiv (v - lo) (hi - lo)
  | _, _ => none

/-- One entry of preprocessing.py:359, `v` scaled with the mean and variance of `l`. -/
def standardCell (l : List K) (v : K) : Option K :=
  (mean l).bind fun m => (var l).bind fun s => npDiv (v - m) s

/-- preprocessing.py:226-241 (346-361) `__call__` of a scaler on a non-empty table with the default `axis=-1`: the statistics have
shape `(rows,)` and are broadcast along the last axis.  (The two broadcasts `data - a` and `.. / b` have the same shapes; they
are merged into one.) -/
def scaleTable (cell : List K → K → Option K) (t : Tab K) : Except PyErr (Tab (Option K)) :=
  broadcastLast (fun v i => cell (t.row i) v) t t.rows

/-- The same with `axis=0`: the statistics have shape `(cols,)`. -/
def scaleTable0 (cell : List K → K → Option K) (t : Tab K) : Except PyErr (Tab (Option K)) :=
  broadcastLast (fun v j => cell (t.col j) v) t t.cols

/-! ## Encoders -/

section Encoders
variable {α : Type*} [LinearOrder α]

/-- The loop `for index, value in enumerate(num_classes): class_indices.update({value: f(index)})`
(preprocessing.py:82-83, 184-185, 298-303). -/
def fillIndices {β : Type*} (d : Dict α β) (f : Nat → β) (classes : List α) : Dict α β :=
  classes.zipIdx.foldl (fun d p => d.set p.1 (f p.2)) d

/-- `d[label]`, raising `KeyError`. -/
def look {β : Type*} (d : Dict α β) (l : α) : Except PyErr β :=
  match d.get l with
  | none => .error .keyError
  | some v => .ok v

/-- `np.zeros(n)` with entry `j` set to 1 (preprocessing.py:85-87, 301-302, 306-309); an index out of range raises `IndexError`. -/
def unitRow (n j : Nat) : Except PyErr (List K) :=
  if j < n then .ok ((List.replicate n 0).set j 1) else .error .indexError

/-- preprocessing.py:66-89 `DummyEncoder.__call__` on a 1-D label array of an encoder whose `class_indices` is `d`. -/
def dummyCall (d : Dict α Nat) (labels : List α) : Except PyErr (List (List K) × Dict α Nat) :=
  let classes := npUnique labels
  let d' := fillIndices d id classes
  (labels.mapM fun l => (look d' l).bind (unitRow classes.length)).map fun rows => (rows, d')

/-- preprocessing.py:282-311 `OneHotEncoder.__call__` on a 1-D label array of an encoder whose `class_indices` is `d`. -/
def oneHotCall (d : Dict α (List K)) (labels : List α) : Except PyErr (List (List K) × Dict α (List K)) :=
  let classes := npUnique labels
  let idx := fillIndices ([] : Dict α Nat) id classes
  let d' := fillIndices d (fun j => (List.replicate classes.length 0).set j 1) classes
  (labels.mapM fun l => (look idx l).bind (unitRow classes.length)).map fun rows => (rows, d')

/-- preprocessing.py:169-191 `MaxMarginEncoder.__call__` on a 1-D label array of an encoder whose `class_indices` is `d`. -/
def maxMarginCall (d : Dict α K) (labels : List α) : Except PyErr (List K × Dict α K) :=
  let d' := fillIndices d (fun j => if j = 0 then -1 else 1) (npUnique labels)
  (labels.mapM (look d')).map fun ys => (ys, d')

end Encoders

/-! ## Imputer -/

/-- A cell of an object array: a number, a string or a missing value (`NaN`, `None`). -/
inductive Cell (K : Type*)
  | num (v : K)
  | str (s : String)
  | missing
  deriving DecidableEq, Repr

/-- Conversion of one cell to the working precision (`pd.DataFrame(column, dtype=float)`, `np.asarray(.., dtype=float)`): strings
are parsed (`parse`), a string that is not a number raises `ValueError`; `some none` is `NaN`. -/
def Cell.toFloat (fl : K → K) (parse : String → Option K) : Cell K → Except PyErr (Option K)
  | .num v => .ok (some (fl v))
  | .missing => .ok none
  | .str s => match parse s with
    | some v => .ok (some (fl v))
    | none => .error .valueError

/-- preprocessing.py:123-142 `Imputer._fillna`.  `mode` is `value_counts().keys()[0][0]`, applied to the present cells: a most
frequent one, which of several is left to pandas; it is only called on a column with a string. `store` is the conversion to the
element type of the array when the column is written back (line 119). -/
def fillColumn (fl store : K → K) (parse : String → Option K) (mode : List (Cell K) → Cell K) (column : List (Cell K)) :
    List (Cell K) :=
  let put : Option K → Cell K := fun v => match v with
    | some v => .num (store v)
    | none => .missing
  match column.mapM (Cell.toFloat fl parse) with
  | .ok vs =>
    let m := (mean (vs.filterMap id)).map fl
    vs.map fun v => put (match v with | some v => some v | none => m)
  | .error _ =>
    let m := mode (column.filter fun c => decide (c ≠ .missing))
    column.map fun c => if c = .missing then m else c

/-- preprocessing.py:108-121 `Imputer.__call__`: every column is filled; the argument is copied first.  A table is the list of
its columns. -/
def impute (fl store : K → K) (parse : String → Option K) (mode : List (Cell K) → Cell K) (table : List (List (Cell K))) :
    List (List (Cell K)) :=
  table.map (fillColumn fl store parse mode)

end CML.Prep
