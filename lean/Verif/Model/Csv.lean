import Verif.Model.Dataset
import Mathlib.Data.Rat.Floor

/-!
# Model of `Dataset.from_csv` (classicML/backend/python/data/dataset.py:106-124, 160-177)

The table is what `pd.read_csv` returns: every column holds whole numbers (`int64`), decimal numbers with or without missing entries
(`float64`, a missing entry is `NaN`) or texts with or without missing entries (`object`).  Columns of truth values and of dates are not
modelled.  `convert_dtypes`, `select_dtypes` and `astype` are those of pandas 1.3.4–1.5.2: nullable types, in which a missing entry is
`pd.NA`.
-/

namespace CML.Csv
open CML.Prep CML.Data

/-- A column of the table. -/
inductive Col
  | ints (v : List Int)
  | floats (v : List (Option ℚ))
  | texts (v : List (Option String))
  deriving DecidableEq

/-- A cell of the array `dataframe.values` after the conversion: a number, `NaN`, a text or `pd.NA`. -/
inductive CsvCell
  | num (q : ℚ)
  | nan
  | str (s : String)
  | na
  deriving DecidableEq

/-- `astype` to a signed integer type of `bits` bits: the number modulo `2 ^ bits`. -/
def wrap (bits : Nat) (v : Int) : Int := (v + 2 ^ (bits - 1)) % 2 ^ bits - 2 ^ (bits - 1)

/-- `arr.astype(int) == arr` in `convert_dtypes`: a whole number in the range of `int64`. -/
def isWhole (q : ℚ) : Bool := decide (q.den = 1 ∧ -(2 : ℚ) ^ 63 ≤ q ∧ q < (2 : ℚ) ^ 63)

/-- `convert_dtypes` takes a column of decimal numbers for whole numbers if all PRESENT entries are (dataset.py:170). -/
def takenForInts (v : List (Option ℚ)) : Bool := v.all fun o => (o.map isWhole).getD true

/-- dataset.py:161-177 `_convert_dtype` on one column.  The nullable integers that `convert_dtypes` makes are converted with `astype(int32)`
(line 175), which raises `ValueError` if an entry is missing. -/
def convertColumn (bits : Nat) (fl : ℚ → ℚ) : Col → Except PyErr (List CsvCell)
  | .ints v => .ok (v.map fun k => .num (wrap bits k))
  | .floats v =>
    if takenForInts v then
      if v.all Option.isSome then .ok (v.map fun o => .num (wrap bits ((o.map Rat.floor).getD 0))) else .error .valueError
    else .ok (v.map fun o => match o with
      | some q => .num (fl q)
      | none => .nan)
  | .texts v => .ok (v.map fun o => match o with
      | some s => .str s
      | none => .na)

/-- The type of a column afterwards: is it an integer type? -/
def intColumn : Col → Bool
  | .ints _ => true
  | .floats v => takenForInts v
  | .texts _ => false

/-- Conversion of a column to floats (preprocessing.py:134, dataset.py:193): the cells are converted in order; `float(pd.NA)` raises
`TypeError`, a text that is not a number `ValueError`.  Only the latter is caught (preprocessing.py:137, dataset.py:198).  `true` if the
first cell that cannot be converted is `pd.NA`. -/
def naFirst (parse : String → Option ℚ) : List CsvCell → Bool
  | [] => false
  | .na :: _ => true
  | .str s :: l => if parse s = none then false else naFirst parse l
  | _ :: l => naFirst parse l

/-- The cell as the pre-processing sees it (`pd.NA` and `NaN` are both missing values for `fillna` and `value_counts`). -/
def CsvCell.cell : CsvCell → Cell ℚ
  | .num q => .num q
  | .nan => .missing
  | .str s => .str s
  | .na => .missing

/-- Writing into the array `dataframe.values`: an integer array if all columns are, else an array of floats or objects.  A `NaN` written into an
integer array is some number (`garbage`). -/
def storeInto (garbage : ℚ) (allInts : Bool) : Option ℚ → Cell ℚ
  | some v => .num (if allInts then (if v < 0 then (⌈v⌉ : ℚ) else (⌊v⌋ : ℚ)) else v)
  | none => if allInts then .num garbage else .missing

/-- dataset.py:106-124 `from_csv`, the features (`cols` are the feature columns, `label` the last column, which is converted as well):
the options are those of the data set; `store` is determined by the table. -/
def fromCsv (bits : Nat) (garbage : ℚ) (o : Opts ℚ) (cols : List Col) (label : Col) : Except PyErr (List (List (Cell ℚ))) :=
  (cols.mapM (convertColumn bits o.fl)).bind fun cs =>
    (convertColumn bits o.fl label).bind fun _ =>
      if cs.any (naFirst o.parse) then .error .typeError
      else features { o with store := storeInto garbage (cols.all intColumn) } (cs.map fun c => c.map CsvCell.cell)

end CML.Csv
