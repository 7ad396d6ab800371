import Verif.Model.Preprocess
import Mathlib.Data.String.Basic
import Mathlib.Algebra.Order.Floor.Defs

/-!
# Model of `Dataset` (classicML/backend/python/data/dataset.py)

A table is the list of its columns.  Label columns of floating point numbers are not modelled.  `toInt : String → Option Int` is
Python's `int(s)` (`none` = `ValueError`), `parse : String → Option K` is `float(s)`.
-/

namespace CML.Data
open CML.Prep

/-! ## Labels -/

section Labels
variable {K : Type*} [Field K] [LinearOrder K]

/-- dataset.py:220. -/
def positiveKeyWords : List String := ["是", "y", "yes", "Yes", "YES", "Y"]

/-- dataset.py:221. -/
def negativeKeyWords : List String := ["否", "n", "no", "No", "NO", "N"]

/-- dataset.py:224-227: `for key_word in ..: labels[labels == key_word] = v`. -/
def replaceWords (kws : List String) (v : String) (labels : List String) : List String :=
  kws.foldl (fun ls kw => ls.map fun l => if l = kw then v else l) labels

/-- `int(s)`, raising `ValueError`. -/
def parseLabel (toInt : String → Option Int) (s : String) : Except PyErr Int :=
  match toInt s with
  | some n => .ok n
  | none => .error .valueError

/-- dataset.py:229, 245: `labels.astype(int)` of strings. -/
def astypeInt (toInt : String → Option Int) (labels : List String) : Except PyErr (List Int) :=
  labels.mapM (parseLabel toInt)

/-- dataset.py:230: `{_raw_labels[0]: 0, _raw_labels[1]: 1}`. -/
def binaryIndices {α : Type*} [LinearOrder α] (labels : List α) : Except PyErr (Dict α Int) :=
  match npUnique labels with
  | a :: b :: _ => .ok [(a, 0), (b, 1)]
  | _ => .error .indexError

/-- dataset.py:212-230 `_preprocessing_binary_labels` on a column of strings: `y` and `class_indices`. -/
def binaryStrings (toInt : String → Option Int) (labels : List String) : Except PyErr (List Int × Dict String Int) :=
  (astypeInt toInt (replaceWords negativeKeyWords "0" (replaceWords positiveKeyWords "1" labels))).bind fun y =>
    (binaryIndices labels).map fun d => (y, d)

/-- dataset.py:212-230 on a column of integers: no entry equals a key word, so `y` is the column itself. -/
def binaryInts (labels : List Int) : Except PyErr (List Int × Dict Int Int) :=
  (binaryIndices labels).map fun d => (labels, d)

/-- dataset.py:241-243: the relabelling loop `for index, raw_label in enumerate(raw): labels[labels == raw_label] = str(index)`;
`code index` is the value the assignment stores. -/
def relabel {α : Type*} [DecidableEq α] (code : Nat → α) (raws : List α) (labels : List α) : List α :=
  raws.zipIdx.foldl (fun ls p => ls.map fun l => if l = p.1 then code p.2 else l) labels

/-- dataset.py:241-243: `class_indices.update({raw_label: index})`, starting from the data set's current dictionary. -/
def updateIndices {α : Type*} [DecidableEq α] (d : Dict α Int) (raws : List α) : Dict α Int :=
  raws.zipIdx.foldl (fun d p => d.set p.1 (p.2 : Int)) d

/-- dataset.py:232-245 `_preprocessing_categorical_labels` on a column of strings. -/
def categoricalStrings (toInt : String → Option Int) (d : Dict String Int) (labels : List String) :
    Except PyErr (List Int × Dict String Int) :=
  (astypeInt toInt (relabel (fun k => toString k) (npUnique labels) labels)).map fun y => (y, updateIndices d (npUnique labels))

/-- dataset.py:232-245 on a numpy integer column (the elements are not Python `int`s, line 240). -/
def categoricalInts (d : Dict Int Int) (labels : List Int) : List Int × Dict Int Int :=
  (relabel (fun k => (k : Int)) (npUnique labels) labels, updateIndices d (npUnique labels))

/-- dataset.py:232-245 on an object column of Python `int`s (line 240 is false): nothing is relabelled or recorded. -/
def categoricalPyInts (d : Dict Int Int) (labels : List Int) : List Int × Dict Int Int := (labels, d)

/-- The `label_mode` argument. -/
inductive Mode
  | none | oneHot | maxMargin | unsupervised
  deriving DecidableEq, Repr

/-- The labels a data set can hold after encoding. -/
inductive Encoded (K : Type*)
  | ints (y : List Int)
  | rows (y : List (List K))
  | signs (y : List K)
  deriving DecidableEq, Repr

/-- The values of `class_indices`. -/
inductive Code (K : Type*)
  | int (v : Int)
  | row (v : List K)
  | sign (v : K)
  deriving DecidableEq, Repr

/-- dataset.py:265: one round of `class_indices.update({key: encoder_class_indices[value]})`. -/
def setRealStep {α β : Type*} [DecidableEq α] (enc : Dict Int β) (d : Dict α β) (p : α × Int) : Except PyErr (Dict α β) :=
  match enc.get p.2 with
  | some v => .ok (d.set p.1 v)
  | none => .error .keyError

/-- dataset.py:256-267 `_set_real_class_indices`. -/
def setReal {α β : Type*} [DecidableEq α] (pre : Dict α Int) (enc : Dict Int β) : Except PyErr (Dict α β) :=
  pre.foldlM (setRealStep enc) []

/-- dataset.py:247-254 `_encoder_label` on a one-dimensional `y`. -/
def encodeLabel {α : Type*} [DecidableEq α] (mode : Mode) (y : List Int) (d : Dict α Int) :
    Except PyErr (Encoded K × Dict α (Code K)) :=
  match mode with
  | .oneHot => (oneHotCall [] y).bind fun r => (setReal d r.2).map fun c => (.rows r.1, c.map fun p => (p.1, .row p.2))
  | .maxMargin => (maxMarginCall [] y).bind fun r => (setReal d r.2).map fun c => (.signs r.1, c.map fun p => (p.1, .sign p.2))
  | _ => .ok (.ints y, d.map fun p => (p.1, .int p.2))

/-- dataset.py:96-102 (the label part of `from_dataframe`, for data sets that are neither `test` nor unsupervised) on a string column;
`d` is the `class_indices` the data set had before. -/
def frameStrings (toInt : String → Option Int) (mode : Mode) (d : Dict String Int) (labels : List String) :
    Except PyErr (Encoded K × Dict String (Code K)) :=
  (if (npUnique labels).length = 2 then binaryStrings toInt labels else categoricalStrings toInt d labels).bind fun r =>
    encodeLabel mode r.1 r.2

/-- dataset.py:96-102 on a numpy integer column. -/
def frameInts (mode : Mode) (d : Dict Int Int) (labels : List Int) : Except PyErr (Encoded K × Dict Int (Code K)) :=
  (if (npUnique labels).length = 2 then binaryInts labels else .ok (categoricalInts d labels)).bind fun r =>
    encodeLabel mode r.1 r.2

/-- dataset.py:150-156 (the label part of `from_tensor_slices`): `y` is a table of integers with `cols` columns, given by its rows (a
vector of labels has been reshaped to one column, line 145).  The encoders index a dictionary with `labels[i]`, an array, which is
not hashable: `TypeError` for every non-empty table.  `isTest`: `dataset_type == 'test'`; `y = none`: no labels were given. -/
def tensorLabels (mode : Mode) (isTest : Bool) (cols : Nat) (y : Option (List (List Int))) :
    Except PyErr (Option (List (List Int)) × Dict Int Int) :=
  if isTest then .ok (none, [])
  else match y with
    | none => .error .attributeError
    | some rows =>
      (if 2 < cols then
        .ok (rows.map fun r => relabel (fun k => (k : Int)) (npUnique rows.flatten) r, updateIndices [] (npUnique rows.flatten))
       else (binaryIndices rows.flatten).map fun d => (rows, d)).bind fun r =>
        if mode = .oneHot ∨ mode = .maxMargin then
          if rows = [] then .ok (some [], []) else .error .typeError
        else .ok (some r.1, r.2)

end Labels

/-! ## Features -/

section Features
variable {K : Type*} [Field K] [LinearOrder K]

/-- dataset.py:195 `StandardScaler(axis=0)(column)`; a `NaN` makes everything `NaN`. -/
def stdVals (vals : List (Option K)) : List (Option K) :=
  match vals.mapM id with
  | none => vals.map fun _ => none
  | some xs => (standardCall xs).2

/-- dataset.py:197 `MinMaxScaler()(column)`. -/
def normVals (vals : List (Option K)) : Except PyErr (List (Option K)) :=
  match vals.mapM id with
  | none => .ok (vals.map fun _ => none)
  | some xs => (minMaxCall xs).map Prod.snd

/-- The settings of a data set, and the surroundings: `fl`, `parse` as in `Imputer`; `store` writes a number into the feature array
(the identity for arrays of floats or objects, truncation for an array of integers). -/
structure Opts (K : Type*) where
  fl : K → K
  parse : String → Option K
  mode : List (Cell K) → Cell K
  fillStore : K → K
  store : Option K → Cell K
  fillna : Bool
  digitization : Bool
  normalization : Bool
  standardization : Bool

/-- dataset.py:193-197, the continuous branch; `.error` is the `ValueError` of the `try` block. -/
def scaleColumn (o : Opts K) (col : List (Cell K)) : Except PyErr (List (Cell K)) :=
  (col.mapM (Cell.toFloat o.fl o.parse)).bind fun vals =>
    let c1 := if o.standardization then (stdVals vals).map o.store else col
    if o.normalization then (normVals vals).map fun z => z.map o.store else .ok c1

/-- `np.unique` of a column with cells that are not strings next to strings raises `TypeError`. -/
def columnStrings (col : List (Cell K)) : Except PyErr (List String) :=
  col.mapM fun c => match c with
    | .str s => .ok s
    | _ => (.error .typeError : Except PyErr String)

/-- dataset.py:201 `DummyEncoder()(features[:, column])`, as a list of new columns. -/
def dummyColumns (col : List (Cell K)) : Except PyErr (List (List (Cell K))) :=
  (columnStrings col).bind fun ls => (dummyCall ([] : Dict String Nat) ls).map fun r =>
    (List.range (npUnique ls).length).map fun j => r.1.map fun row => .num ((row[j]?).getD 0)

/-- dataset.py:191-202, one round of the loop; the state is `(features, _del_list)`. -/
def featStep (o : Opts K) (st : List (List (Cell K)) × List Nat) (j : Nat) : Except PyErr (List (List (Cell K)) × List Nat) :=
  match st.1[j]? with
  | none => .error .indexError
  | some col => match scaleColumn o col with
    | .ok c => .ok (st.1.set j c, st.2)
    | .error _ =>
      if o.digitization then (dummyColumns col).map fun block => (st.1 ++ block, st.2 ++ [j])
      else .ok st

/-- dataset.py:205-206 `np.delete(features, _del_list, axis=1)`. -/
def deleteColumns (cols : List (List (Cell K))) (del : List Nat) : List (List (Cell K)) :=
  (cols.zipIdx.filter fun p => decide (p.2 ∉ del)).map Prod.fst

/-- dataset.py:179-210 `_preprocessing_features`: the new `x`.  (The final `astype(float)`, line 208, only changes the element type,
as all remaining columns hold numbers; it is omitted.) -/
def features (o : Opts K) (cols : List (List (Cell K))) : Except PyErr (List (List (Cell K))) :=
  let cols := if o.fillna then impute o.fl o.fillStore o.parse o.mode cols else cols
  ((List.range cols.length).foldlM (featStep o) (cols, [])).map fun st =>
    if st.2 = [] then st.1 else deleteColumns st.1 st.2

/-- The caller's array after `from_tensor_slices(x)` (dataset.py:141, 179-210): `np.asarray` returns the caller's own array when it
already has the working precision (`same`); with `fillna=False` nothing is copied and the scaled columns are written into it. -/
def callerArray (o : Opts K) (same : Bool) (cols : List (List (Cell K))) : List (List (Cell K)) :=
  if o.fillna || !same then cols
  else cols.map fun col => match scaleColumn o col with
    | .ok c => c
    | .error _ => col

end Features

end CML.Data
