import Verif.Model.Tree
import Verif.Model.SmallTrees

/-!
# The containers `predict` and `fit` accept

What the `predict` methods of the models do with the different things a caller may pass: a Python list holding one row, a list of
rows, a 1-D or 2-D `ndarray`, a `DataFrame`, a `Series`.  The arithmetic of a single row is a parameter (it is modelled in the
files of the models); a row of unsuitable width is an error of that parameter.

Arrays of three dimensions appear only as `np.expand_dims` of a list of rows.  Ragged lists are only modelled where the code
converts them to floats.
-/

namespace CML.Calls
open CML.DTree

/-- A value in a container: a number or a string. -/
inductive Cell (K : Type)
  | num (r : K)
  | str (s : String)
  deriving DecidableEq

/-- What a caller may pass as `x`. -/
inductive Input (K : Type)
  | list (xs : List (Cell K))
  | lists (rows : List (List (Cell K)))
  | array1 (xs : List (Cell K))
  | array2 (rows : List (List (Cell K)))
  | frame (cols : List String) (rows : List (List (Cell K)))
  | series (xs : List (Cell K))
  deriving DecidableEq

/-- What a `predict` returns: a number without dimension (`np.squeeze`) or a vector. -/
inductive Out (α : Type)
  | scalar (a : α)
  | vec (l : List α)
  deriving DecidableEq

variable {K : Type} {α : Type}

/-! ## Conversion by numpy -/

/-- A float array of one or two dimensions. -/
inductive Arr (K : Type)
  | one (xs : List K)
  | two (rows : List (List K))
  deriving DecidableEq

/-- `np.asarray(x, dtype=_cml_precision.float)` of one entry: `parse` is `float` on strings. -/
def toNum (parse : String → Option K) : Cell K → Except PyErr K
  | .num r => .ok r
  | .str s => match parse s with
    | some r => .ok r
    | none => .error .valueError

/-- A row of floats. -/
def rowNum (parse : String → Option K) (r : List (Cell K)) : Except PyErr (List K) := r.mapM (toNum parse)

/-- A row is converted, then handed to `g`. -/
def rowThen (parse : String → Option K) (g : List K → Except PyErr α) (r : List (Cell K)) : Except PyErr α :=
  (rowNum parse r).bind g

/-- All rows have the length of the first. -/
def rect (rows : List (List (Cell K))) : Bool := rows.all fun r => r.length == (rows.headD []).length

/-- `np.asarray(x, dtype=_cml_precision.float)` (linear_discriminant_analysis.py:75, logistic_regression.py:116, k_means.py:121,
gaussian_mixture.py:159, support_vector_classifier.py:144, radial_basis_function_network.py:121); an empty list is a 1-D array, a ragged list
raises `ValueError`. -/
def asFloat (parse : String → Option K) : Input K → Except PyErr (Arr K)
  | .list xs => (rowNum parse xs).map .one
  | .array1 xs => (rowNum parse xs).map .one
  | .series xs => (rowNum parse xs).map .one
  | .lists rows =>
    if rows.isEmpty then .ok (.one [])
    else if rect rows then (rows.mapM (rowNum parse)).map .two else .error .valueError
  | .array2 rows => (rows.mapM (rowNum parse)).map .two
  | .frame _ rows => (rows.mapM (rowNum parse)).map .two

/-- `np.squeeze` of a column (linear_discriminant_analysis.py:82, logistic_regression.py:118). -/
def squeeze : List α → Out α
  | [a] => .scalar a
  | l => .vec l

/-! ## Models that convert to floats -/

/-- k_means.py:119-129 and gaussian_mixture.py:157-173: a 1-D array is one row. -/
def clusterArr (g : List K → Except PyErr α) : Arr K → Except PyErr (Out α)
  | .one xs => (g xs).map fun a => .vec [a]
  | .two rows => (rows.mapM g).map .vec

/-- k_means.py:102-129 `predict`, gaussian_mixture.py:140-173 `predict` of a trained model; `g` finds the cluster of a row. -/
def clusterPredict (parse : String → Option K) (g : List K → Except PyErr α) (x : Input K) : Except PyErr (Out α) :=
  (asFloat parse x).bind (clusterArr g)

/-- linear_discriminant_analysis.py:77-84: `np.dot` of a 1-D array and `w.T` has one entry. -/
def ldaArr (g : List K → Except PyErr α) : Arr K → Except PyErr (Out α)
  | .one xs => (g xs).map .scalar
  | .two rows => (rows.mapM g).map squeeze

/-- linear_discriminant_analysis.py:59-84 `predict` of a trained model; `g` classifies a row. -/
def ldaPredict (parse : String → Option K) (g : List K → Except PyErr α) (x : Input K) : Except PyErr (Out α) :=
  (asFloat parse x).bind (ldaArr g)

/-- optimizers.py:577-581: `np.c_[x, np.ones((x.shape[0], 1))]`; a 1-D array becomes a column. -/
def hatRows [One K] : Arr K → List (List K)
  | .one xs => xs.map fun v => [v, 1]
  | .two rows => rows.map fun r => r ++ [1]

/-- optimizers.py:581-582: `np.matmul(x_hat, parameters)` row by row, then the sigmoid function `sig`. -/
def lrRow [Mul K] [Add K] [Zero K] (sig : K → α) (beta : List K) (r : List K) : Except PyErr α :=
  if r.length ≠ beta.length then .error .valueError else .ok (sig ((r.zip beta).map fun p => p.1 * p.2).sum)

/-- logistic_regression.py:100-120 `predict` of a trained model with parameters `beta` (one per feature and the constant). -/
def lrPredict [Mul K] [Add K] [Zero K] [One K] (parse : String → Option K) (sig : K → α) (beta : List K) (x : Input K) :
    Except PyErr (Out α) :=
  (asFloat parse x).bind fun a => ((hatRows a).mapM (lrRow sig beta)).map squeeze

/-- support_vector_classifier.py:148-152: `x[sample]` of a 1-D array is a number. The Gaussian kernel broadcasts it over the `d` features of
the support vectors (kernels.py:106); `np.matmul` of the other kernels raises `ValueError` (kernels.py:45, 77, 149). -/
def svcNumber (gaussian : Bool) (d : Nat) (g : List K → Except PyErr α) (v : K) : Except PyErr α :=
  if gaussian then g (List.replicate d v) else .error .valueError

/-- support_vector_classifier.py:145-154. -/
def svcArr (gaussian : Bool) (d : Nat) (g : List K → Except PyErr α) : Arr K → Except PyErr (Out α)
  | .one xs => (xs.mapM (svcNumber gaussian d g)).map .vec
  | .two rows => (rows.mapM g).map .vec

/-- support_vector_classifier.py:128-154 `predict` of a trained model with `d` features; `g` classifies a row. -/
def svcPredict (parse : String → Option K) (gaussian : Bool) (d : Nat) (g : List K → Except PyErr α) (x : Input K) :
    Except PyErr (Out α) :=
  (asFloat parse x).bind (svcArr gaussian d g)

/-- optimizers.py:813-839 `RadialBasisFunctionOptimizer.forward`: with a 1-D array `number_of_sample` is its length and the squared
distance, of shape (1,), is assigned to a whole column. -/
def rbfArr (g : List K → Except PyErr α) : Arr K → Except PyErr (Out α)
  | .one xs => (g xs).map fun a => .vec (List.replicate xs.length a)
  | .two rows => (rows.mapM g).map .vec

/-- radial_basis_function_network.py:105-124 `predict` of a trained model; `g` is the output for a row. -/
def rbfPredict (parse : String → Option K) (g : List K → Except PyErr α) (x : Input K) : Except PyErr (Out α) :=
  (asFloat parse x).bind (rbfArr g)

/-- back_propagation_neural_network.py:113-136 `predict` of a trained model: only `ndarray`s; `np.matmul` of a 1-D array and the
bias of shape (1, h) give one row (optimizers.py:226-248). -/
def bpnnPredict (parse : String → Option K) (g : List K → Except PyErr α) : Input K → Except PyErr (Out α)
  | .array1 xs => (rowThen parse g xs).map fun a => .vec [a]
  | .array2 rows => (rows.mapM (rowThen parse g)).map .vec
  | _ => .error .typeError

/-! ## Ensembles -/

/-- bagging.py:81-106 `predict` of an ensemble of at least one stump (decision_tree_classifier.py:47-63); `g` is the vote on a row.
A list has no `shape`; `x[:, i]` raises for a 1-D array, a `DataFrame` (`TypeError` with pandas 1.3, `InvalidIndexError` from 1.4 on; the
former is modelled) and a `Series` (`KeyError`). -/
def baggingPredict (parse : String → Option K) (g : List K → Except PyErr α) : Input K → Except PyErr (Out α)
  | .list _ => .error .attributeError
  | .lists _ => .error .attributeError
  | .array1 _ => .error .indexError
  | .array2 rows => (rows.mapM (rowThen parse g)).map .vec
  | .frame _ _ => .error .typeError
  | .series _ => .error .keyError

/-- boosting.py:99-125 `predict` of an ensemble whose first tree (decision_tree_classifier.py:349-377) splits on column `idx`. Iterating over a
`DataFrame` yields the column names, and `name[idx] >= point` compares a character with a number; the entries of a 1-D array
are numbers, which have no entries (an empty one has nothing to predict). -/
def adaPredict (parse : String → Option K) (idx : Nat) (g : List K → Except PyErr α) : Input K → Except PyErr (Out α)
  | .list _ => .error .attributeError
  | .lists _ => .error .attributeError
  | .array1 xs => if xs.isEmpty then .ok (.vec []) else .error .indexError
  | .array2 rows => (rows.mapM (rowThen parse g)).map .vec
  | .frame cols _ => match cols with
    | [] => .error .valueError
    | c :: _ => if idx < c.length then .error .typeError else .error .indexError
  | .series xs => if xs.isEmpty then .ok (.vec []) else .error .indexError

/-! ## Decision trees -/

/-- The string numpy makes of a value when a list mixes numbers and strings. -/
def Cell.text (repr : K → String) : Cell K → String
  | .num r => repr r
  | .str s => s

/-- Is the value a number? -/
def Cell.isNum : Cell K → Bool
  | .num _ => true
  | .str _ => false

/-- `np.asarray` of a list: a list holding a string becomes an array of strings. -/
def npList (repr : K → String) (xs : List (Cell K)) : List (Cell K) :=
  if xs.all Cell.isNum then xs else xs.map fun c => .str (c.text repr)

/-- `np.asarray` of a list of rows. -/
def npLists (repr : K → String) (rows : List (List (Cell K))) : List (List (Cell K)) :=
  if rows.all (fun r => r.all Cell.isNum) then rows else rows.map fun r => r.map fun c => .str (c.text repr)

/-- decision_tree_classifier.py:199-207 and naive_bayes_classifier.py:165-171: the array the rows are taken from: rows, or the
array of shape (1, n, m) that `np.expand_dims` makes of a list of rows. -/
inductive Rows (K : Type)
  | two (rows : List (List (Cell K)))
  | block (rows : List (List (Cell K)))
  deriving DecidableEq

/-- decision_tree_classifier.py:199-207: the conversion of the argument. -/
def treeRows (repr : K → String) : Input K → Rows K
  | .list xs => .two [npList repr xs]
  | .lists rows => .block (npLists repr rows)
  | .frame _ rows => .two rows
  | .series xs => .two [xs]
  | .array1 xs => .two [xs]
  | .array2 rows => .two rows

section Trees
variable [LE K] [DecidableLE K] [DecidableEq K] {m : Nat}

mutual
/-- decision_tree_classifier.py:214-231 `_predict` on a row of any length: `x[feature_index]` raises `IndexError` on a short row and
comparing a string with the dividing point raises `TypeError`. -/
def treeRow (row : List (Cell K)) : Tree (Cell K) K m → Except PyErr Int
  | .leaf c => .ok c
  | .cont a t _ _ ge lt => match row[a.val]? with
    | none => .error .indexError
    | some (.str _) => .error .typeError
    | some (.num r) => if t ≤ r then treeRow row ge else treeRow row lt
  | .disc a _ _ br => match row[a.val]? with
    | none => .error .indexError
    | some v => treeRowIn row v br
/-- The dictionary look-up of decision_tree_classifier.py:231. -/
def treeRowIn (row : List (Cell K)) (v : Cell K) : Forest (Cell K) K m → Except PyErr Int
  | .nil => .error .keyError
  | .cons w t rest => if v = w then treeRow row t else treeRowIn row v rest
end

/-- decision_tree_classifier.py:214-231 `_predict` on the (n, m) array inside an array of shape (1, n, m): `x[feature_index]` is a row; the truth value of a
comparison with more than one entry raises `ValueError`, that of one without entries is `False`; a row is no key of a dictionary (`TypeError`). -/
def treeBlock (rows : List (List (Cell K))) : Tree (Cell K) K m → Except PyErr Int
  | .leaf c => .ok c
  | .cont a t _ _ ge lt => match rows[a.val]? with
    | none => .error .indexError
    | some [] => treeBlock rows lt
    | some [.num r] => if t ≤ r then treeBlock rows ge else treeBlock rows lt
    | some r => if r.all Cell.isNum then .error .valueError else .error .typeError
  | .disc a _ _ _ => if a.val < rows.length then .error .typeError else .error .indexError

/-- decision_tree_classifier.py:183-212 `predict` of a trained tree. -/
def treePredict (repr : K → String) (t : Tree (Cell K) K m) (x : Input K) : Except PyErr (List Int) :=
  match treeRows repr x with
  | .two rows => rows.mapM fun r => treeRow r t
  | .block rows => (treeBlock rows t).map fun c => [c]

end Trees

/-! ## Attributes by name -/

/-- `pd.DataFrame(x, columns=names)` of a table: the columns of that name, `NaN` (`none`) when there is none. -/
def byName (cols names : List String) (r : List (Cell K)) : List (Option (Cell K)) :=
  names.map fun n => ((cols.zip r).find? fun p => p.1 == n).map Prod.snd

/-- `pd.DataFrame(x, columns=names)` of rows without names: the number of names has to be the width. -/
def byPosition (names : Option (List String)) (rows : List (List (Cell K))) : Except PyErr (List (List (Option (Cell K)))) :=
  match names with
  | none => .ok (rows.map fun r => r.map some)
  | some ns => if rows.any fun r => r.length ≠ ns.length then .error .valueError else .ok (rows.map fun r => r.map some)

/-- `pd.DataFrame(x, columns=self.attribute_name)` (decision_tree_classifier.py:156, naive_bayes_classifier.py:74, 174,
semi_naive_bayes_classifiers.py:149, 244): the rows of the frame. One-dimensional data are a single column. -/
def pdFrame (names : Option (List String)) : Input K → Except PyErr (List (List (Option (Cell K))))
  | .frame cols rows => match names with
    | none => .ok (rows.map fun r => r.map some)
    | some ns => .ok (rows.map (byName cols ns))
  | .lists rows => byPosition names rows
  | .array2 rows => byPosition names rows
  | .list xs => byPosition names (xs.map fun c => [c])
  | .array1 xs => byPosition names (xs.map fun c => [c])
  | .series xs => byPosition names (xs.map fun c => [c])

/-- decision_tree_classifier.py:147-157: the rows `fit` trains on; the columns of the frame are the attributes of the tree. -/
def treeFitRows (names : Option (List String)) (x : Input K) : Except PyErr (List (List (Option (Cell K)))) :=
  pdFrame names x

/-- naive_bayes_classifier.py:165-175: the rows `predict` classifies; a `DataFrame` of three dimensions raises `ValueError`. -/
def nbRows (repr : K → String) (names : Option (List String)) (x : Input K) : Except PyErr (List (List (Option (Cell K)))) :=
  match x with
  | .list xs => pdFrame names (.array2 [npList repr xs])
  | .lists _ => .error .valueError
  | .series xs => pdFrame names (.array2 [xs])
  | .array1 xs => pdFrame names (.array2 [xs])
  | .array2 rows => pdFrame names (.array2 rows)
  | .frame cols rows => pdFrame names (.frame cols rows)

/-- naive_bayes_classifier.py:146-189 `predict` of a trained classifier; `g` classifies a row of the frame. -/
def nbCallPredict (repr : K → String) (names : Option (List String)) (g : List (Option (Cell K)) → Except PyErr α) (x : Input K) :
    Except PyErr (List α) :=
  (nbRows repr names x).bind fun rows => rows.mapM g

/-- semi_naive_bayes_classifiers.py:222-273 `predict` of a trained SPODE; `g` classifies a row of the frame. -/
def spodeCallPredict (names : Option (List String)) (g : List (Option (Cell K)) → Except PyErr α) (x : Input K) :
    Except PyErr (List α) :=
  (pdFrame names x).bind fun rows => rows.mapM g

end CML.Calls
