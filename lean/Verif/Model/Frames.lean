import Verif.Prelude

/-!
# What `fit` and `predict` do to the caller's frames

pandas objects are variables that refer to a table (values, column names, row labels), pandas' `BlockManager`. In the pandas versions `setup.py` admits
(1.3.4 to 1.5.2, no copy-on-write), `pd.DataFrame(frame)` with no other argument and `pd.Series(series)` refer to the *same* table as their argument, and
`reset_index(drop=True, inplace=True)` replaces the row labels of that table. A `columns=` list or a `dtype=` makes a new table. (An `Index` object that is
the frame's own `columns` would again share the table; attribute names are lists here.)

Only the statements that create or change tables are modelled here; what is computed from them is modelled with the models (`Bayes`, `Spode`, `Tree`).
-/

namespace CML.Frames

/-- A row label of a pandas index. -/
inductive Label
  | int (n : Int)
  | str (s : String)
  deriving DecidableEq

/-- The table a pandas object refers to. -/
structure Table (V : Type) where
  index : List Label
  cols : List String
  rows : List (List V)
  deriving DecidableEq

/-- The tables of a process: those numbered below `next` exist. -/
structure Heap (V : Type) where
  tab : Nat → Table V
  next : Nat

variable {V : Type}

/-- The row labels `0, 1, …, n - 1` of `default_index(n)`. -/
def defaultIndex (n : Nat) : List Label := (List.range n).map fun (i : Nat) => Label.int i

/-- A new table. -/
def Heap.alloc (h : Heap V) (t : Table V) : Heap V × Nat := (⟨fun i => if i = h.next then t else h.tab i, h.next + 1⟩, h.next)

/-- `obj.reset_index(drop=True, inplace=True)`. -/
def Heap.reset (h : Heap V) (i : Nat) : Heap V :=
  ⟨fun j => if j = i then { h.tab j with index := defaultIndex (h.tab j).rows.length } else h.tab j, h.next⟩

/-- What a caller passes as `x`: a `DataFrame`, a `Series`, or something that is not a pandas object (a list or an array with these values). -/
inductive XArg (V : Type)
  | frame (i : Nat)
  | series (i : Nat)
  | plain (t : Table V)

/-- What a caller passes as `y`: a `Series` or something that is not a pandas object. (Frames are not modelled.) -/
inductive YArg (V : Type)
  | series (i : Nat)
  | plain (l : List V)

/-- The columns `ns` of a table; a name that is no column gives a column of missing values `na`. -/
def selectCols (na : V) (ns : List String) (t : Table V) : Table V :=
  { t with cols := ns, rows := t.rows.map fun r => ns.map fun n => ((t.cols.zip r).lookup n).getD na }

/-- `pd.DataFrame(x, columns=names)`. Arrays with another number of columns and frames with repeated column names are `ValueError`s. Of a `Series` only
the fact that a new table is made is modelled. -/
def asFrame (na : V) (names : Option (List String)) (h : Heap V) : XArg V → Except PyErr (Heap V × Nat)
  | .frame i => match names with
    | none => .ok (h, i)
    | some ns =>
      if (h.tab i).cols = ns then .ok (h.alloc (h.tab i))
      else if (h.tab i).cols.Nodup then .ok (h.alloc (selectCols na ns (h.tab i)))
      else .error .valueError
  | .series i => .ok (h.alloc (h.tab i))
  | .plain t => match names with
    | none => .ok (h.alloc t)
    | some ns => if t.cols.length = ns.length then .ok (h.alloc { t with cols := ns }) else .error .valueError

/-- `pd.Series(y)` (`typed = false`) or `pd.Series(y, dtype=_cml_precision.int)`; `conv` is the conversion of an entry
(a row of one value) to an integer; what cannot be converted is a `ValueError`, but a `Series` is then taken as it is (pandas converts it with
`errors='ignore'`). -/
def asSeries (conv : List V → Option (List V)) (typed : Bool) (h : Heap V) : YArg V → Except PyErr (Heap V × Nat)
  | .series i =>
    if typed then .ok (h.alloc { h.tab i with rows := ((h.tab i).rows.mapM conv).getD (h.tab i).rows })
    else .ok (h, i)
  | .plain l =>
    if typed then
      match (l.map fun v => [v]).mapM conv with
      | some rs => .ok (h.alloc ⟨defaultIndex l.length, [], rs⟩)
      | none => .error .valueError
    else .ok (h.alloc ⟨defaultIndex l.length, [], l.map fun v => [v]⟩)

/-- The classes that work with frames. -/
inductive Cls | naiveBayes | superParent | averaged | decisionTree
  deriving DecidableEq

/-- naive_bayes_classifier.py:76 and decision_tree_classifier.py:158 give a `dtype`; semi_naive_bayes_classifiers.py:152, 475 do not. -/
def Cls.typed : Cls → Bool
  | .naiveBayes => true
  | .decisionTree => true
  | .superParent => false
  | .averaged => false

/-- naive_bayes_classifier.py:74-77, semi_naive_bayes_classifiers.py:150-153, 473-476, decision_tree_classifier.py:154-159: the pair `x, y` is prepared.
The tables afterwards, and the error if one was raised. -/
def prepare (na : V) (conv : List V → Option (List V)) (typed : Bool) (names : Option (List String)) (h : Heap V) (x : XArg V) (y : YArg V) :
    Heap V × Option PyErr :=
  match asFrame na names h x with
  | .error e => (h, some e)
  | .ok (h1, i) =>
    match asSeries conv typed (h1.reset i) y with
    | .error e => (h1.reset i, some e)
    | .ok (h2, j) => (h2.reset j, none)

/-- The tables after `fit(x, y)`. For the decision tree `validation` are `x_validation, y_validation`: they are prepared in the same way
(decision_tree_classifier.py:162-167), and a pruner without them raises before anything is touched (149-151). Errors of the training proper come later
and change no table. -/
def fit (na : V) (conv : List V → Option (List V)) (c : Cls) (names : Option (List String)) (pruner : Bool) (validation : Option (XArg V × YArg V))
    (h : Heap V) (x : XArg V) (y : YArg V) : Heap V × Option PyErr :=
  match c, pruner, validation with
  | .decisionTree, true, none => (h, some .attributeError)
  | .decisionTree, _, some v =>
    match prepare na conv true names h x y with
    | (h1, some e) => (h1, some e)
    | (h1, none) => prepare na conv true names h1 v.1 v.2
  | _, _, _ => prepare na conv c.typed names h x y

/-- naive_bayes_classifier.py:165-175, semi_naive_bayes_classifiers.py:240-242, 515-517, decision_tree_classifier.py:199-207: the tables after `predict(x)`
of a trained instance. Naive Bayes takes the values of a `Series` first; the decision tree takes the values of everything. What `predict` computes afterwards, and its
errors (naive Bayes without names: `C131_names`), change no table. -/
def predict (na : V) (c : Cls) (names : Option (List String)) (h : Heap V) (x : XArg V) : Heap V × Option PyErr :=
  match c with
  | .decisionTree => (h, none)
  | _ =>
    match asFrame na names h x with
    | .error e => (h, some e)
    | .ok (h1, i) => (h1.reset i, none)

/-- A call of a program. -/
inductive Call (V : Type)
  | fit (c : Cls) (names : Option (List String)) (pruner : Bool) (validation : Option (XArg V × YArg V)) (x : XArg V) (y : YArg V)
  | predict (c : Cls) (names : Option (List String)) (x : XArg V)

/-- The tables after a call. -/
def step (na : V) (conv : List V → Option (List V)) (h : Heap V) : Call V → Heap V
  | .fit c names pruner validation x y => (fit na conv c names pruner validation h x y).1
  | .predict c names x => (predict na c names h x).1

/-- The tables after a sequence of calls. -/
def run (na : V) (conv : List V → Option (List V)) (h : Heap V) (calls : List (Call V)) : Heap V := calls.foldl (step na conv) h

end CML.Frames
