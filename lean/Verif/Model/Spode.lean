import Verif.Model.Bayes
import Verif.Dict

/-!
# Names in the one-dependent estimators (classicML/api/models/bayes/semi_naive_bayes_classifiers.py)

The object `SuperParentOneDependentEstimator` through a sequence of calls of `compile` and `fit`, and the dictionary `p_c`, whose keys are the
names of the attributes and the string `'p_c_xi'`.  The table handed to `fit` is what `pd.DataFrame(x, columns=self.attribute_name)` returned
(see `Verif/Model/Calls.lean`): a list of named columns of equal length.
-/

namespace CML.Bayes

variable {V : Type} [DecidableEq V]

/-! ## The super-parent -/

/-- semi_naive_bayes_classifiers.py:97-123: the attributes of the object. -/
structure Spode (V : Type) where
  superName : Option String
  superIndex : Option Nat
  entries : List (Entry V)
  smoothing : Bool
  trained : Bool

/-- semi_naive_bayes_classifiers.py:112-123 `__init__`; `None` for `smoothing` is false. -/
def Spode.new : Spode V := ⟨none, none, [], false, false⟩

/-- semi_naive_bayes_classifiers.py:125-134 `compile`. -/
def Spode.compile (o : Spode V) (name : String) (smoothing : Bool) : Spode V :=
  { o with superName := some name, smoothing := smoothing }

/-- semi_naive_bayes_classifiers.py:154-156: the loop over the columns; `k` is the index of the first one. -/
def findIndex (name : Option String) (old : Option Nat) : List String → Nat → Option Nat
  | [], _ => old
  | c :: cs, k => findIndex name (if name = some c then some k else old) cs (k + 1)

/-- The values of a column as super-parent values; `emb` turns the numbers of a continuous column into values. -/
def superValues (emb : List ℝ → List V) : Col V → List V
  | .disc l => l
  | .cont l => emb l

/-- semi_naive_bayes_classifiers.py:136-219 `fit` with its effect on the object; `x.iloc[:, None]` raises `ValueError`, an index beyond the last column
`IndexError`. Without labels there is no category and nothing is looked at. The loop over the columns has already changed the object when the error is
raised. -/
noncomputable def Spode.fit (emb : List ℝ → List V) (o : Spode V) (table : List (String × Col V)) (y : List Int) : Except PyErr Unit × Spode V :=
  let o := { o with superIndex := findIndex o.superName o.superIndex (table.map Prod.fst) 0 }
  if y = [] then (.ok (), { o with trained := true })
  else match o.superIndex with
    | none => (.error .valueError, o)
    | some i => match table[i]? with
      | none => (.error .indexError, o)
      | some c =>
        (.ok (), { o with entries := spodeFit o.entries (table.map Prod.snd) (superValues emb c.2) y o.smoothing, trained := true })

/-- A call on the object. -/
inductive SpodeCall (V : Type)
  | compile (name : String) (smoothing : Bool)
  | fit (table : List (String × Col V)) (y : List Int)

/-- The object after a call (an exception leaves the object as `fit` had changed it). -/
noncomputable def Spode.call (emb : List ℝ → List V) (o : Spode V) : SpodeCall V → Spode V
  | .compile name smoothing => o.compile name smoothing
  | .fit table y => (o.fit emb table y).2

/-! ## The dictionary `p_c` -/

/-- A value of the dictionary: the prior under the key `'p_c_xi'`, else the stored information of an attribute. -/
inductive Payload (V : Type)
  | prior (p : ℝ)
  | attr (s : Stored V)

/-- semi_naive_bayes_classifiers.py:163-213: `p_c` for one class and one value of the super-parent; one `update` per column. -/
noncomputable def pcDict (prior : ℝ) (cols : List (String × Stored V)) : Dict String (Payload V) :=
  cols.foldl (fun d c => d.set c.1 (.attr c.2)) [("p_c_xi", .prior prior)]

/-- semi_naive_bayes_classifiers.py:380-397, 399-415: the loop over the dictionary, `index` being the position of the next key. `np.log` of the dictionary of an attribute raises
`TypeError`; the value of an attribute is read at `x[index - 1]`. -/
noncomputable def pcLoop (fl : ℝ → ℝ) (smoothing : Bool) (x : List (Cell V)) : List (String × Payload V) → Nat → Except PyErr (List (Option ℝ))
  | [], _ => .ok []
  | (key, p) :: rest, index =>
    if key = "p_c_xi" then
      match p with
      | .attr _ => .error .typeError
      | .prior q => match pcLoop fl smoothing x rest (index + 1) with
        | .error e => .error e
        | .ok ps => .ok (some q :: ps)
    else
      match p with
      | .prior _ => .error .typeError
      | .attr s => match x[index - 1]? with
        | none => .error .valueError
        | some c => match factor fl smoothing s c with
          | .error e => .error e
          | .ok f => match pcLoop fl smoothing x rest (index + 1) with
            | .error e => .error e
            | .ok ps => .ok (f :: ps)

/-- semi_naive_bayes_classifiers.py:367-415 `_calculate_posterior_probability`: the factors of one element whose dictionary was filled from the named columns `cols`. -/
noncomputable def namedFactors (fl : ℝ → ℝ) (smoothing : Bool) (prior : ℝ) (cols : List (String × Stored V)) (x : List (Cell V)) :
    Except PyErr (List (Option ℝ)) :=
  pcLoop fl smoothing x (pcDict prior cols) 0

end CML.Bayes
