import Verif.Model.Trace

/-!
# Histories of calls of a DecisionTreeClassifier

classicML/api/models/tree/decision_tree_classifier.py:85-276. What the generator, the pruners and the recursion of `predict` do is modelled in `Model/Tree`; here they are
parameters: `gen` grows a tree for a criterion, `prune` rewrites a tree (in place: it leaves a tree also if it raises), `ask` answers a row. `D` are tables with labels that
fit the attribute names (simplification: `pandas.DataFrame(x, columns=…)` succeeds).
-/

namespace CML.Failed

/-- training.py:195-198: the two pruners. -/
inductive Pruning | pre | post
  deriving DecidableEq

/-- training.py:185-203 `get_pruner` for a string. -/
def getPrunerName : String → Except PyErr Pruning
  | "post" => .ok .post
  | "pre" => .ok .pre
  | _ => .error .attributeError

/-- decision_tree_classifier.py:85-101: the instance; `generator` is given by its criterion. -/
structure TreeState (T : Type) where
  tree : Option T := none
  criterion : Option String := none
  generator : Option String := none
  pruner : Option Pruning := none
  trained : Bool := false
  loaded : Bool := false

/-- A call: `compile`; `fit` with or without a validation set; `load_weights` of a file with these attributes (`none`: missing); of a file that
`io.initialize_weights_file` refuses. -/
inductive TreeCall (D T : Type)
  | compile (criterion : String) (pruning : Option String)
  | fit (d : D) (v : Option D)
  | load (criterion pruning : Option String) (tree : Option T)
  | badFile (e : PyErr)

variable {D T X Y : Type}

/-- decision_tree_classifier.py:103-124 `compile`. -/
def TreeState.compile (o : TreeState T) (criterion : String) (pruning : Option String) : TreeState T × Option PyErr :=
  if criterion ∈ ["gain", "gini", "entropy"] then
    match pruning with
    | none => ({ o with criterion := some criterion, generator := some criterion, pruner := none }, none)
    | some p =>
      match getPrunerName p with
      | .ok q => ({ o with criterion := some criterion, generator := some criterion, pruner := some q }, none)
      | .error e => (o, some e)
  else (o, some .attributeError)

/-- decision_tree_classifier.py:168-178: generation (unless a tree was loaded), then pruning. `self.generator._x = x` on `None` raises `AttributeError` (line 156). -/
def TreeState.grow (gen : String → D → Except PyErr T) (o : TreeState T) (d : D) : TreeState T × Option PyErr :=
  match o.generator with
  | none => (o, some .attributeError)
  | some c =>
    if o.loaded = false then
      match gen c d with
      | .ok t => ({ o with tree := some t }, none)
      | .error e => (o, some e)
    else (o, none)

/-- decision_tree_classifier.py:172-178: pruning with the validation set; a missing tree has no attribute `leaf`. -/
def TreeState.prune (prune : Pruning → D → D → T → T × Option PyErr) (o : TreeState T) (d : D) (v : Option D) : TreeState T × Option PyErr :=
  match o.pruner, v, o.tree with
  | none, _, _ => ({ o with trained := true }, none)
  | some _, none, _ => (o, some .attributeError)
  | some _, some _, none => (o, some .attributeError)
  | some p, some v, some t =>
    match prune p d v t with
    | (t', none) => ({ o with tree := some t', trained := true }, none)
    | (t', some e) => ({ o with tree := some t' }, some e)

/-- decision_tree_classifier.py:126-180 `fit`; lines 149-151: a pruner without validation set is refused at once. -/
def TreeState.fit (gen : String → D → Except PyErr T) (prune : Pruning → D → D → T → T × Option PyErr) (o : TreeState T) (d : D) (v : Option D) :
    TreeState T × Option PyErr :=
  if o.pruner.isSome ∧ v.isNone then (o, some .attributeError)
  else match o.grow gen d with
    | (o', none) => o'.prune prune d v
    | (o', some e) => (o', some e)

/-- decision_tree_classifier.py:245-276 `load_weights`: the pruning of the file is looked at only if the instance has a pruner. -/
def TreeState.load (o : TreeState T) (criterion pruning : Option String) (tree : Option T) : TreeState T × Option PyErr :=
  match criterion with
  | none => (o, some .keyError)
  | some c =>
    let finish (o' : TreeState T) : TreeState T × Option PyErr :=
      match tree with
      | none => (o', some .keyError)
      | some t => ({ o' with tree := some t, loaded := true }, none)
    match o.pruner, pruning with
    | none, _ => finish { o with criterion := some c }
    | some _, none => ({ o with criterion := some c }, some .keyError)
    | some _, some p =>
      match getPrunerName p with
      | .error e => ({ o with criterion := some c }, some e)
      | .ok q => finish { o with criterion := some c, pruner := some q }

/-- decision_tree_classifier.py:103-180, 245-276: one call. -/
def TreeState.step (gen : String → D → Except PyErr T) (prune : Pruning → D → D → T → T × Option PyErr) (o : TreeState T) : TreeCall D T → TreeState T × Option PyErr
  | .compile c p => o.compile c p
  | .fit d v => o.fit gen prune d v
  | .load c p t => o.load c p t
  | .badFile e => (o, some e)

/-- decision_tree_classifier.py:182-231 `predict` for a row; `None` has no attribute `leaf`. -/
def TreeState.predict (ask : T → X → Except PyErr Y) (o : TreeState T) (x : X) : Except PyErr Y :=
  if o.trained = false ∧ o.loaded = false then .error .valueError
  else match o.tree with
    | none => .error .attributeError
    | some t => ask t x

end CML.Failed
