import Verif.Prelude
import Mathlib.Algebra.Order.Field.Basic
import Mathlib.Order.WithBot
import Mathlib.Data.List.Sort
import Mathlib.Algebra.BigOperators.Group.List.Basic

/-!
# Model of decision trees

`DecisionTreeGenerator` (classicML/backend/python/tree/generators.py:268-367), the criteria
(classicML/backend/python/tree/criteria.py:13-190), `DecisionTreeClassifier.predict`
(classicML/api/models/tree/decision_tree_classifier.py:182-231) and the pruners (classicML/backend/python/tree/pruners.py).

A row has `m` attributes with values in `V`; `num` is the number compared with the dividing point of a continuous node.
`DataFrame`s are lists of rows (the boolean masks of pandas, computed on the full frame and aligned by index, select the rows of
the current subset whose own value passes the test).  Labels are integers.
-/

namespace CML.DTree

universe u w

variable {V : Type u} {K : Type w} {m : Nat}

/-- A row of the feature frame. -/
abbrev Row (V : Type*) (m : Nat) := Fin m → V

mutual
/-- generators.py:33-68 `_TreeNode`: a leaf (its `num_of_leaves` is 1 and its `height` 0), a continuous node with the two
branches `'>= t'` and `'< t'`, a discrete node with a branch per value. `nl` and `ht` are the recorded `num_of_leaves` and
`height`. -/
inductive Tree (V : Type u) (K : Type w) (m : Nat)
  | leaf (cat : Int)
  | cont (attr : Fin m) (t : K) (nl ht : Int) (ge lt : Tree V K m)
  | disc (attr : Fin m) (nl ht : Int) (br : Forest V K m)
/-- The `subtree` dictionary of a discrete node, in insertion order. -/
inductive Forest (V : Type u) (K : Type w) (m : Nat)
  | nil
  | cons (v : V) (t : Tree V K m) (rest : Forest V K m)
end

/-- The recorded `num_of_leaves`. -/
def Tree.nl : Tree V K m → Int
  | .leaf _ => 1
  | .cont _ _ n _ _ _ => n
  | .disc _ n _ _ => n

/-- The recorded `height`. -/
def Tree.ht : Tree V K m → Int
  | .leaf _ => 0
  | .cont _ _ _ h _ _ => h
  | .disc _ _ h _ => h

/-- The `leaf` flag. -/
def Tree.isLeaf : Tree V K m → Bool
  | .leaf _ => true
  | _ => false

mutual
/-- decision_tree_classifier.py:215-231 `_predict`; a missing key of the `subtree` dictionary raises `KeyError`. -/
def predict [DecidableEq V] [LE K] [DecidableLE K] (num : V → K) (row : Row V m) : Tree V K m → Except PyErr Int
  | .leaf c => .ok c
  | .cont a t _ _ ge lt => if t ≤ num (row a) then predict num row ge else predict num row lt
  | .disc a _ _ br => predictIn num row (row a) br
/-- The dictionary look-up of decision_tree_classifier.py:231. -/
def predictIn [DecidableEq V] [LE K] [DecidableLE K] (num : V → K) (row : Row V m) (v : V) :
    Forest V K m → Except PyErr Int
  | .nil => .error .keyError
  | .cons w t rest => if v = w then predict num row t else predictIn num row v rest
end

/-! ## Criteria -/

section Criteria
variable [Field K] [LinearOrder K]

/-- criteria.py:48-55, the candidate dividing points: midpoints of neighbouring distinct values in increasing order. -/
def midpoints : List K → List K
  | a :: b :: l => (a + b) / 2 :: midpoints (b :: l)
  | _ => []

/-- criteria.py:57-61: weighted impurity of the split of the column `D` with labels `y` at `t`. -/
def contValue (imp : List Int → K) (D : List K) (y : List Int) (t : K) : K :=
  let up := ((D.zip y).filter fun p => t ≤ p.1).map Prod.snd
  let down := ((D.zip y).filter fun p => p.1 < t).map Prod.snd
  (up.length : K) / (y.length : K) * imp up + (down.length : K) / (y.length : K) * imp down

/-- criteria.py:69-74: weighted impurity of the split by value. -/
def discValue [DecidableEq V] (imp : List Int → K) (D : List V) (y : List Int) : K :=
  ((pyUnique D).map fun v =>
    let Dv := ((D.zip y).filter fun p => v = p.1).map Prod.snd
    (Dv.length : K) / (y.length : K) * imp Dv).sum

/-- criteria.py:57-67: the running best of the candidate loop (`if criterion_value > current`, starting from `inf`). -/
def contBest (value : K → K) : List K → WithTop K × Option K → WithTop K × Option K
  | [], best => best
  | t :: ts, best => contBest value ts (if (value t : WithTop K) < best.1 then (value t, some t) else best)

/-- criteria.py:33-74 `Criterion.get_value`; `imp` is `__call__`. The result is the value and, for a continuous attribute, the
list has a second entry, the dividing point (possibly `None`): outer option. -/
def getValue [DecidableEq V] (imp : List Int → K) (num : V → K) (continuous : Bool) (D : List V) (y : List Int) :
    WithTop K × Option (Option K) :=
  if continuous then
    let feats := (pyUnique (D.map num)).insertionSort (· ≤ ·)
    let r := contBest (contValue imp (D.map num) y) (midpoints feats) (⊤, none)
    (r.1, some r.2)
  else ((discValue imp D y : K), none)

/-- criteria.py:87-99: the loop of `Criterion.optimal_division` over the attributes, starting from `inf`. -/
def minLoop {A : Type*} (value : A → WithTop K × Option (Option K)) :
    List A → Option A × (WithTop K × Option (Option K)) → Option A × (WithTop K × Option (Option K))
  | [], best => best
  | a :: l, best => minLoop value l (if (value a).1 < best.2.1 then (some a, value a) else best)

/-- criteria.py:76-99 `Criterion.optimal_division`. `isCont` is `type_of_target(column) == 'continuous'`. -/
def optimalDivision [DecidableEq V] (imp : List Int → K) (num : V → K) (isCont : List V → Bool)
    (cols : List (Fin m)) (xs : List (Row V m)) (ys : List Int) :
    Option (Fin m) × (WithTop K × Option (Option K)) :=
  minLoop (fun a => let D := xs.map fun r => r a; getValue imp num (isCont D) D ys) cols (none, ⊤, none)

/-- criteria.py:125-144 `Gain.get_value`: the gain `D_entropy - value`; an infinite value gives minus infinity. -/
def gainOf (H : K) : WithTop K → WithBot K
  | ⊤ => ⊥
  | (v : K) => ((H - v : K) : WithBot K)

/-- criteria.py:157-171: the loop of `Gain.optimal_division`, starting from minus infinity. -/
def maxLoop {A : Type*} (value : A → WithBot K × Option (Option K)) :
    List A → Option A × (WithBot K × Option (Option K)) → Option A × (WithBot K × Option (Option K))
  | [], best => best
  | a :: l, best => maxLoop value l (if best.2.1 < (value a).1 then (some a, value a) else best)

/-- criteria.py:146-172 `Gain.optimal_division`; `imp` is the entropy. -/
def gainDivision [DecidableEq V] (imp : List Int → K) (num : V → K) (isCont : List V → Bool)
    (cols : List (Fin m)) (xs : List (Row V m)) (ys : List Int) :
    Option (Fin m) × (WithBot K × Option (Option K)) :=
  let H := imp ys
  maxLoop (fun a =>
    let D := xs.map fun r => r a
    let r := getValue imp num (isCont D) D ys
    (gainOf H r.1, r.2)) cols (none, ⊥, none)

/-- criteria.py:174-190 `Gini.__call__`: one minus the sum of the squared label frequencies. -/
def gini (y : List Int) : K :=
  1 - ((pyUnique y).map fun c => ((y.count c : K) / (y.length : K)) ^ 2).sum

end Criteria

/-! ## Generation -/

/-- What the generator uses of the outside: the criterion's choice (attribute, and for a continuous attribute the dividing
point; `none` when no attribute beats infinity), and `pd.value_counts(y).index[0]`, whose choice among equally frequent labels
is unspecified (`none`: `IndexError` on an empty series). -/
structure Oracle (V : Type u) (K : Type w) (m : Nat) where
  split : List (Fin m) → List (Row V m) → List Int → Option (Fin m × Option K)
  maj : List Int → Option Int
  num : V → K
  /-- conversion of the dividing point to the working precision, generators.py:325 -/
  fl : K → K

/-- generators.py:315-325 with one of the criteria of criteria.py:76-99: the criterion's answer as used by the generator. A list
of length 1 means a discrete attribute; the case `[inf, None]` cannot be chosen. -/
def criterionOracle [DecidableEq V] [Field K] [LinearOrder K] (imp : List Int → K) (num : V → K) (isCont : List V → Bool)
    (maj : List Int → Option Int) (fl : K → K) : Oracle V K m where
  split cols xs ys :=
    match optimalDivision imp num isCont cols xs ys with
    | (some a, _, none) => some (a, none)
    | (some a, _, some (some t)) => some (a, some t)
    | _ => none
  maj := maj
  num := num
  fl := fl

/-- generators.py:315-325 with `Gain`. -/
def gainOracle [DecidableEq V] [Field K] [LinearOrder K] (imp : List Int → K) (num : V → K) (isCont : List V → Bool)
    (maj : List Int → Option Int) (fl : K → K) : Oracle V K m where
  split cols xs ys :=
    match gainDivision imp num isCont cols xs ys with
    | (some a, _, none) => some (a, none)
    | (some a, _, some (some t)) => some (a, some t)
    | _ => none
  maj := maj
  num := num
  fl := fl

/-- generators.py:347-363: the loop over the values of the attribute. -/
def genForest (gen : V → Except PyErr (Tree V K m)) : List V → Except PyErr (Forest V K m)
  | [] => .ok .nil
  | v :: vs =>
    match gen v with
    | .error e => .error e
    | .ok t =>
      match genForest gen vs with
      | .error e => .error e
      | .ok r => .ok (.cons v t r)

/-- generators.py:347, 360-361: the largest recorded height of the branches, starting from -1. -/
def maxHeight : Int → Forest V K m → Int
  | acc, .nil => acc
  | acc, .cons _ t rest => maxHeight (if acc < t.ht then t.ht else acc) rest

/-- generators.py:363: the sum of the recorded leaf counts. -/
def sumLeaves : Forest V K m → Int
  | .nil => 0
  | .cons _ t rest => t.nl + sumLeaves rest

/-- The labels of the rows that pass a test: `y.loc[mask]`. -/
def selY (p : Row V m → Bool) (xs : List (Row V m)) (ys : List Int) : List Int :=
  ((xs.zip ys).filter fun q => p q.1).map Prod.snd

/-- generators.py:282-367 `tree_generate`. `full` is `self._x`; the recursion limit of Python is the first argument
(`RecursionError` at 0). `cols`/`xs` are the columns and rows of `x`, `ys` is `y` (in an empty branch `xs` is empty and `ys` are the
labels of the parent, lines 348-351). -/
def generate [DecidableEq V] [LinearOrder K] (o : Oracle V K m) (full : List (Row V m)) :
    Nat → List (Fin m) → List (Row V m) → List Int → Except PyErr (Tree V K m)
  | 0, _, _, _ => .error .recursionError
  | fuel + 1, cols, xs, ys =>
    if (pyUnique ys).length = 1 then
      match ys with
      | [] => .error .indexError
      | c :: _ => .ok (.leaf c)
    else if xs = [] ∨ cols = [] then
      match o.maj ys with
      | none => .error .indexError
      | some c => .ok (.leaf c)
    else
      match o.split cols xs ys with
      | none => .error .valueError  -- `list(columns).index(None)`
      | some (a, some t₀) =>
        let t := o.fl t₀
        let up := fun r : Row V m => decide (t ≤ o.num (r a))
        let down := fun r : Row V m => decide (o.num (r a) < t)
        match generate o full fuel cols (xs.filter up) (selY up xs ys),
            generate o full fuel cols (xs.filter down) (selY down xs ys) with
        | .ok g, .ok l => .ok (.cont a t (g.nl + l.nl) (g.ht + l.ht + 1) g l)
        | .error e, _ => .error e
        | _, .error e => .error e
      | some (a, none) =>
        let sub := cols.filter (fun c => c ≠ a)
        match genForest (fun v =>
            let is := fun r : Row V m => decide (r a = v)
            if selY is xs ys = [] then generate o full fuel sub (xs.filter is) ys
            else generate o full fuel sub (xs.filter is) (selY is xs ys))
            (pyUnique (full.map fun r => r a)) with
        | .error e => .error e
        | .ok br => .ok (.disc a (sumLeaves br) (maxHeight (-1) br + 1) br)

/-- decision_tree_classifier.py:126-180 `fit` without pruning: generation on the whole frame. -/
def fit [DecidableEq V] [LinearOrder K] (o : Oracle V K m) (limit : Nat) (xs : List (Row V m)) (ys : List Int) :
    Except PyErr (Tree V K m) :=
  generate o xs limit (List.finRange m) xs ys

/-! ## Post-pruning -/

/-- Number of validation rows in a data set with a given property. -/
def countP (p : Row V m × Int → Bool) (val : List (Row V m × Int)) : Nat := (val.filter p).length

/-- pruners.py:148-152, the correct samples of a discrete bottom node: the group of every validation value is looked up in
`subtree` (`KeyError` if missing) and compared with the category of that leaf. `none` = `KeyError`.  The category of a node that
is not a leaf is never asked for (`all_leaves`, lines 113-114). -/
def leafOf [DecidableEq V] (v : V) : Forest V K m → Option Int
  | .nil => none
  | .cons w t rest => if v = w then (match t with | .leaf c => some c | _ => none) else leafOf v rest

/-- pruners.py:111-112: are all the branches leaves. -/
def allLeaves : Forest V K m → Bool
  | .nil => true
  | .cons _ t rest => t.isLeaf && allLeaves rest

/-- pruners.py:108-109 (post) and 245-246 (pre): `if height > max_height: max_height = height + 1`. -/
def buggyMax : Int → Forest V K m → Int
  | acc, .nil => acc
  | acc, .cons _ t rest => buggyMax (if acc < t.ht then t.ht + 1 else acc) rest

mutual
/-- pruners.py:41-154 `PostPruner.__call__` with `calculation_accuracy` (for a continuous node the groups are the two keys that `_divide` formats,
lines 139-146) and generators.py:70-85 `reset` (the node becomes a leaf). Accuracies are compared through the numbers of correct samples. Training and validation frames are lists of labelled rows. -/
def postPrune [DecidableEq V] [LinearOrder K] (num : V → K) (maj : List Int → Option Int) :
    Tree V K m → List (Row V m × Int) → List (Row V m × Int) → Except PyErr (Tree V K m)
  | .leaf c, _, _ => .ok (.leaf c)
  | .cont a t nl ht ge lt, train, val =>
    if val = [] then .ok (.cont a t nl ht ge lt)
    else match maj (train.map Prod.snd) with
      | none => .error .indexError
      | some c =>
        match postPrune num maj ge (train.filter fun q => t ≤ num (q.1 a)) (val.filter fun q => t ≤ num (q.1 a)) with
        | .error e => .error e
        | .ok g =>
          match postPrune num maj lt (train.filter fun q => num (q.1 a) < t) (val.filter fun q => num (q.1 a) < t) with
          | .error e => .error e
          | .ok l =>
            match g, l with
            | .leaf cg, .leaf cl =>
              let before := countP (fun q => (if t ≤ num (q.1 a) then cg else cl) = q.2) val
              let after := countP (fun q => q.2 = c) val
              if before < after then .ok (.leaf c)
              else .ok (.cont a t (g.nl + l.nl) (max g.ht l.ht + 1) g l)
            | _, _ => .ok (.cont a t (g.nl + l.nl) (max g.ht l.ht + 1) g l)
  | .disc a nl ht br, train, val =>
    if val = [] then .ok (.disc a nl ht br)
    else match maj (train.map Prod.snd) with
      | none => .error .indexError
      | some c =>
        match postPruneIn num maj a br train val with
        | .error e => .error e
        | .ok br' =>
          if allLeaves br' then
            if val.all fun q => (leafOf (q.1 a) br').isSome then
              let before := countP (fun q => leafOf (q.1 a) br' = some q.2) val
              let after := countP (fun q => q.2 = c) val
              if before < after then .ok (.leaf c)
              else .ok (.disc a (sumLeaves br') (buggyMax (-1) br') br')
            else .error .keyError
          else .ok (.disc a (sumLeaves br') (buggyMax (-1) br') br')
/-- pruners.py:92-114: the loop over the branches. -/
def postPruneIn [DecidableEq V] [LinearOrder K] (num : V → K) (maj : List Int → Option Int) (a : Fin m) :
    Forest V K m → List (Row V m × Int) → List (Row V m × Int) → Except PyErr (Forest V K m)
  | .nil, _, _ => .ok .nil
  | .cons v t rest, train, val =>
    match postPrune num maj t (train.filter fun q => q.1 a = v) (val.filter fun q => q.1 a = v) with
    | .error e => .error e
    | .ok t' =>
      match postPruneIn num maj a rest train val with
      | .error e => .error e
      | .ok r => .ok (.cons v t' r)
end

/-! ## Pre-pruning -/

/-- pruners.py:253-288 `calculation_accuracy`: correct validation samples if each value gets its majority label in the training part; `none` is the
`KeyError` for a validation value without training row in this node. `maj` of a non-empty list is assumed defined. -/
def preCorrect [DecidableEq V] (maj : List Int → Option Int) (a : Fin m) (train val : List (Row V m × Int)) :
    Option Nat :=
  if val.all fun q => train.any fun p => p.1 a = q.1 a then
    some (countP (fun q => maj ((train.filter fun p => p.1 a = q.1 a).map Prod.snd) = some q.2) val)
  else none

mutual
/-- pruners.py:167-251 `PrePruner.__call__`.  For a continuous node `calculation_accuracy` receives the column (a Series) and, if the
dividing point is not 0, evaluates `x.loc[:, name]` on it, which raises `IndexingError` (lines 267-276); for the dividing point 0
the truth test at line 267 fails and the column is grouped by value. -/
def prePrune [DecidableEq V] [LinearOrder K] [Zero K] (num : V → K) (maj : List Int → Option Int) :
    Tree V K m → List (Row V m × Int) → List (Row V m × Int) → Except PyErr (Tree V K m)
  | .leaf c, _, _ => .ok (.leaf c)
  | .cont a t nl ht ge lt, train, val =>
    if val = [] then .ok (.cont a t nl ht ge lt)
    else match maj (train.map Prod.snd) with
      | none => .error .indexError
      | some c =>
        if t ≠ 0 then .error .indexingError
        else match preCorrect maj a train val with
          | none => .error .keyError
          | some after =>
            let before := countP (fun q => q.2 = c) val
            if after ≤ before then .ok (.leaf c)
            else
              match prePrune num maj lt (train.filter fun q => num (q.1 a) < t) (val.filter fun q => num (q.1 a) < t) with
              | .error e => .error e
              | .ok l =>
                match prePrune num maj ge (train.filter fun q => t ≤ num (q.1 a))
                    (val.filter fun q => t ≤ num (q.1 a)) with
                | .error e => .error e
                | .ok g => .ok (.cont a t (g.nl + l.nl) (max g.ht l.ht + 1) g l)
  | .disc a nl ht br, train, val =>
    if val = [] then .ok (.disc a nl ht br)
    else match maj (train.map Prod.snd) with
      | none => .error .indexError
      | some c =>
        match preCorrect maj a train val with
        | none => .error .keyError
        | some after =>
          let before := countP (fun q => q.2 = c) val
          if after ≤ before then .ok (.leaf c)
          else match prePruneIn num maj a br train val with
            | .error e => .error e
            | .ok br' => .ok (.disc a (sumLeaves br') (buggyMax (-1) br' + 1) br')
/-- pruners.py:231-249: the loop over the branches. -/
def prePruneIn [DecidableEq V] [LinearOrder K] [Zero K] (num : V → K) (maj : List Int → Option Int) (a : Fin m) :
    Forest V K m → List (Row V m × Int) → List (Row V m × Int) → Except PyErr (Forest V K m)
  | .nil, _, _ => .ok .nil
  | .cons v t rest, train, val =>
    match prePrune num maj t (train.filter fun q => q.1 a = v) (val.filter fun q => q.1 a = v) with
    | .error e => .error e
    | .ok t' =>
      match prePruneIn num maj a rest train val with
      | .error e => .error e
      | .ok r => .ok (.cons v t' r)
end

end CML.DTree
