import Verif.Model.Tree
import Verif.Model.Metrics

/-!
# Model of decision stumps and two-level trees

`DecisionStumpGenerator` and `TwoLevelDecisionTreeGenerator` (classicML/backend/python/tree/generators.py:117-265), `WeightedGini`
(classicML/backend/python/tree/criteria.py:192-258) and the corresponding classifiers
(classicML/api/models/tree/decision_tree_classifier.py:47-63, 326-377).

The dividing point of a stump is computed from columns that already have the working precision, so its conversion at
generators.py:236 is the identity.
-/

namespace CML.Small

open CML.DTree (midpoints)

variable {K : Type*} [Field K] [LinearOrder K] {m : Nat}

/-- generators.py:230, `division_mode`. -/
inductive Mode
  | gte | le
  deriving DecidableEq

/-- generators.py:16-30 `_DecisionStump` after a successful search. -/
structure Stump (K : Type*) (m : Nat) where
  feature : Fin m
  point : K
  mode : Mode

/-- generators.py:256-260 and decision_tree_classifier.py:56-63: the prediction of a stump. -/
def Stump.predict (s : Stump K m) (r : Fin m → K) : Int :=
  match s.mode with
  | .gte => if s.point ≤ r s.feature then -1 else 1
  | .le => if r s.feature < s.point then -1 else 1

/-- generators.py:225-228: the candidate points of a column, midpoints of consecutive sorted values (with repetitions). -/
def candidatePoints (col : List K) : List K := midpoints (col.insertionSort (· ≤ ·))

/-- generators.py:243-265 `evaluate`: one minus `BinaryAccuracy` (for no samples there is no candidate to evaluate). -/
def Stump.error (s : Stump K m) (data : List ((Fin m → K) × Int)) : WithTop K :=
  match Metrics.binaryAccuracy (data.map fun q => ((s.predict q.1 : Int) : K)) (data.map Prod.snd) with
  | .ok v => ((1 - v : K) : WithTop K)
  | .error _ => ⊤

/-- generators.py:223-231: the candidates in the order in which they are tried. -/
def stumpCandidates (data : List ((Fin m → K) × Int)) : List (Stump K m) :=
  (List.finRange m).flatMap fun i => [Mode.gte, Mode.le].flatMap fun md =>
    (candidatePoints (data.map fun q => q.1 i)).map fun t => ⟨i, t, md⟩

/-- generators.py:232-238: the running best of the search. -/
def bestStump (err : Stump K m → WithTop K) : List (Stump K m) → WithTop K × Option (Stump K m) → Option (Stump K m)
  | [], best => best.2
  | s :: l, best => bestStump err l (if err s < best.1 then (err s, some s) else best)

/-- generators.py:209-240 `tree_generate`; `none` is the initial stump (index -1, no point). -/
def stumpGenerate (data : List ((Fin m → K) × Int)) : Option (Stump K m) :=
  bestStump (fun s => s.error data) (stumpCandidates data) (⊤, none)

/-- decision_tree_classifier.py:47-63 `predict`: comparing with the missing dividing point raises `TypeError`. -/
def stumpPredict (s : Option (Stump K m)) (xs : List (Fin m → K)) : Except PyErr (List Int) :=
  match s with
  | none => .error .typeError
  | some s => .ok (xs.map s.predict)

/-! ## Two-level trees -/

/-- A row with its label and weight. -/
structure Sample (K : Type*) (m : Nat) where
  x : Fin m → K
  y : Int
  w : K

/-- generators.py:33-68 `_TreeNode` as used for two-level trees. -/
inductive T2 (K : Type*) (m : Nat)
  | leaf (cat : Int)
  | node (a : Fin m) (t : K) (upper lower : T2 K m)

/-- decision_tree_classifier.py:364-377 `_predict`. -/
def T2.predict (r : Fin m → K) : T2 K m → Int
  | .leaf c => c
  | .node a t up lo => if t ≤ r a then up.predict r else lo.predict r

/-- The total weight of a list of samples. -/
def weight (d : List (Sample K m)) : K := (d.map Sample.w).sum

/-- generators.py:142-150: the category of a leaf. -/
def leafCat (d : List (Sample K m)) : Int :=
  if weight (d.filter fun s => s.y = -1) < weight (d.filter fun s => s.y = 1) then 1 else -1

/-- criteria.py:197-214 `WeightedGini.__call__`: one minus the sum of the squared weight shares of the labels. -/
def wgini (d : List (Sample K m)) : K :=
  1 - ((pyUnique (d.map Sample.y)).map fun c => (weight (d.filter fun s => s.y = c) / weight d) ^ 2).sum

/-- criteria.py:244-252: the criterion value of a split. -/
def wCost (d : List (Sample K m)) (a : Fin m) (t : K) : K :=
  let up := d.filter fun s => t ≤ s.x a
  let lo := d.filter fun s => s.x a < t
  (weight up * wgini up + weight lo * wgini lo) / weight d

/-- criteria.py:216-258 `WeightedGini.get_value`: first best candidate of one column. Weights are positive, so no division by zero
occurs for a non-empty column. -/
def wValue (d : List (Sample K m)) (a : Fin m) : WithTop K × Option K :=
  CML.DTree.contBest (wCost d a) (candidatePoints (d.map fun s => s.x a)) (⊤, none)

/-- generators.py:181-192: the loop of `choose_feature_to_divide`; the third component is the feature index. -/
def chooseLoop (d : List (Sample K m)) : List (Fin m) → WithTop K × Option K × Option (Fin m) → Option K × Option (Fin m)
  | [], best => best.2
  | a :: l, best =>
    let v := wValue d a
    chooseLoop d l (if v.1 < best.1 then (v.1, v.2, some a) else best)

/-- generators.py:169-192 `choose_feature_to_divide`. -/
def chooseFeature (d : List (Sample K m)) : Option K × Option (Fin m) :=
  chooseLoop d (List.finRange m) (⊤, none, none)

/-- generators.py:123-167 `tree_generate`; the first argument is 2 minus `height`. A missing dividing point raises `TypeError` in
the comparison at line 156. -/
def gen2 : Nat → List (Sample K m) → Except PyErr (T2 K m)
  | 0, d => .ok (.leaf (leafCat d))
  | n + 1, d =>
    if d.length ≤ 2 then .ok (.leaf (leafCat d))
    else match chooseFeature d with
      | (some t, some a) =>
        match gen2 n (d.filter fun s => t ≤ s.x a), gen2 n (d.filter fun s => s.x a < t) with
        | .ok u, .ok l => .ok (.node a t u l)
        | .error e, _ => .error e
        | _, .error e => .error e
      | _ => .error .typeError

/-- decision_tree_classifier.py:311-329 `fit`. -/
def fit2 (d : List (Sample K m)) : Except PyErr (T2 K m) := gen2 2 d

end CML.Small
