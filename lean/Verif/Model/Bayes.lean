import Verif.Prelude
import Mathlib.Analysis.SpecialFunctions.Log.Basic
import Mathlib.Analysis.SpecialFunctions.Sqrt
import Mathlib.Analysis.Real.Pi.Bounds
import Mathlib.Data.List.Sort

/-!
# Model of the Bayes classifiers

classicML/backend/python/ops.py:352-406, 501-547, classicML/backend/cc/ops/ops.cc:323-353,
classicML/api/models/bayes/naive_bayes_classifier.py and classicML/api/models/bayes/semi_naive_bayes_classifiers.py.

Attribute values of discrete columns have any type `V`; continuous columns hold real numbers.  Whether a column is continuous is decided
by `type_of_target` (C05) and is part of the data here.  `none` is NaN, `⊥` is `-inf`.  Rounding is not modelled, except the
rounding of densities, whose underflow the code treats specially.
-/

namespace CML.Bayes

variable {V : Type*} [DecidableEq V]

/-! ## The estimates -/

/-- A quotient of two counts, as a real number. -/
noncomputable def ratio (a b : Nat) : ℝ := (a : ℝ) / (b : ℝ)

/-- ops.py:352-378 `get_conditional_probability`; 0/0 is NaN (the numerator is at most the denominator for counts). -/
noncomputable def condProb (a c num : Nat) (smoothing : Bool) : Option ℝ :=
  if smoothing then (if c + num = 0 then none else some (ratio (a + 1) (c + num)))
  else (if c = 0 then none else some (ratio a c))

/-- ops.py:381-406 `get_dependent_prior_probability`, ops.cc:323-332; there is at least one sample. -/
noncomputable def depPrior (a n values : Nat) (smoothing : Bool) : ℝ :=
  if smoothing then ratio (a + 1) (n + 2 * values) else ratio a n

/-- ops.py:501-522 `get_prior_probability`; division of Python integers by zero raises. -/
noncomputable def prior (n : Nat) (y : List Int) (smoothing : Bool) : Except PyErr (ℝ × ℝ) :=
  let a := if smoothing then y.count 0 + 1 else y.count 0
  let b := if smoothing then n + (pyUnique y).length else n
  if b = 0 then .error .zeroDivision else .ok (ratio a b, 1 - ratio a b)

/-- ops.cc:337-353 `GetPriorProbability` (at least one sample). -/
noncomputable def priorCC (n : Nat) (y : List Int) (smoothing : Bool) : ℝ × ℝ :=
  let p := if smoothing then ratio (y.length - y.countP (· ≠ 0) + 1) (n + 2) else ratio (y.length - y.countP (· ≠ 0)) n
  (p, 1 - p)

open Classical in
/-- ops.py:525-547 `get_probability_density`; `fl` is the conversion to the working precision. For `var = 0` the result is NaN. -/
noncomputable def density (fl : ℝ → ℝ) (sample mean var : ℝ) : Option ℝ :=
  if var = 0 then none
  else
    let p := fl (1 / (√(2 * Real.pi) * var) * Real.exp (-(sample - mean) ^ 2 / (2 * var ^ 2)))
    if p = 0 then some (1 / 10 ^ 36) else some p

/-! ## Scores -/

open Classical in
/-- `np.log` of a non-negative number. -/
noncomputable def logB (p : ℝ) : WithBot ℝ := if p = 0 then ⊥ else ((Real.log p : ℝ) : WithBot ℝ)

/-- `score += np.log(p)`; NaN is absorbing. -/
noncomputable def addLog (acc : Option (WithBot ℝ)) (p : Option ℝ) : Option (WithBot ℝ) :=
  match acc, p with
  | some s, some p => some (s + logB p)
  | _, _ => none

/-- naive_bayes_classifier.py:204-224, semi_naive_bayes_classifiers.py:340-414: sum of the logarithms, from left to right. -/
noncomputable def score (init : Option (WithBot ℝ)) (ps : List (Option ℝ)) : Option (WithBot ℝ) := ps.foldl addLog init

open Classical in
/-- naive_bayes_classifier.py:229-232, semi_naive_bayes_classifiers.py:251-254, 262-265, 616-619: class 0 iff `p_0 > p_1`; comparisons with
NaN are false. -/
noncomputable def label (s0 s1 : Option (WithBot ℝ)) : Int :=
  match s0, s1 with
  | some a, some b => if b < a then 0 else 1
  | _, _ => 1

/-- naive_bayes_classifier.py:226-227, semi_naive_bayes_classifiers.py:249, 260: the "probabilities"; modelled for finite scores. -/
noncomputable def probabilities (s0 s1 : ℝ) : ℝ × ℝ := (s0 / (s0 + s1), s1 / (s0 + s1))

/-! ## Training data -/

/-- A column. -/
inductive Col (V : Type*)
  | disc (vals : List V)
  | cont (vals : List ℝ)

/-- A value of a row. -/
inductive Cell (V : Type*)
  | disc (v : V)
  | cont (r : ℝ)

/-- `x[y == c]` for one column. -/
def select {α : Type*} (y : List Int) (c : Int) (l : List α) : List α := ((l.zip y).filter fun q => q.2 = c).map Prod.fst

open Classical in
/-- `np.mean` and `np.var`; NaN for an empty array. -/
noncomputable def meanVar (l : List ℝ) : Option (ℝ × ℝ) :=
  if l = [] then none
  else
    let m := l.sum / l.length
    some (m, (l.map fun v => (v - m) ^ 2).sum / l.length)

/-- The stored information on one attribute for one class (or one class and super-parent value). -/
inductive Stored (V : Type*)
  | cont (mv : Option (ℝ × ℝ))
  | disc (counts : List (V × Nat)) (total num : Nat)

/-- The factor contributed by one attribute: naive_bayes_classifier.py:209-224, semi_naive_bayes_classifiers.py:386-397. A value that did not
occur in training raises `KeyError`. A value of the wrong kind raises `TypeError` (a simplification). -/
noncomputable def factor (fl : ℝ → ℝ) (smoothing : Bool) (s : Stored V) (x : Cell V) : Except PyErr (Option ℝ) :=
  match s, x with
  | .cont none, .cont _ => .ok none
  | .cont (some (m, v)), .cont r => .ok (density fl r m v)
  | .disc counts total num, .disc v =>
    match counts.lookup v with
    | none => .error .keyError
    | some a => .ok (condProb a total num smoothing)
  | _, _ => .error .typeError

/-- The factors of all attributes. A row with too few values does not get here: `pd.DataFrame(x, columns=...)` refuses it with
`ValueError` (naive_bayes_classifier.py:175). -/
noncomputable def factors (fl : ℝ → ℝ) (smoothing : Bool) : List (Stored V) → List (Cell V) → Except PyErr (List (Option ℝ))
  | [], _ => .ok []
  | _ :: _, [] => .error .valueError
  | s :: ss, x :: xs =>
    match factor fl smoothing s x with
    | .error e => .error e
    | .ok p => match factors fl smoothing ss xs with
      | .error e => .error e
      | .ok ps => .ok (p :: ps)

/-! ## NaiveBayesClassifier -/

/-- naive_bayes_classifier.py:112-130: the counts of a discrete attribute in one class. They are computed in the order of `xi.unique()`
and then attached to the names in the order of `pd.value_counts(xi)`, the parameter `order`. -/
def nbCounts (order : List V → List V) (xi xc : List V) : List (V × Nat) :=
  (order xi).zip ((pyUnique xi).map fun v => xc.count v)

/-- naive_bayes_classifier.py:91-140: one attribute, for one class. With a single distinct value `np.squeeze` yields an array without axes
and indexing it raises `IndexError`. -/
noncomputable def nbColumn (order : List V → List V) (y : List Int) (c : Int) : Col V → Except PyErr (Stored V)
  | .cont l => .ok (.cont (meanVar (select y c l)))
  | .disc l =>
    if (pyUnique l).length = 1 then .error .indexError
    else .ok (.disc (nbCounts order l (select y c l)) (select y c l).length (pyUnique l).length)

/-- A fitted naive Bayes classifier. -/
structure NB (V : Type*) where
  p0 : ℝ
  p1 : ℝ
  pi0 : List (Stored V)
  pi1 : List (Stored V)

/-- naive_bayes_classifier.py:60-144 `fit`; `y` has as many entries as the columns. -/
noncomputable def nbFit (order : List V → List V) (cols : List (Col V)) (y : List Int) (smoothing : Bool) : Except PyErr (NB V) :=
  match prior y.length y smoothing with
  | .error e => .error e
  | .ok (p0, p1) =>
    match cols.mapM (nbColumn order y 0), cols.mapM (nbColumn order y 1) with
    | .ok a, .ok b => .ok ⟨p0, p1, a, b⟩
    | .error e, _ => .error e
    | _, .error e => .error e

/-- naive_bayes_classifier.py:191-232 `_predict` without probabilities. -/
noncomputable def nbPredict (fl : ℝ → ℝ) (smoothing : Bool) (m : NB V) (x : List (Cell V)) : Except PyErr Int :=
  match factors fl smoothing m.pi0 x, factors fl smoothing m.pi1 x with
  | .ok f0, .ok f1 => .ok (label (score (some (logB m.p0)) f0) (score (some (logB m.p1)) f1))
  | .error e, _ => .error e
  | _, .error e => .error e

/-- naive_bayes_classifier.py:42-58, 60-77: `fit` of the object; `pd.DataFrame(x, columns=self.attribute_name)` raises `ValueError` for an
array when the number of names is not the number of columns. The names are supposed distinct. -/
noncomputable def nbObjFit (order : List V → List V) (names : Option (List String)) (cols : List (Col V)) (y : List Int)
    (smoothing : Bool) : Except PyErr (NB V) :=
  match names with
  | some ns => if ns.length ≠ cols.length then .error .valueError else nbFit order cols y smoothing
  | none => nbFit order cols y smoothing

/-- naive_bayes_classifier.py:146-189 `predict` of the object for one row of an array: not trained and not loaded (`m = none`) raises
`ValueError`; so does a row whose length is not the number of names; without names `enumerate(self.attribute_name)` raises `TypeError`. -/
noncomputable def nbObjPredict (fl : ℝ → ℝ) (smoothing : Bool) (names : Option (List String)) (m : Option (NB V)) (x : List (Cell V)) :
    Except PyErr Int :=
  match m with
  | none => .error .valueError
  | some m => match names with
    | none => .error .typeError
    | some ns => if x.length ≠ ns.length then .error .valueError else nbPredict fl smoothing m x

/-! ## SuperParentOneDependentEstimator -/

/-- semi_naive_bayes_classifiers.py:215: one element of `_list_of_p_c`. -/
structure Entry (V : Type*) where
  cat : Int
  value : V
  prior : ℝ
  params : List (Stored V)

/-- semi_naive_bayes_classifiers.py:166-167: the part of a column with label `c` and super-parent value `v`. -/
def select2 {α : Type*} (sp : List V) (y : List Int) (v : V) (c : Int) (l : List α) : List α :=
  ((l.zip (sp.zip y)).filter fun q => q.2.1 = v ∧ q.2.2 = c).map Prod.fst

/-- semi_naive_bayes_classifiers.py:175-213: one attribute. -/
noncomputable def spodeColumn (sp : List V) (y : List Int) (v : V) (c : Int) : Col V → Stored V
  | .cont l =>
    if (select2 sp y v c l).length ≤ 2 then .cont (meanVar (select y c l)) else .cont (meanVar (select2 sp y v c l))
  | .disc l => .disc ((pyUnique l).map fun u => (u, (select2 sp y v c l).count u)) (select2 sp y v c l).length (pyUnique l).length

/-- semi_naive_bayes_classifiers.py:159-215: the elements that `fit` appends; the super-parent is a discrete column `sp`. -/
noncomputable def spodeEntries (cols : List (Col V)) (sp : List V) (y : List Int) (smoothing : Bool) : List (Entry V) :=
  ((pyUnique y).insertionSort (· ≤ ·)).flatMap fun c => (pyUnique sp).map fun v =>
    ⟨c, v, depPrior (select2 sp y v c sp).length y.length (pyUnique sp).length smoothing, cols.map (spodeColumn sp y v c)⟩

/-- semi_naive_bayes_classifiers.py:136-219 `fit`: `_list_of_p_c` is extended, never emptied. -/
noncomputable def spodeFit (old : List (Entry V)) (cols : List (Col V)) (sp : List V) (y : List Int) (smoothing : Bool) : List (Entry V) :=
  old ++ spodeEntries cols sp y smoothing

/-- semi_naive_bayes_classifiers.py:367-414 `_calculate_posterior_probability`: the factors of one element. -/
noncomputable def entryFactors (fl : ℝ → ℝ) (smoothing : Bool) (e : Entry V) (x : List (Cell V)) : Except PyErr (List (Option ℝ)) :=
  match factors fl smoothing e.params x with
  | .ok ps => .ok (some e.prior :: ps)
  | .error e => .error e

/-- The factors of all given elements of one class. -/
noncomputable def allFactors (fl : ℝ → ℝ) (smoothing : Bool) (c : Int) (x : List (Cell V)) :
    List (Entry V) → Except PyErr (List (Option ℝ))
  | [] => .ok []
  | e :: es =>
    if e.cat = c then
      match entryFactors fl smoothing e x with
      | .error e => .error e
      | .ok ps => match allFactors fl smoothing c x es with
        | .error e => .error e
        | .ok qs => .ok (ps ++ qs)
    else allFactors fl smoothing c x es

/-- semi_naive_bayes_classifiers.py:221-267, 354-365 `predict` for one row: all elements are used. -/
noncomputable def spodePredict (fl : ℝ → ℝ) (smoothing : Bool) (es : List (Entry V)) (x : List (Cell V)) : Except PyErr Int :=
  match allFactors fl smoothing 0 x es, allFactors fl smoothing 1 x es with
  | .ok f0, .ok f1 => .ok (label (score (some 0) f0) (score (some 0) f1))
  | .error e, _ => .error e
  | _, .error e => .error e

/-! ## AveragedOneDependentEstimator -/

/-- semi_naive_bayes_classifiers.py:481-485: the columns that serve as super-parents. -/
def superParents (m : Nat) (cols : List (Col V)) : List (List V) :=
  cols.filterMap fun
    | .disc l => if (pyUnique l).all fun v => m < l.count v then some l else none
    | .cont _ => none

/-- semi_naive_bayes_classifiers.py:444-497 `compile`, `fit`: returns `_list_of_p_c` and `_attribute_list`. All elements of `_attribute_list` are
the same Python list, so after the loop each holds everything that was appended. -/
noncomputable def aodeFit (old : List (Entry V)) (m : Nat) (cols : List (Col V)) (y : List Int) (smoothing : Bool) :
    List (Entry V) × List (List (Entry V)) :=
  let final := (superParents m cols).foldl (fun acc sp => spodeFit acc cols sp y smoothing) old
  (final, List.replicate (superParents m cols).length final)

/-- semi_naive_bayes_classifiers.py:362: `i['attribute'] == x[super_parent_index]`. `num v` is the number that the value `v` of a discrete column is,
if it is one (a whole number); a number in a continuous column can be equal to it. -/
noncomputable def Cell.is (num : V → Option ℝ) (x : Cell V) (v : V) : Bool :=
  match x with
  | .disc u => decide (u = v)
  | .cont r => by classical exact decide (num v = some r)

/-- semi_naive_bayes_classifiers.py:361-363, 611-614: the elements used for the `i`-th member of `_attribute_list`. -/
noncomputable def aodeUsed (num : V → Option ℝ) (attr : List (List (Entry V))) (x : List (Cell V)) (i : Nat) : List (Entry V) :=
  match attr[i]?, x[i]? with
  | some es, some c => es.filter fun e => c.is num e.value
  | _, _ => []

/-- semi_naive_bayes_classifiers.py:499-527 `predict` (of a fitted estimator), 600-619 `_predict`: scores are summed over the members. -/
noncomputable def aodePredict (fl : ℝ → ℝ) (num : V → Option ℝ) (smoothing : Bool) (attr : List (List (Entry V))) (x : List (Cell V)) :
    Except PyErr Int :=
  spodePredict fl smoothing ((List.range attr.length).flatMap (aodeUsed num attr x)) x

end CML.Bayes
