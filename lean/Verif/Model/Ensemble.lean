import Verif.Model.SmallTrees
import Verif.Model.Ops
import Mathlib.Analysis.SpecialFunctions.Log.Basic
import Mathlib.Algebra.BigOperators.Fin

/-!
# Model of the ensembles

`AdaBoostClassifier` (classicML/api/models/ensemble/boosting.py) and `BaggingClassifier`
(classicML/api/models/ensemble/bagging.py).

AdaBoost needs `log` and `exp`, so its numbers are real and rounding is not modelled.  The base learner is a parameter: any function from
a sample distribution to a classifier, or to the exception its `fit` raises.  `−inf` coefficients and the NaN votes they cause are
explicit.
-/

namespace CML.Ada

open Finset

variable {X : Type*} {n : Nat}

/-- boosting.py:11 `EPSILON`. -/
noncomputable def EPS : ℝ := 1 / 10 ^ 36

/-- One pass through the training loop: the distribution the learner was trained on, the learner, its weighted error and its
coefficient (`⊥` is `-inf`). -/
structure Round (X : Type*) (n : Nat) where
  dist : Fin n → ℝ
  h : X → Int
  err : ℝ
  alpha : WithBot ℝ

/-- boosting.py:74 `error = np.sum(sample_distribution[y_pred != y])`. -/
noncomputable def errorOf (D : Fin n → ℝ) (p y : Fin n → Int) : ℝ := ∑ i, if p i ≠ y i then D i else 0

open Classical in
/-- boosting.py:76-77 `alpha`; `log 0` is `-inf` (an error above 1 cannot occur). -/
noncomputable def alphaOf (e : ℝ) : WithBot ℝ :=
  if 1 - e = 0 then ⊥ else ((Real.log ((1 - e) / max e EPS) / 2 : ℝ) : WithBot ℝ)

/-- boosting.py:81-83: the weights before normalisation. -/
noncomputable def scaled (D : Fin n → ℝ) (p y : Fin n → Int) (a : ℝ) (i : Fin n) : ℝ :=
  D i * Real.exp ((if p i = y i then -1 else 1) * a)

/-- boosting.py:81-85: the next distribution; with coefficient `-inf` the array holds NaN (`none`). -/
noncomputable def reweight (D : Fin n → ℝ) (p y : Fin n → Int) : WithBot ℝ → Option (Fin n → ℝ)
  | ⊥ => none
  | (a : ℝ) => some fun i => scaled D p y a i / ∑ j, scaled D p y a j

open Classical in
/-- boosting.py:69-90: the training loop, with `k` passes left. Leaving the loop discards the new distribution. A NaN distribution
is never handed on, because the loop is left when the coefficient is `-inf`; the model gives no result for it. -/
noncomputable def loop (learn : (Fin n → ℝ) → Except PyErr (X → Int)) (x : Fin n → X) (y : Fin n → Int) :
    Nat → Option (Fin n → ℝ) → Except PyErr (List (Round X n))
  | 0, _ => .ok []
  | _ + 1, none => .error .valueError
  | k + 1, some D =>
    match learn D with
    | .error e => .error e
    | .ok h =>
      let p := fun i => h (x i)
      let e := errorOf D p y
      let a := alphaOf e
      let r : Round X n := ⟨D, h, e, a⟩
      if e > 1 / 2 ∨ e < EPS then .ok [r]
      else match loop learn x y k (reweight D p y a) with
        | .ok rs => .ok (r :: rs)
        | .error e => .error e

/-- boosting.py:51-97 `fit` on a new model. -/
noncomputable def fit (learn : (Fin n → ℝ) → Except PyErr (X → Int)) (x : Fin n → X) (y : Fin n → Int) (maxEstimators : Nat) :
    Except PyErr (List (Round X n)) :=
  loop learn x y maxEstimators (some fun _ => 1 / (n : ℝ))

/-- boosting.py:118-119: the weighted vote. -/
noncomputable def vote (rs : List ((X → Int) × ℝ)) (r : X) : ℝ := (rs.map fun q => q.2 * ((q.1 r : Int) : ℝ)).sum

open Classical in
/-- boosting.py:121-123 for one row: the vote is divided by the sum of the coefficients and compared with zero.  `none` is NaN, which
is neither `≥ 0` nor `< 0` and whose conversion to an integer is undefined. -/
noncomputable def decideRow (v s : ℝ) : Option Int :=
  if s = 0 then (if 0 < v then some 1 else if v < 0 then some (-1) else none)
  else if 0 ≤ v / s then some 1 else some (-1)

/-- Coefficients as real numbers, if none is `-inf`. -/
def reals : List (WithBot ℝ) → Option (List ℝ)
  | [] => some []
  | ⊥ :: _ => none
  | (a : ℝ) :: l => (reals l).map (a :: ·)

/-- boosting.py:118-125 for one row: `zip` pairs estimators and coefficients, `np.sum` takes all coefficients; a coefficient `-inf`
makes the quotient NaN. -/
noncomputable def predictRow (es : List (X → Int)) (as : List (WithBot ℝ)) (r : X) : Option Int :=
  match reals as with
  | none => none
  | some l => decideRow (vote (es.zip l) r) l.sum

/-- boosting.py:34-39: the parts of a classifier object. `asArray`: `alpha_list` is a numpy array (after `fit` or `load_weights`),
no longer a list. -/
structure Obj (X : Type*) where
  estimators : List (X → Int) := []
  alphas : List (WithBot ℝ) := []
  asArray : Bool := false
  trained : Bool := false
  loaded : Bool := false

/-- boosting.py:51-97 `fit` as a method: an array has no `append`, so the first pass through the loop raises `AttributeError` (after the
learner has been trained). -/
noncomputable def Obj.fit (o : Obj X) (learn : (Fin n → ℝ) → Except PyErr (X → Int)) (x : Fin n → X) (y : Fin n → Int)
    (maxEstimators : Nat) : Except PyErr (Obj X) :=
  if o.asArray ∧ 0 < maxEstimators then
    match learn (fun _ => 1 / (n : ℝ)) with
    | .error e => .error e
    | .ok _ => .error .attributeError
  else
    match Ada.fit learn x y maxEstimators with
    | .error e => .error e
    | .ok rs => .ok { o with estimators := o.estimators ++ rs.map Round.h, alphas := o.alphas ++ rs.map Round.alpha,
                             asArray := true, trained := true }

/-- boosting.py:139-165 `load_weights`: estimators and coefficients come from the file, the coefficients as an array. -/
def Obj.load (o : Obj X) (es : List (X → Int)) (as : List (WithBot ℝ)) : Obj X :=
  { o with estimators := es, alphas := as, asArray := true, loaded := true }

/-- boosting.py:99-125 `predict`, row by row. -/
noncomputable def Obj.predict (o : Obj X) (rows : List X) : Except PyErr (List (Option Int)) :=
  if o.trained = false ∧ o.loaded = false then .error .valueError
  else .ok (rows.map (predictRow o.estimators o.alphas))

open Classical in
/-- The learner AdaBoost uses by default: a two-level tree (boosting.py:41). -/
noncomputable def treeLearner {m : Nat} (x : Fin n → (Fin m → ℝ)) (y : Fin n → Int) (D : Fin n → ℝ) :
    Except PyErr ((Fin m → ℝ) → Int) :=
  match Small.fit2 (List.ofFn fun i => (⟨x i, y i, D i⟩ : Small.Sample ℝ m)) with
  | .ok t => .ok fun r => t.predict r
  | .error e => .error e

end CML.Ada

namespace CML.Bagging

variable {K : Type*} {X E : Type*}

/-- bagging.py:33-38: the parts of a classifier object. -/
structure Obj (E : Type*) where
  members : List E := []
  seed : Nat
  trained : Bool := false
  loaded : Bool := false

/-- bagging.py:69-74: one pass; `learn` is `BaseLearner().fit`. -/
def step (rng : Option Nat → (n : Nat) → Fin n → Fin n) (learn : List (List K) → List (List Int) → Except PyErr E)
    (x : List (List K)) (y : List Int) (o : Obj E) : Except PyErr (Obj E) :=
  match Ops.bootstrapSampling rng (.d2 x) (some (.d1 y)) (some o.seed) with
  | .ok (xs, some ys) =>
    match learn xs ys with
    | .ok e => .ok { o with seed := o.seed + 1, members := o.members ++ [e] }
    | .error e => .error e
  | .ok (_, none) => .error .valueError
  | .error e => .error e

/-- bagging.py:69-74: the loop. -/
def steps (rng : Option Nat → (n : Nat) → Fin n → Fin n) (learn : List (List K) → List (List Int) → Except PyErr E)
    (x : List (List K)) (y : List Int) : Nat → Obj E → Except PyErr (Obj E)
  | 0, o => .ok o
  | k + 1, o =>
    match step rng learn x y o with
    | .ok o' => steps rng learn x y k o'
    | .error e => .error e

/-- bagging.py:53-79 `fit`. -/
def Obj.fit (o : Obj E) (rng : Option Nat → (n : Nat) → Fin n → Fin n) (learn : List (List K) → List (List Int) → Except PyErr E)
    (x : List (List K)) (y : List Int) (n : Nat) : Except PyErr (Obj E) :=
  match steps rng learn x y n o with
  | .ok o' => .ok { o' with trained := true }
  | .error e => .error e

/-- bagging.py:100-106 for one row: the sum of the votes compared with zero. -/
def decideRow (pred : E → X → Int) (es : List E) (r : X) : Int :=
  if 0 ≤ (es.map fun e => pred e r).sum then 1 else -1

/-- bagging.py:81-106 `predict`, for estimators whose `predict` does not raise. -/
def Obj.predict (o : Obj E) (pred : E → X → Int) (rows : List X) : Except PyErr (List Int) :=
  if o.trained = false ∧ o.loaded = false then .error .valueError
  else .ok (rows.map (decideRow pred o.members))

end CML.Bagging
