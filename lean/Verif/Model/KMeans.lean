import Verif.Prelude
import Mathlib.Algebra.Order.Field.Basic
import Mathlib.Algebra.BigOperators.Group.Finset.Basic
import Mathlib.Data.Fintype.BigOperators
import Mathlib.Algebra.Order.Floor.Defs
import Mathlib.Algebra.Order.Floor.Semiring
import Verif.Model.Ops

/-!
# Model of `KMeans` (classicML/api/models/cluster/k_means.py) and of the operations it uses (ops.py)

A row of the data is a vector `Fin d → K`.  A row that may have become `NaN` (mean of an empty slice) is an
`Option` of a row, `none` being the all-`NaN` row.  `x` is assumed non-empty (an empty `x` fails in the random
initialisation).  Arithmetic is exact.
-/

namespace CML.KMeans
open Finset

variable {K : Type*} [Field K] [LinearOrder K] {d : Nat}

/-- `np.sum((u - v)**2)`, the square of the norm at ops.py:242. -/
def sqDist (u v : Fin d → K) : K := ∑ k, (u k - v k) * (u k - v k)

/-- ops.py:226-244 `calculate_euclidean_distance` for one sample: its distances to all centroids.  `root` is the
square root used by `np.linalg.norm`; a `NaN` centroid gives a `NaN` distance. -/
def distances (root : K → K) (u : Fin d → K) (centroids : List (Option (Fin d → K))) : List (Option K) :=
  centroids.map fun c => c.map fun v => root (sqDist u v)

/-- `np.argmin` on a row that may contain `NaN`: the first `NaN` wins, else the first minimum. `none` for an empty row. -/
def argminNaN (l : List (Option K)) : Option Nat :=
  match l.findIdx? Option.isNone with
  | some i => some i
  | none => argmin? (l.filterMap id)

/-- ops.py:335-349 `get_cluster`, applied to the distance rows of all samples; `none` models the `ValueError` of
`np.argmin` when there is no centroid at all. -/
def getCluster (root : K → K) (x : List (Fin d → K)) (centroids : List (Option (Fin d → K))) :
    Option (List Nat) :=
  x.mapM fun u => argminNaN (distances root u centroids)

/-- `x[clusters == c]`, ops.py:148. -/
def members (x : List (Fin d → K)) (clusters : List Nat) (c : Nat) : List (Fin d → K) :=
  ((x.zip clusters).filter fun p => p.2 = c).map Prod.fst

/-- `np.mean(rows, axis=0)`, ops.py:148; the mean of an empty slice is `NaN`. -/
def mean (rows : List (Fin d → K)) : Option (Fin d → K) :=
  if rows = [] then none else some fun k => (rows.map fun r => r k).sum / (rows.length : K)

/-- ops.py:128-150 `calculate_centroids`: note `n_clusters = np.unique(clusters).size` (line 144), not the number of
centroids, and labels `range(n_clusters)` (line 147). -/
def calculateCentroids (x : List (Fin d → K)) (clusters : List Nat) :
    List (Option (Fin d → K)) :=
  (List.range (Ops.numUnique clusters)).map fun c => mean (members x clusters c)

/-- One row of ops.py:330-332: `np.any(np.abs(a - b) > tol)`; comparisons with `NaN` are false. -/
def rowDiffers (tol : K) : Option (Fin d → K) → Option (Fin d → K) → Bool
  | some a, some b => decide (∃ k, tol < |a k - b k|)
  | _, _ => false

/-- ops.py:313-332 `compare_differences` on two centroid matrices, with numpy broadcasting of the first axis
(equal lengths, or one of them 1, else `ValueError`). -/
def compareDifferences (x0 x1 : List (Option (Fin d → K))) (tol : K) : Except PyErr (List Bool) :=
  if x0.length = x1.length then .ok (List.zipWith (rowDiffers tol) x0 x1)
  else match x0, x1 with
    | x0, [b] => .ok (x0.map fun a => rowDiffers tol a b)
    | [a], x1 => .ok (x1.map fun b => rowDiffers tol a b)
    | _, _ => .error .valueError

/-- The attributes set by `fit`, plus whether the loop was left by `break`. -/
structure Fitted (K : Type*) (d : Nat) where
  centroids : List (Option (Fin d → K))
  clusters : Option (List Nat)
  stopped : Bool

/-- Equality of fitted models is decidable (used to evaluate examples). -/
instance : DecidableEq (Fitted K d) := fun a b =>
  decidable_of_iff (a.centroids = b.centroids ∧ a.clusters = b.clusters ∧ a.stopped = b.stopped)
    ⟨fun h => by cases a; cases b; simp_all, fun h => by simp [h]⟩

/-- k_means.py:87-99: the training loop, `epochs` iterations left. -/
def fitLoop (root : K → K) (x : List (Fin d → K)) (tol : K) :
    Nat → List (Option (Fin d → K)) → Option (List Nat) → Except PyErr (Fitted K d)
  | 0, cs, lab => .ok { centroids := cs, clusters := lab, stopped := false }
  | e + 1, cs, _ =>
    match getCluster root x cs with
    | none => .error .valueError
    | some lab =>
      let new := calculateCentroids x lab
      match compareDifferences cs new tol with
      | .error er => .error er
      | .ok diff =>
        if diff.any id then fitLoop root x tol e new (some lab)
        else .ok { centroids := cs, clusters := some lab, stopped := true }

/-- k_means.py:67-101 `fit`, from given initial centroids (`init_centroids` is modelled below). -/
def fit (root : K → K) (x : List (Fin d → K)) (tol : K) (epochs : Nat)
    (init : List (Fin d → K)) : Except PyErr (Fitted K d) :=
  fitLoop root x tol epochs (init.map some) none

/-- k_means.py:103-129 `predict` on a 2-D input, for a trained model. -/
def predict (root : K → K) (centroids : List (Option (Fin d → K))) (x : List (Fin d → K)) :
    Option (List Nat) :=
  getCluster root x centroids

/-! ## init_centroids -/

/-- The `init` argument: the string `'random'`; a list or array that is 0-D, 1-D, 2-D (rows of equal length) or of more
dimensions (none of them of length 1); something else. `isInt` tells whether the array has an integer dtype. -/
inductive Init (K : Type*)
  | random
  | scalar
  | vec (isInt : Bool) (l : List K)
  | mat (isInt : Bool) (rows : List (List K))
  | tensor
  | other

/-- `np.squeeze(init)`, ops.py:657, on the array cases (removes axes of length 1). -/
def squeeze : Init K → Init K
  | .vec _ [_] => .scalar
  | .mat isInt rows =>
    match rows with
    | [[_]] => .scalar
    | [row] => .vec isInt row
    | rows => if rows.all fun r => r.length = 1 then .vec isInt rows.flatten else .mat isInt rows
  | i => i

/-- ops.py:628-676 `init_centroids`; rows of `x` are lists of `nFeatures` numbers; `draw` is the result of
`np.random.randint(0, len(x), n_clusters)` (line 653).  The comparison `init == 'random'` (line 652) is read as in
numpy < 1.25 (false for arrays).  An array of floats used as index raises `IndexError`. -/
def initCentroids [FloorSemiring K] (x : List (List K)) (nFeatures nClusters : Nat) (init : Init K)
    (draw : List Nat) : Except PyErr (List (List K)) :=
  match init with
  | .random =>
    match Ops.fancy x draw with
    | some r => .ok r
    | none => .error .indexError
  | .other => .error .typeError
  | init =>
    match squeeze init with
    | .vec isInt l =>
      if l.length ≠ nClusters then .error .valueError
      else if l = [] then .error .valueError  -- `np.min` of an empty array
      else if l.any (fun v => decide (v < 0)) ∨ l.any (fun v => decide ((x.length : K) ≤ v)) then .error .valueError
      else if isInt then
        match Ops.fancy x (l.map fun v => ⌊v⌋₊) with
        | some r => .ok r
        | none => .error .indexError
      else .error .indexError
    | .mat _ rows =>
      if rows.length = nClusters ∧ rows.all (fun r => r.length = nFeatures) then .ok rows
      else .error .valueError
    | _ => .error .valueError

end CML.KMeans
