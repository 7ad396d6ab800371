import Verif.Model.Hull
import Verif.Model.KMeans

/-!
# Model of the figures of the clusterings (classicML/api/plots/cluster.py)

A figure is the data handed to matplotlib; a centroid with a NaN is not drawn (`none`). `ConvexHull` is that of the Python engine (`Model.Hull`); it
uses the first two columns only. `np.argsort` inside of it is a parameter.
-/

namespace CML.PlotsCluster

variable {K : Type*} [Field K] [LinearOrder K] {d : Nat}

/-- The first two coordinates of a row, `X[:, 0]`, `X[:, 1]`. -/
def xy (h : 2 ≤ d) (r : Fin d → K) : K × K := (r ⟨0, by omega⟩, r ⟨1, by omega⟩)

/-- What `plot_k_means` draws. -/
@[ext] structure KMFigure (K : Type*) where
  /-- cluster.py:28 -/
  samples : List (K × K)
  /-- cluster.py:29 -/
  centroids : List (Option (K × K))
  /-- cluster.py:98: the dashed lines. -/
  hulls : List (List (K × K))

/-- cluster.py:95-97: `x[k_means.clusters == cluster]` and its hull. `clusters` is `None` after `fit(x, epochs=0)`; then `None == cluster` is `False`, the
index adds an axis of length 0, and `ConvexHull` raises `IndexError`. An index of another length than `x` is an `IndexError` too. -/
def hullOf (argsort : List (K × K) → List (K × K)) (h : 2 ≤ d) (x : List (Fin d → K)) (clusters : Option (List Nat)) (c : Nat) :
    Except PyErr (List (K × K)) :=
  match clusters with
  | none => .error .indexError
  | some labels =>
    if x.length ≠ labels.length then .error .indexError
    else Hull.computeHull (argsort ((KMeans.members x labels c).map (xy h)))

/-- cluster.py:68-105 `plot_k_means` for an instance with `n_clusters = n`. With less than two columns `x[:, 1]` (28) raises `IndexError`. -/
def plotKMeans (argsort : List (K × K) → List (K × K)) (trained loaded : Bool) (n : Nat) (centroids : List (Option (Fin d → K)))
    (clusters : Option (List Nat)) (x : List (Fin d → K)) : Except PyErr (KMFigure K) :=
  if trained = false ∧ loaded = false then .error .valueError
  else if h : 2 ≤ d then
    match (List.range n).mapM (hullOf argsort h x clusters) with
    | .error e => .error e
    | .ok hulls => .ok ⟨x.map (xy h), centroids.map fun c => c.map (xy h), hulls⟩
  else .error .indexError

/-- What `plot_gaussian_mixture` draws: one group of samples for each component, and the means. -/
structure GMFigure (K : Type*) where
  /-- cluster.py:33-34 -/
  groups : List (List (K × K))
  /-- cluster.py:36 -/
  means : List (Option (K × K))

/-- cluster.py:33-34: the samples of a component. -/
def group (h : 2 ≤ d) (x : List (Fin d → K)) (labels : List Nat) (c : Nat) : List (K × K) := (KMeans.members x labels c).map (xy h)

/-- cluster.py:39-66 `plot_gaussian_mixture` and 31-36. Without components the loop (31) is not entered and the labels are not looked at; the means
`centroids[:, 1]` (36) need two columns. -/
def plotGM (trained loaded : Bool) (mu : List (Option (Fin d → K))) (labels : List Nat) (x : List (Fin d → K)) : Except PyErr (GMFigure K) :=
  if trained = false ∧ loaded = false then .error .valueError
  else if mu ≠ [] ∧ x.length ≠ labels.length then .error .indexError
  else if h : 2 ≤ d then .ok ⟨(List.range mu.length).map (group h x labels), mu.map fun c => c.map (xy h)⟩
  else .error .indexError

end CML.PlotsCluster
