import Verif.Model.KMeans

/-! # Specifications for k-means -/

namespace CML.KMeans
open Finset

variable {K : Type*} [Field K] [LinearOrder K] {d : Nat}

/-- Squared Euclidean distance. -/
def dist2 (u v : Fin d → K) : K := ∑ k, (u k - v k) ^ 2

/-- `c` is the smallest index of a centroid nearest to `u`. -/
def IsNearest (cs : List (Fin d → K)) (u : Fin d → K) (c : Nat) : Prop :=
  ∃ v, cs[c]? = some v ∧ (∀ w ∈ cs, dist2 u v ≤ dist2 u w) ∧
    ∀ j < c, ∀ w, cs[j]? = some w → dist2 u v < dist2 u w

/-- What is assumed of the square root: it is strictly increasing on the non-negative numbers. -/
def RootOK (root : K → K) : Prop := ∀ a b, 0 ≤ a → 0 ≤ b → (root a < root b ↔ a < b)

/-- Labels for `x` that name existing centroids. -/
def ValidLabels (cs : List (Fin d → K)) (x : List (Fin d → K)) (labels : List Nat) : Prop :=
  labels.length = x.length ∧ ∀ l ∈ labels, l < cs.length

/-- Squared distance of a sample to the centroid that its label names (for a valid label the look-up succeeds). -/
def distTo (cs : List (Fin d → K)) (u : Fin d → K) (label : Nat) : K :=
  match cs[label]? with
  | some v => dist2 u v
  | none => 0

/-- Within-cluster sum of squares of a labelled data set. -/
def wcss (x : List (Fin d → K)) (cs : List (Fin d → K)) (labels : List Nat) : K :=
  ((x.zip labels).map fun p => distTo cs p.1 p.2).sum

/-- `v` is the mean of the samples labelled `c`, of which there is at least one. -/
def IsClusterMean (x : List (Fin d → K)) (labels : List Nat) (c : Nat) (v : Fin d → K) : Prop :=
  let rows := ((x.zip labels).filter fun p => p.2 = c).map Prod.fst
  rows ≠ [] ∧ ∀ k, (rows.length : K) * v k = (rows.map fun r => r k).sum

/-- A change of units (factor `a`), of origin (`t`) and of the order of the features (`σ`). -/
def change (a : K) (t : Fin d → K) (σ : Equiv.Perm (Fin d)) (u : Fin d → K) : Fin d → K := fun k => a * u (σ k) + t k

/-- The centroid matrices that the alternation "nearest labels, then cluster means" visits from `init`. -/
inductive Visited (root : K → K) (x : List (Fin d → K)) (init : List (Fin d → K)) : List (Fin d → K) → Prop
  | start : Visited root x init init
  | step (cs cs' : List (Fin d → K)) (labels : List Nat) (h : Visited root x init cs)
      (hl : getCluster root x (cs.map some) = some labels) (hc : calculateCentroids x labels = cs'.map some) :
      Visited root x init cs'

end CML.KMeans
