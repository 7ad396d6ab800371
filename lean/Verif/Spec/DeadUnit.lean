import Verif.Spec.Network

/-! # Specification: hidden units that are not active on the training set -/

namespace CML.Net
open Finset

/-- The input `w_u·x + b_u` of the unit `u` of the first hidden layer is at most 0 on every row. -/
def Silent (u : Nat) (P : List Layer) (x : Mat) : Prop :=
  ∃ L L' Ls, P = L :: L' :: Ls ∧ u < L.w.rows ∧ ∀ i < x.rows, (∑ c ∈ range x.cols, L.w.e u c * x.e i c) + L.b.e 0 u ≤ 0

/-- The networks agree in the incoming weights, the bias and the outgoing weights of the unit `u` of the first hidden layer. -/
def UnitKept (u : Nat) (P Q : List Layer) : Prop :=
  ∃ L L' Ls M M' Ms, P = L :: L' :: Ls ∧ Q = M :: M' :: Ms ∧ (∀ c < L.w.cols, M.w.e u c = L.w.e u c) ∧ M.b.e 0 u = L.b.e 0 u ∧
    ∀ r < L'.w.rows, M'.w.e r u = L'.w.e r u

end CML.Net
