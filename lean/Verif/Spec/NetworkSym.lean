import Verif.Spec.Network
import Verif.Spec.RBF
import Mathlib.Data.Set.Function
import Mathlib.Order.Interval.Set.Defs

/-! # Specification of the symmetries of networks: numberings of samples, features, hidden units and outputs -/

namespace CML.Net

/-- `σ` renumbers the first `n` numbers. -/
def Renumbers (σ : ℕ → ℕ) (n : Nat) : Prop := Set.BijOn σ (Set.Iio n) (Set.Iio n)

/-- `A'` is the array `A` with rows and columns renumbered: row `i` and column `j` of `A'` are row `ρ i` and column `τ j` of `A`. -/
def MatRel (ρ τ : ℕ → ℕ) (A A' : Mat) : Prop :=
  A'.rows = A.rows ∧ A'.cols = A.cols ∧ ∀ i < A.rows, ∀ j < A.cols, A'.e i j = A.e (ρ i) (τ j)

/-- `P'` is the network `P` with the features, the units of every hidden layer and the outputs renumbered. -/
def NetRel : List (ℕ → ℕ) → List Layer → List Layer → Prop
  | σ :: τ :: rest, L :: Ls, L' :: Ls' => MatRel τ σ L.w L'.w ∧ MatRel id τ L.b L'.b ∧ NetRel (τ :: rest) Ls Ls'
  | [_], [], [] => True
  | _, _, _ => False

/-- The numbering of the outputs. -/
def lastNum : List (ℕ → ℕ) → ℕ → ℕ
  | [] => id
  | [σ] => σ
  | _ :: σs => lastNum σs

/-- The units `u` and `v` of the `l`-th layer (a hidden one) have the same incoming weights, the same bias and the same outgoing weights. -/
def Twins (l u v : Nat) (P : List Layer) : Prop :=
  ∃ L L', P[l]? = some L ∧ P[l + 1]? = some L' ∧ u < L.w.rows ∧ v < L.w.rows ∧ (∀ j < L.w.cols, L.w.e u j = L.w.e v j) ∧
    L.b.e 0 u = L.b.e 0 v ∧ ∀ i < L'.w.rows, L'.w.e i u = L'.w.e i v

end CML.Net

namespace CML.RBF
open CML.Net

/-- A motion of the plane: an orthogonal matrix (`p`, `q` its rows) and a translation. -/
structure Motion where
  p : ℕ → ℝ
  q : ℕ → ℝ
  t : ℕ → ℝ
  pp : p 0 ^ 2 + q 0 ^ 2 = 1
  qq : p 1 ^ 2 + q 1 ^ 2 = 1
  pq : p 0 * p 1 + q 0 * q 1 = 0

/-- The image of a point. -/
def Motion.at (M : Motion) (z : ℕ → ℝ) : ℕ → ℝ
  | 0 => M.p 0 * z 0 + M.p 1 * z 1 + M.t 0
  | 1 => M.q 0 * z 0 + M.q 1 * z 1 + M.t 1
  | _ => 0

/-- The points in the rows of `A'` are those of `A`, moved and renumbered. -/
def Moved (M : Motion) (ρ : ℕ → ℕ) (A A' : Mat) : Prop :=
  A'.rows = A.rows ∧ A'.cols = A.cols ∧ ∀ i < A.rows, ∀ j < 2, A'.e i j = M.at (A.e (ρ i)) j

/-- The network `P'` is `P` with the centres moved and the hidden units renumbered. -/
def ParamsRel (M : Motion) (η : ℕ → ℕ) (P P' : Params) : Prop :=
  MatRel id η P.w P'.w ∧ MatRel id id P.b P'.b ∧ Moved M η P.c P'.c ∧ MatRel id η P.beta P'.beta

end CML.RBF
