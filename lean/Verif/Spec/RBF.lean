import Verif.Model.RBF
import Mathlib.Analysis.Calculus.Deriv.Basic

/-! # Specifications for the RBF network -/

namespace CML.RBF
open Finset CML.Net

/-- The textbook network: `Σ_u w_u exp(-β_u ‖x - c_u‖²) + b`, for `h` hidden units and `d` features. -/
noncomputable def output (h d : Nat) (w beta : ℕ → ℝ) (b : ℝ) (c : ℕ → ℕ → ℝ) (x : ℕ → ℝ) : ℝ :=
  (∑ u ∈ range h, w u * Real.exp (-beta u * ∑ l ∈ range d, (x l - c u l) ^ 2)) + b

/-- Half of the mean squared error. -/
noncomputable def halfMSE (n h d : Nat) (w beta : ℕ → ℝ) (b : ℝ) (c x : ℕ → ℕ → ℝ) (y : ℕ → ℝ) : ℝ :=
  (∑ i ∈ range n, (output h d w beta b c (x i) - y i) ^ 2 / 2) / (n : ℝ)

/-- The parameters have the shapes of a network with `h` hidden units. -/
def Shaped (h : Nat) (P : Params) : Prop :=
  (P.w.rows = 1 ∧ P.w.cols = h) ∧ (P.b.rows = 1 ∧ P.b.cols = 1) ∧ (P.c.rows = h ∧ P.c.cols = 2) ∧ (P.beta.rows = 1 ∧ P.beta.cols = h)

end CML.RBF
