import Verif.Model.Engines

/-! # Specifications for the comparison of the two engines -/

namespace CML.Eng
open Finset

/-- Both engines answer with the same number. -/
def Agree (py : Except PyErr Out) (cc : Option Fl) : Prop := ∃ v, py = .ok (.scalar v) ∧ cc = some v

/-- Two matrices of the same shape with the same entries. -/
def Same {α : Type} (a b : EMat α) : Prop :=
  a.rows = b.rows ∧ a.cols = b.cols ∧ ∀ i < a.rows, ∀ j < a.cols, a.e i j = b.e i j

/-- The labels `y` of `n` samples, given as a vector or as one column. -/
inductive IsLabels (n : Nat) (y : ℕ → ℝ) : Arr ℝ → Prop
  | vec : IsLabels n y (.vec n y)
  | col (e : ℕ → ℕ → ℝ) (h : ∀ i, e i 0 = y i) : IsLabels n y (.mat n 1 e)

/-- `x` is the row `a` of length `d`, given as a vector or as a matrix with one row. -/
inductive IsRow (d : Nat) (a : ℕ → ℝ) : Arr ℝ → Prop
  | vec : IsRow d a (.vec d a)
  | row (e : ℕ → ℕ → ℝ) (h : ∀ j, e 0 j = a j) : IsRow d a (.mat 1 d e)

/-- The entries of a Python result, row by row. -/
def entries {α : Type} : Arr α → List α
  | .vec n e => (List.range n).map e
  | .mat r c e => (List.range r).flatMap fun i => (List.range c).map fun j => e i j

/-- The entries of an Eigen matrix, row by row. -/
def EMat.entries {α : Type} (m : EMat α) : List α := (List.range m.rows).flatMap fun i => (List.range m.cols).map fun j => m.e i j

/-- A finite number. -/
def Fl.IsFinite (v : Fl) : Prop := ∃ x, v = .fin x

end CML.Eng
