import Verif.Model.PlotsGrid

/-! # Specifications for the figures with a decision boundary -/

namespace CML.PlotsGrid

/-- The prediction goes row by row: the class of a row is `g` of that row. -/
def RowWise (predict : List (List ℝ) → Except PyErr (List Int)) (g : List ℝ → Int) : Prop := ∀ rows, predict rows = .ok (rows.map g)

/-- The heights are those of `g` at the 300 × 300 evenly spaced points of `[0, 1] × [0, top]`, row `i` being the points of ordinate `top · i / 299`. -/
def IsRaster (top : ℝ) (g : List ℝ → Int) (z : List (List Int)) : Prop :=
  z.length = 300 ∧ (∀ r ∈ z, r.length = 300) ∧
  ∀ i j : Nat, i < 300 → j < 300 → ∃ r, z[i]? = some r ∧ r[j]? = some (g [(j : ℝ) / 299, top * i / 299])

/-- The drawn boundary passes between the nodes `(i, j)` and `(i', j')`. -/
def Boundary (z : List (List Int)) (i j i' j' : Nat) : Prop :=
  ∃ r r' a a', z[i]? = some r ∧ r[j]? = some a ∧ z[i']? = some r' ∧ r'[j']? = some a' ∧ crosses a a' = true

/-- The background shows `g`: the colour at each of the 300 × 300 evenly spaced nodes of the window is `g` there. -/
def Shows (f : BayesFigure) (g : List ℝ → Int) : Prop :=
  f.background.length = 300 ∧ (∀ r ∈ f.background, r.length = 300) ∧
  ∀ i j : Nat, i < 300 → j < 300 → ∃ r, f.background[i]? = some r ∧
    r[j]? = some (g [f.left + (f.right - f.left) * j / 299, f.bottom + (f.top - f.bottom) * i / 299])

/-- `predict` answers `g` row by row on rows of two numbers. -/
def AnswersPairs (predict : List (List ℝ) → Except PyErr (List Int)) (g : List ℝ → Int) : Prop :=
  ∀ rows : List (List ℝ), (∀ r ∈ rows, r.length = 2) → predict rows = .ok (rows.map g)

end CML.PlotsGrid
