import Verif.Spec.BayesSym

/-! # Specification: other names for the values of discrete attributes, another origin for continuous ones -/

namespace CML.Bayes

/-- Another coding of an attribute: new names of the values if it is discrete, another zero point if it is continuous. -/
structure Coding (V W : Type*) where
  name : V → W
  origin : ℝ

/-- The column in the other coding. -/
def Col.recode {V W : Type*} (k : Coding V W) : Col V → Col W
  | .disc l => .disc (l.map k.name)
  | .cont l => .cont (l.map fun r => r + k.origin)

/-- The cell of a row in the other coding. -/
def Cell.recode {V W : Type*} (k : Coding V W) : Cell V → Cell W
  | .disc v => .disc (k.name v)
  | .cont r => .cont (r + k.origin)

/-- An attribute: another coding, the column of the training table, the cell of the row to be classified. -/
structure Attr (V W : Type*) where
  code : Coding V W
  col : Col V
  cell : Cell V

/-- The column in the other unit `a`: values of a continuous column are multiplied by `a`. -/
def Col.scale {V : Type*} (a : ℝ) : Col V → Col V
  | .disc l => .disc l
  | .cont l => .cont (l.map fun r => a * r)

/-- The cell in the other unit. -/
def Cell.scale {V : Type*} (a : ℝ) : Cell V → Cell V
  | .disc v => .disc v
  | .cont r => .cont (a * r)

/-- The values of a column in the samples with label `c`. -/
def classPart (y : List Int) (c : Int) (l : List ℝ) : List ℝ := ((l.zip y).filter fun q => decide (q.2 = c)).map Prod.fst

/-- The list is not empty and has mean `m` and (population) variance `v`. -/
def HasMoments (l : List ℝ) (m v : ℝ) : Prop :=
  l ≠ [] ∧ m * l.length = l.sum ∧ v * l.length = (l.map fun r => (r - m) ^ 2).sum

/-- How far a value is from a class with mean `m` and variance `v`, in the exponent of the density that the code uses. -/
noncomputable def exponentAt (x m v : ℝ) : ℝ := (x - m) ^ 2 / (2 * v ^ 2)

/-- The logarithm of (the count of the class, plus one with smoothing) over the variance. -/
noncomputable def weightOf (sm : Bool) (n : Nat) (v : ℝ) : ℝ := Real.log ((n + if sm then 1 else 0) / v)

end CML.Bayes
