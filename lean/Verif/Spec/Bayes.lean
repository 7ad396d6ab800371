import Verif.Model.Bayes

/-! # Specification of the Bayes classifiers -/

namespace CML.Bayes

variable {V : Type*} [DecidableEq V]

/-- `order` lists the distinct values of a column, most frequent first (ties in any order): the contract of `pd.value_counts`. -/
def IsValueCounts (order : List V → List V) : Prop :=
  ∀ l, (order l).Perm (pyUnique l) ∧ (order l).Pairwise fun u v => l.count v ≤ l.count u

/-- Number of samples of class `c` with value `v`. -/
def countIn (xi : List V) (y : List Int) (c : Int) (v : V) : Nat := ((xi.zip y).filter fun q => q.1 = v ∧ q.2 = c).length

/-- Number of samples of class `c`. -/
def classSize (y : List Int) (c : Int) : Nat := (y.filter (· = c)).length

/-- The normal density with standard deviation `σ`. -/
noncomputable def normalPdf (μ σ x : ℝ) : ℝ := 1 / (σ * √(2 * Real.pi)) * Real.exp (-((x - μ) / σ) ^ 2 / 2)

/-- The value is of the kind of the column. -/
def SameKind : Col V → Cell V → Prop
  | .disc _, .disc _ => True
  | .cont _, .cont _ => True
  | _, _ => False

/-- A discrete value that occurs in the column; numbers of a continuous column need not occur. -/
def Seen : Col V → Cell V → Prop
  | .disc l, .disc v => v ∈ l
  | _, _ => True

/-- Mean and (population) variance of a non-empty list of numbers. -/
def IsMeanVar (l : List ℝ) (m v : ℝ) : Prop := l ≠ [] ∧ l.length * m = l.sum ∧ l.length * v = (l.map fun x => (x - m) * (x - m)).sum

/-- The numbers of a column that belong to class `c`. -/
def classValues (l : List ℝ) (y : List Int) (c : Int) : List ℝ := ((l.zip y).filter fun q => q.2 = c).map Prod.fst

end CML.Bayes
