import Verif.Model.Csv

/-! # Specification: columns of a CSV file -/

namespace CML.Csv

/-- A column of numbers in which an entry is missing and all other entries are whole numbers (of at most 63 bits). -/
def WholeWithGap (c : Col) : Prop := ∃ v, c = .floats v ∧ none ∈ v ∧ ∀ q, some q ∈ v → (∃ k : Int, q = k) ∧ -(2 : ℚ) ^ 63 ≤ q ∧ q < (2 : ℚ) ^ 63

/-- A text column in which a missing entry comes before the first word (a word is a text that is not a number). -/
def GapFirst (parse : String → Option ℚ) (c : Col) : Prop :=
  ∃ pre post, c = .texts (pre ++ none :: post) ∧ ∀ o ∈ pre, ∃ s, o = some s ∧ parse s ≠ none

/-- A column whose present entries are all whole numbers, none missing: the numbers. -/
def wholeNumbers : Col → Option (List Int)
  | .ints v => some v
  | .floats v => v.mapM fun o => o.bind fun q => if q.den = 1 ∧ -(2 : ℚ) ^ 63 ≤ q ∧ q < (2 : ℚ) ^ 63 then some q.num else none
  | .texts _ => none

/-- No cell of a table is missing. -/
def Complete (t : List (List (Prep.Cell ℚ))) : Prop := ∀ c ∈ t, ∀ x ∈ c, x ≠ .missing

end CML.Csv
