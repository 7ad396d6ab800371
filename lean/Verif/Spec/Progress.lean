import Verif.Model.Progress

/-! # Specification: reading decimal numbers, printable text -/

namespace CML.Progress

/-- The number a reader sees in a row of digits. -/
def value (s : List Char) : Nat := s.foldl (fun a c => 10 * a + (c.toNat - 48)) 0

/-- Only digits. -/
def Digits (s : List Char) : Prop := ∀ c ∈ s, '0' ≤ c ∧ c ≤ '9'

/-- No control characters that move the cursor. -/
def Plain (s : List Char) : Prop := '\r' ∉ s ∧ '\n' ∉ s

/-- The names and the numbers in a report are ordinary text. -/
def Report.Plain (r : Report) : Prop := Progress.Plain r.lossName ∧ Progress.Plain r.lossText ∧ Progress.Plain r.metricName ∧ Progress.Plain r.metricText

/-- `s` reads as `sign`, whole part, point, four decimals, and the number is within `err` of `q`. -/
def Reads (s : List Char) (q err : ℚ) : Prop :=
  ∃ (neg : Bool) (a b : List Char), s = (if neg then ['-'] else []) ++ a ++ ['.'] ++ b ∧ a ≠ [] ∧ b.length = 4 ∧ Digits a ∧ Digits b ∧
    |(if neg then -1 else 1) * ((value a : ℚ) + value b / 10 ^ 4) - q| ≤ err

end CML.Progress
