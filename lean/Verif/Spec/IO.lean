import Verif.Model.IO

/-! # Specification of version comparison and of the regular expression -/

namespace CML.IO

/-- Releases are compared componentwise, missing components being zero. -/
def RelLt (a b : List Nat) : Prop :=
  ∃ k, (∀ i < k, a.getD i 0 = b.getD i 0) ∧ a.getD k 0 < b.getD k 0

/-- Releases that denote the same number (`1.0` and `1`). -/
def RelEq (a b : List Nat) : Prop := ∀ i, a.getD i 0 = b.getD i 0

/-- `v` is a pre-release (alpha, beta, candidate, or a development version of the release itself). -/
def Version.isPre (v : Version) : Prop := v.pre ≠ none ∨ (v.post = none ∧ v.dev ≠ none)

/-- `v` is at least the final release `r`. -/
def AtLeast (v : Version) (r : List Nat) : Prop :=
  0 < v.epoch ∨ RelLt r v.release ∨ (RelEq r v.release ∧ ¬ v.isPre)

/-- The ten decimal digits. -/
def digitChars : List Char := ['0', '1', '2', '3', '4', '5', '6', '7', '8', '9']

/-- The number that a string of decimal digits denotes. -/
def decimal : List Char → Nat
  | [] => 0
  | c :: cs => digitChars.idxOf c * 10 ^ cs.length + decimal cs

/-- The words of the language `\d+\.\d+(?:\.\d+)*`, with their blocks of digits. -/
def IsDotted (ps : List (List Char)) : Prop :=
  2 ≤ ps.length ∧ ∀ p ∈ ps, p ≠ [] ∧ ∀ c ∈ p, c ∈ digitChars

/-- The text of a dotted number. -/
def dotted : List (List Char) → List Char
  | [] => []
  | [p] => p
  | p :: q :: ps => p ++ '.' :: dotted (q :: ps)

/-- `ps` is the leftmost longest dotted number in `s`. -/
def IsFirstDotted (s : List Char) (ps : List (List Char)) : Prop :=
  IsDotted ps ∧ ∃ pre post, s = pre ++ dotted ps ++ post ∧
    (∀ qs pre' post', IsDotted qs → s = pre' ++ dotted qs ++ post' → pre.length ≤ pre'.length) ∧
    (∀ qs post', IsDotted qs → s = pre ++ dotted qs ++ post' → (dotted qs).length ≤ (dotted ps).length)

/-- The header of a file is acceptable to a model: it was written for a model of that name, by a
version of classicML of at least 0.5, with an I/O version whose first dotted number is at least 0.7. -/
def Acceptable (pv : String → Option Version) (modelName : String) (d : Dict String String) : Prop :=
  d.get "model_name" = some modelName ∧
  (∃ s v, d.get "cml_version" = some s ∧ pv s = some v ∧ AtLeast v [0, 5]) ∧
  (∃ s ps, d.get "io_version" = some s ∧ IsFirstDotted s.toList ps ∧
    ¬ RelLt (ps.map decimal) [0, 7])

end CML.IO
