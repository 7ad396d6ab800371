import Verif.Dict
import Verif.Spec.Preprocess
import Mathlib.Data.String.Basic

/-! # Specification of `Dataset` -/

namespace CML.Data

/-- The encoded labels agree with `class_indices`: sample `i` has the code that the dictionary gives for its original label. -/
def Agrees {α β : Type*} [DecidableEq α] (labels : List α) (y : List β) (d : Dict α β) : Prop :=
  y.length = labels.length ∧ ∀ (i : Nat) l, labels[i]? = some l → ∃ v, y[i]? = some v ∧ d.get l = some v

/-- Samples with different labels get different codes. -/
def Separates {α β : Type*} (labels : List α) (y : List β) : Prop :=
  ∀ (i j : Nat) l l', labels[i]? = some l → labels[j]? = some l' → (y[i]? = y[j]? ↔ l = l')

/-- The labels are exactly the two classes `a < b`. -/
def TwoClasses {α : Type*} [LinearOrder α] (labels : List α) (a b : α) : Prop :=
  a < b ∧ ∀ l, l ∈ labels ↔ l = a ∨ l = b

/-- The words documented as positive answers. -/
def Positive (s : String) : Prop := s ∈ ["是", "y", "yes", "Yes", "YES", "Y"]

/-- The words documented as negative answers. -/
def Negative (s : String) : Prop := s ∈ ["否", "n", "no", "No", "NO", "N"]

end CML.Data
