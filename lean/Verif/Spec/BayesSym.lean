import Verif.Spec.Bayes
import Mathlib.Data.List.OfFn
import Mathlib.Logic.Equiv.Defs

/-! # Specification of the symmetries of the Bayes classifiers: a table of `n` samples -/

namespace CML.Bayes

/-- A column of a table with `n` samples. -/
inductive Column (n : Nat) (V : Type*)
  | disc (f : Fin n → V)
  | cont (f : Fin n → ℝ)

/-- The column as the program gets it. -/
def Column.col {n : Nat} {V : Type*} : Column n V → Col V
  | .disc f => .disc (List.ofFn f)
  | .cont f => .cont (List.ofFn f)

/-- The same column with the samples in another order: place `i` holds the old sample `e i`. -/
def Column.reorder {n : Nat} {V : Type*} (e : Equiv.Perm (Fin n)) : Column n V → Column n V
  | .disc f => .disc (f ∘ e)
  | .cont f => .cont (f ∘ e)

/-- The names come in the same order as the counts: the values of the column appear most frequent first. -/
def Sorted {n : Nat} {V : Type*} [DecidableEq V] (order : List V → List V) : Column n V → Prop
  | .disc f => order (List.ofFn f) = pyUnique (List.ofFn f)
  | .cont _ => True

/-- What the naive Bayes classifier fitted on the columns answers for the row. -/
noncomputable def nbAnswer {V : Type*} [DecidableEq V] (order : List V → List V) (fl : ℝ → ℝ) (sm : Bool) (cols : List (Col V)) (y : List Int) (x : List (Cell V)) : Except PyErr Int :=
  match nbFit order cols y sm with
  | .error e => .error e
  | .ok m => nbPredict fl sm m x

/-- A discrete column whose values all occur more than `m` times: those that can serve as super-parents. -/
def CanParent {V : Type*} [DecidableEq V] (m : Nat) : Col V → Prop
  | .disc l => ∀ v ∈ l, m < l.count v
  | .cont _ => False

end CML.Bayes
