import Verif.Model.Calls

/-! # Specification vocabulary for C160-C162 (containers and column names) -/

namespace CML.Calls

variable {K α : Type}

/-- The container `x` holds these rows: a list of lists, a 2-D array or a table. -/
inductive HoldsRows : Input K → List (List (Cell K)) → Prop
  | lists (rows : List (List (Cell K))) : HoldsRows (.lists rows) rows
  | array (rows : List (List (Cell K))) : HoldsRows (.array2 rows) rows
  | frame (cols : List String) (rows : List (List (Cell K))) : HoldsRows (.frame cols rows) rows

/-- The container `x` is one sample, a flat vector: a list, a 1-D array or a `Series`. -/
inductive HoldsRow : Input K → List (Cell K) → Prop
  | list (r : List (Cell K)) : HoldsRow (.list r) r
  | array (r : List (Cell K)) : HoldsRow (.array1 r) r
  | series (r : List (Cell K)) : HoldsRow (.series r) r

/-- Rows of numbers as cells. -/
def cells (rows : List (List K)) : List (List (Cell K)) := rows.map fun r => r.map .num

/-- Rows of one common width. -/
def Rectangular (d : Nat) (rows : List (List K)) : Prop := ∀ r ∈ rows, r.length = d

/-- The answer consists of one value per row, the value `g` gives to that row. -/
def OnePerRow {ρ : Type} (g : ρ → Except PyErr α) (rows : List ρ) (answer : List α) : Prop :=
  List.Forall₂ (fun r a => g r = .ok a) rows answer

/-- Two tables hold the same data: as many rows, and in each row the same value under every one of the names, wherever that column stands. -/
def SameTable (names cols cols' : List String) (rows rows' : List (List (Cell K))) : Prop :=
  List.Forall₂ (fun r r' => ∀ n ∈ names, byName cols [n] r = byName cols' [n] r') rows rows'

end CML.Calls
