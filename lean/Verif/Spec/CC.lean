import Verif.Model.CC
import Mathlib.Data.Int.Interval

/-! # Specifications for the C++ engine -/

namespace CML.CC

variable {K : Type*} [Field K] [LinearOrder K]

/-- Number of the `2 B` equally likely raw values `-B, ..., B - 1` for which the index `i` is drawn. -/
noncomputable def timesDrawn (B n i : Nat) : Nat := ((Finset.Ico (-(B : Int)) B).filter fun v => drawnIndex n v = i).card

/-- Every row has the announced number of columns. -/
def Mat.Ok (a : Mat K) : Prop := ∀ r ∈ a.rows, r.length = a.cols

/-- What numpy computes for `a - b`, entry by entry, when the shapes are equal up to a first axis of length 1; `none` for other shapes of equal
width. -/
def numpySub (a b : Mat K) : Option (List (List K)) :=
  if a.rows.length = b.rows.length then some ((a.rows.zip b.rows).map fun p => (p.1.zip p.2).map fun q => q.1 - q.2)
  else match a.rows, b.rows with
    | l, [r0] => some (l.map fun r => (r.zip r0).map fun q => q.1 - q.2)
    | [r0], l => some (l.map fun r => (r0.zip r).map fun q => q.1 - q.2)
    | _, _ => none

end CML.CC
