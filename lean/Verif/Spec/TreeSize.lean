import Verif.Spec.Tree

/-!
# Specification of the size of decision trees

Paths from the root to a leaf, and the criteria a classifier can be built with.
-/

namespace CML.DTree

universe u w
variable {V : Type u} {K : Type w} {m : Nat}

/-- The tests on a path from the root to a leaf: the attribute, and whether it is tested by value (`true`) or against a dividing
point (`false`). -/
inductive IsPath : Tree V K m → List (Fin m × Bool) → Prop
  | leaf (c : Int) : IsPath (.leaf c) []
  | ge {a : Fin m} {t : K} {n h : Int} {g l : Tree V K m} {p : List (Fin m × Bool)} (hp : IsPath g p) :
      IsPath (.cont a t n h g l) ((a, false) :: p)
  | lt {a : Fin m} {t : K} {n h : Int} {g l : Tree V K m} {p : List (Fin m × Bool)} (hp : IsPath l p) :
      IsPath (.cont a t n h g l) ((a, false) :: p)
  | branch {a : Fin m} {n h : Int} {br : Forest V K m} {s : Tree V K m} {p : List (Fin m × Bool)} (hs : s ∈ br.trees)
      (hp : IsPath s p) : IsPath (.disc a n h br) ((a, true) :: p)

/-- The attributes a path tests by value. -/
def byValue (p : List (Fin m × Bool)) : List (Fin m) := (p.filter fun e => e.2).map Prod.fst

/-- The attributes a path compares with dividing points. -/
def byPoint (p : List (Fin m × Bool)) : List (Fin m) := (p.filter fun e => !e.2).map Prod.fst

/-- The generator is used with one of the criteria of the library (Gini index or entropy: least impurity; information gain), for
any impurity, rule for continuous columns, tie-breaking and rounding of the dividing points. -/
def LibraryOracle [DecidableEq V] [Field K] [LinearOrder K] (o : Oracle V K m) : Prop :=
  ∃ (imp : List Int → K) (num : V → K) (isCont : List V → Bool) (maj : List Int → Option Int) (fl : K → K),
    MajOK maj ∧ (o = criterionOracle imp num isCont maj fl ∨ o = gainOracle imp num isCont maj fl)

/-- Number of different values of an attribute in the training frame. -/
def valueCount [DecidableEq V] (xs : List (Row V m)) (a : Fin m) : Nat := (xs.map fun r => r a).dedup.length

end CML.DTree
