import Verif.Spec.TreeSize

/-! # Specification for C309: training sets with contradictory rows -/

namespace CML.DTree

universe u w
variable {V : Type u} {K : Type w} {m : Nat}

/-- Every column that contains the value is continuous (`type_of_target` calls a numeric column continuous when one of its values is not an integer,
so this holds of the numbers that are not integers). -/
def Fractional (isCont : List V → Bool) (v : V) : Prop := ∀ D, v ∈ D → isCont D = true

/-- The generator with one of the criteria of the library, for the given rule for continuous columns and rounding of the dividing points. -/
def UsesLibrary [DecidableEq V] [Field K] [LinearOrder K] (num : V → K) (isCont : List V → Bool) (fl : K → K) (o : Oracle V K m) : Prop :=
  ∃ (imp : List Int → K) (maj : List Int → Option Int), MajOK maj ∧ (o = criterionOracle imp num isCont maj fl ∨ o = gainOracle imp num isCont maj fl)

end CML.DTree
