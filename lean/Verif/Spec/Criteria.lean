import Verif.Spec.Tree

/-! # Specification of impurity measures -/

namespace CML.DTree

/-- All labels are equal. -/
def Pure (y : List Int) : Prop := ∀ a ∈ y, ∀ b ∈ y, a = b

/-- All labels that occur do so equally often. -/
def Balanced (y : List Int) : Prop := ∀ a ∈ y, ∀ b ∈ y, y.count a = y.count b

/-- Label and value of an attribute are independent in the sample: the frequency of every combination is the product of
the frequencies (without division: `#(v,c) * n = #v * #c`). -/
def Independent {V : Type*} [DecidableEq V] (D : List V) (y : List Int) : Prop :=
  ∀ v c, (D.zip y).count (v, c) * y.length = D.count v * y.count c

/-- The tests a node may make on attribute `a`: for a continuous column, a comparison with the midpoint of two neighbouring
values; for any other column, a branch per value. -/
def Candidate {V K : Type*} {m : Nat} [Field K] [LinearOrder K] (num : V → K) (isCont : List V → Bool) (xs : List (Row V m))
    (a : Fin m) : Option K → Prop
  | some t => isCont (xs.map fun r => r a) = true ∧ NeighbourMidpoint ((xs.map fun r => r a).map num) t
  | none => isCont (xs.map fun r => r a) = false

/-- The impurity left by a test. -/
def candCost {V K : Type*} {m : Nat} [DecidableEq V] [Field K] [LinearOrder K] (imp : List Int → K) (num : V → K)
    (xs : List (Row V m)) (ys : List Int) (a : Fin m) : Option K → K
  | some t => splitAt imp ((xs.map fun r => r a).map num) ys t
  | none => partitionCost imp ys ((xs.map fun r => r a).dedup.map fun v => labelsWhere (fun u => decide (v = u)) (xs.map fun r => r a) ys)

end CML.DTree
