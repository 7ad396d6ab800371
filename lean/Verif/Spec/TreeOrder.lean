import Verif.Spec.Tree

/-! # Specification: decision trees without ties -/

namespace CML.DTree

universe u w
variable {V : Type u} {K : Type w} {m : Nat} [DecidableEq V] [Field K] [LinearOrder K]

/-- Attribute `a` is a strictly better question than every other one of the columns `cols` (by the impurity that is left after its best division). -/
def StrictlyBest (imp : List Int → K) (num : V → K) (isCont : List V → Bool) (cols : List (Fin m)) (xs : List (Row V m)) (ys : List Int) (a : Fin m) : Prop :=
  ∀ c ∈ cols, c ≠ a → ∀ ra rc, IsCriterion imp num (isCont (xs.map fun r => r a)) (xs.map fun r => r a) ys ra →
    IsCriterion imp num (isCont (xs.map fun r => r c)) (xs.map fun r => r c) ys rc → ra.1 < rc.1

/-- The attribute of the first question of a tree. -/
def Tree.root : Tree V K m → Option (Fin m)
  | .leaf _ => none
  | .cont a _ _ _ _ _ => some a
  | .disc a _ _ _ => some a

mutual
/-- At every question of a tree, with the samples `xs`, `ys` that arrive there and the columns `cols` still available, the attribute asked about is strictly better than every other one. -/
def NoTies (imp : List Int → K) (num : V → K) (isCont : List V → Bool) : List (Fin m) → List (Row V m) → List Int → Tree V K m → Prop
  | _, _, _, .leaf _ => True
  | cols, xs, ys, .cont a t _ _ ge lt => StrictlyBest imp num isCont cols xs ys a ∧
      NoTies imp num isCont cols (xs.filter fun r => decide (t ≤ num (r a))) (selY (fun r => decide (t ≤ num (r a))) xs ys) ge ∧
      NoTies imp num isCont cols (xs.filter fun r => decide (num (r a) < t)) (selY (fun r => decide (num (r a) < t)) xs ys) lt
  | cols, xs, ys, .disc a _ _ br => StrictlyBest imp num isCont cols xs ys a ∧ NoTiesIn imp num isCont cols xs ys a br
/-- The same for the branches of a question about attribute `a` (which is not asked about again; a branch without samples keeps the labels of its parent). -/
def NoTiesIn (imp : List Int → K) (num : V → K) (isCont : List V → Bool) (cols : List (Fin m)) (xs : List (Row V m)) (ys : List Int) (a : Fin m) : Forest V K m → Prop
  | .nil => True
  | .cons v t rest => NoTies imp num isCont (cols.filter fun c => c ≠ a) (xs.filter fun r => decide (r a = v))
      (if selY (fun r => decide (r a = v)) xs ys = [] then ys else selY (fun r => decide (r a = v)) xs ys) t ∧ NoTiesIn imp num isCont cols xs ys a rest
end

end CML.DTree
