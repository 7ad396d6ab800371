import Verif.Spec.Tree

/-! # Specification of pruning: the nodes of a tree with the training and validation rows that reach them -/

namespace CML.DTree

universe u w
variable {V : Type u} {K : Type w} {m : Nat}

/-- Labelled rows. -/
abbrev Data (V : Type u) (m : Nat) := List (Row V m × Int)

/-- The branches of a discrete node with their values. -/
def Forest.pairs : Forest V K m → List (V × Tree V K m)
  | .nil => []
  | .cons v t r => (v, t) :: r.pairs

/-- `Sub num t tr v s tr' v'`: `s` is a node of the tree `t` (with everything below it), and of the training rows `tr` and the
validation rows `v` given to the root exactly `tr'` and `v'` reach it. -/
inductive Sub [DecidableEq V] [LinearOrder K] (num : V → K) :
    Tree V K m → Data V m → Data V m → Tree V K m → Data V m → Data V m → Prop
  | here (t : Tree V K m) (tr v : Data V m) : Sub num t tr v t tr v
  | ge {a : Fin m} {t : K} {n h : Int} {g l s : Tree V K m} {tr v tr' v' : Data V m} :
      Sub num g (tr.filter fun q => t ≤ num (q.1 a)) (v.filter fun q => t ≤ num (q.1 a)) s tr' v' →
      Sub num (.cont a t n h g l) tr v s tr' v'
  | lt {a : Fin m} {t : K} {n h : Int} {g l s : Tree V K m} {tr v tr' v' : Data V m} :
      Sub num l (tr.filter fun q => num (q.1 a) < t) (v.filter fun q => num (q.1 a) < t) s tr' v' →
      Sub num (.cont a t n h g l) tr v s tr' v'
  | disc {a : Fin m} {n h : Int} {br : Forest V K m} {x : V} {u s : Tree V K m} {tr v tr' v' : Data V m} : (x, u) ∈ br.pairs →
      Sub num u (tr.filter fun q => q.1 a = x) (v.filter fun q => q.1 a = x) s tr' v' →
      Sub num (.disc a n h br) tr v s tr' v'

/-- The test at the root: the attribute and, for a continuous one, the dividing point. -/
def Tree.test : Tree V K m → Option (Fin m × Option K)
  | .leaf _ => none
  | .cont a t _ _ _ _ => some (a, some t)
  | .disc a _ _ _ => some (a, none)

/-- All the branches of the node are leaves (and it is not a leaf itself). -/
def Tree.Bottom : Tree V K m → Prop
  | .leaf _ => False
  | .cont _ _ _ _ g l => g.isLeaf = true ∧ l.isLeaf = true
  | .disc _ _ _ br => ∀ u ∈ br.trees, u.isLeaf = true

/-- The tests are all by value. -/
def Tree.Discrete : Tree V K m → Prop
  | .cont _ _ _ _ _ _ => False
  | _ => True

/-- The validation rows that are labelled with the majority of the training rows that have the same value of the attribute `a`. -/
def valueCorrect [DecidableEq V] (maj : List Int → Option Int) (a : Fin m) (tr v : Data V m) : Nat :=
  v.countP fun q => decide (maj ((tr.filter fun p => p.1 a = q.1 a).map Prod.snd) = some q.2)

end CML.DTree
