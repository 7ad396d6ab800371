import Verif.Spec.Prune

/-! # Specification: all the ways to prune a tree -/

namespace CML.DTree

universe u w
variable {V : Type u} [DecidableEq V] {K : Type w} [LinearOrder K] {m : Nat}

mutual
/-- `Pruning num maj t tr t'`: the tree `t'` arises from `t` by replacing any number of inner nodes by leaves, each labelled with the majority of the
training rows that reach it (`tr` reach the root). The recorded statistics do not matter. -/
inductive Pruning (num : V → K) (maj : List Int → Option Int) : Tree V K m → Data V m → Tree V K m → Prop
  | leaf (c : Int) (tr : Data V m) : Pruning num maj (.leaf c) tr (.leaf c)
  | cut (t : Tree V K m) (tr : Data V m) (c : Int) : t.isLeaf = false → maj (tr.map Prod.snd) = some c → Pruning num maj t tr (.leaf c)
  | cont (a : Fin m) (t : K) (n h n' h' : Int) (g l g' l' : Tree V K m) (tr : Data V m) :
      Pruning num maj g (tr.filter fun q => t ≤ num (q.1 a)) g' → Pruning num maj l (tr.filter fun q => num (q.1 a) < t) l' →
      Pruning num maj (.cont a t n h g l) tr (.cont a t n' h' g' l')
  | disc (a : Fin m) (n h n' h' : Int) (br br' : Forest V K m) (tr : Data V m) : PruningIn num maj a br tr br' →
      Pruning num maj (.disc a n h br) tr (.disc a n' h' br')
/-- The same for all the branches of a node that tests the attribute `a` by value. -/
inductive PruningIn (num : V → K) (maj : List Int → Option Int) : Fin m → Forest V K m → Data V m → Forest V K m → Prop
  | nil (a : Fin m) (tr : Data V m) : PruningIn num maj a .nil tr .nil
  | cons (a : Fin m) (v : V) (t t' : Tree V K m) (f f' : Forest V K m) (tr : Data V m) :
      Pruning num maj t (tr.filter fun q => q.1 a = v) t' → PruningIn num maj a f tr f' →
      PruningIn num maj a (.cons v t f) tr (.cons v t' f')
end

/-- No inner node that validation rows reach would be right more often as a leaf. -/
def NoBetterLeaf (num : V → K) (maj : List Int → Option Int) (t : Tree V K m) (train val : Data V m) : Prop :=
  ∀ s tr v, Sub num t train val s tr v → v ≠ [] → s.isLeaf = false → ∀ c, maj (tr.map Prod.snd) = some c →
    correct num (.leaf c : Tree V K m) v ≤ correct num s v

end CML.DTree
