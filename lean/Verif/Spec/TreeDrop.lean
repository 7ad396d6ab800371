import Verif.Model.Tree

/-! # Trees and the attributes they ask about -/

namespace CML.DTree

universe u w
variable {V : Type u} {K : Type w} {m m' : Nat}

mutual
/-- The attributes that the questions of a tree are about. -/
def Tree.attrs : Tree V K m → List (Fin m)
  | .leaf _ => []
  | .cont a _ _ _ g l => a :: (g.attrs ++ l.attrs)
  | .disc a _ _ br => a :: br.attrs
/-- The attributes of all branches. -/
def Forest.attrs : Forest V K m → List (Fin m)
  | .nil => []
  | .cons _ t rest => t.attrs ++ rest.attrs
end

mutual
/-- The same tree with other column numbers. -/
def Tree.renumber (σ : Fin m' → Fin m) : Tree V K m' → Tree V K m
  | .leaf c => .leaf c
  | .cont a t nl ht g l => .cont (σ a) t nl ht (g.renumber σ) (l.renumber σ)
  | .disc a nl ht br => .disc (σ a) nl ht (br.renumber σ)
/-- The same branches with other column numbers. -/
def Forest.renumber (σ : Fin m' → Fin m) : Forest V K m' → Forest V K m
  | .nil => .nil
  | .cons v t rest => .cons v (t.renumber σ) (rest.renumber σ)
end

/-- The columns `σ 0, σ 1, …` of a row. -/
def keep (σ : Fin m' → Fin m) (r : Row V m) : Row V m' := fun j => r (σ j)

end CML.DTree
