import Verif.Model.SmallTrees

/-! # Small trees with other column numbers -/

namespace CML.Small

variable {K : Type*} {m m' : Nat}

/-- The same two-level tree with other column numbers. -/
def T2.renumber (σ : Fin m' → Fin m) : T2 K m' → T2 K m
  | .leaf c => .leaf c
  | .node a t u l => .node (σ a) t (u.renumber σ) (l.renumber σ)

/-- The same stump with another column number. -/
def Stump.renumber (σ : Fin m' → Fin m) (s : Stump K m') : Stump K m := ⟨σ s.feature, s.point, s.mode⟩

/-- A row without the columns that `σ` does not name. -/
def Sample.keep (σ : Fin m' → Fin m) (s : Sample K m) : Sample K m' := ⟨fun j => s.x (σ j), s.y, s.w⟩

end CML.Small
