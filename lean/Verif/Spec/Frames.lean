import Verif.Model.Frames

/-! # Specifications for the caller's frames -/

namespace CML.Frames

variable {V : Type}

/-- The caller's tables (those that existed before) are as before. -/
def Untouched (h h' : Heap V) : Prop := ∀ i, i < h.next → h'.tab i = h.tab i

/-- The caller's tables have the values and column names they had. -/
def SameValues (h h' : Heap V) : Prop := ∀ i, i < h.next → (h'.tab i).rows = (h.tab i).rows ∧ (h'.tab i).cols = (h.tab i).cols

/-- The row labels are `0, 1, 2, …`. -/
def Numbered (t : Table V) : Prop := ∀ k : Nat, k < t.rows.length → t.index[k]? = some (Label.int k)

/-- There is a row label for every row. -/
def Labelled (t : Table V) : Prop := t.index.length = t.rows.length

/-- pandas' rule for `x[y == c]` and `pd.concat([x, y], axis=1)`: the rows of the two tables belong together by their labels. `Paired` says that row `k` of
one belongs to row `k` of the other. -/
def Paired (s t : Table V) : Prop := s.index = t.index

end CML.Frames
