import Verif.Model.Ops

/-! # Specifications for the small operations -/

namespace CML.Ops

/-- The `i`-th row of an array (a scalar entry of a 1-D array counts as a row with one entry). -/
def Arr.row? {α : Type*} : Arr α → Nat → Option (List α)
  | .d1 l, i => (l[i]?).map fun a => [a]
  | .d2 r, i => r[i]?

/-- `l` contains two different values. -/
def AtLeastTwo {α : Type*} (l : List α) : Prop := ∃ a ∈ l, ∃ b ∈ l, a ≠ b

/-- `l` contains three pairwise different values. -/
def MoreThanTwo {α : Type*} (l : List α) : Prop :=
  ∃ a ∈ l, ∃ b ∈ l, ∃ c ∈ l, a ≠ b ∧ a ≠ c ∧ b ≠ c

/-- The values of `l` are exactly two different ones. -/
def ExactlyTwo {α : Type*} (l : List α) : Prop :=
  ∃ a ∈ l, ∃ b ∈ l, a ≠ b ∧ ∀ v ∈ l, v = a ∨ v = b

/-- The documented meaning of the answers of `type_of_target`, for arrays with one or more dimensions. -/
def TargetSpec {α : Type*} (isInt : α → Bool) (y : Target α) (t : TargetType) : Prop :=
  let refused := y.kind = .object ∨ 2 < y.shape.length
  let continuous := y.kind = .float ∧ ∃ v ∈ y.data, isInt v = false
  let column := y.shape.length = 1 ∨ ∃ n, y.shape = [n, 1]
  match t with
  | .continuous => ¬ refused ∧ continuous
  | .binary => ¬ refused ∧ ¬ continuous ∧ column ∧ ExactlyTwo y.data
  | .multiclass => ¬ refused ∧ ¬ continuous ∧ column ∧ MoreThanTwo y.data
  | .multilabel => ¬ refused ∧ ¬ continuous ∧ ¬ column ∧ AtLeastTwo y.data
  | .unknown => refused ∨ (¬ continuous ∧ ¬ AtLeastTwo y.data)

/-- `(i, e)` is the choice SMO documents: a non-bound index with its cached error, whose gap to `error`
is maximal among the non-bound ones and strictly larger than that of every earlier non-bound one. -/
def IsSecondChoice {K : Type*} [LinearOrder K] [AddGroup K] (error : K) (cache : List K)
    (nonBound : List Bool) (i : Nat) (e : K) : Prop :=
  nonBound[i]? = some true ∧ cache[i]? = some e ∧
  ∀ j e', nonBound[j]? = some true → cache[j]? = some e' →
    |error - e'| ≤ |error - e| ∧ (j < i → |error - e'| < |error - e|)

end CML.Ops
