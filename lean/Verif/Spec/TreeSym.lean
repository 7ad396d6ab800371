import Verif.Spec.Tree
import Verif.Model.Ops

/-!
# Specification: recoding the data of a decision tree

The values of every attribute are renamed (for numbers: measured in another unit and from another origin), the labels are renamed.
-/

namespace CML.DTree

universe u u' w
variable {V : Type u} {V' : Type u'} {K : Type w} {m : Nat}

/-- A recoding of the attribute values (`val`), of the numbers compared with dividing points (`factor`, `offset` per attribute) and of the labels. -/
structure Recoding (V : Type u) (V' : Type u') (K : Type w) (m : Nat) where
  val : Fin m → V → V'
  factor : Fin m → K
  offset : Fin m → K
  label : Int → Int

/-- The recoded row. -/
def Recoding.row (ρ : Recoding V V' K m) (r : Row V m) : Row V' m := fun a => ρ.val a (r a)

/-- The recoded labelled row. -/
def Recoding.sample (ρ : Recoding V V' K m) (q : Row V m × Int) : Row V' m × Int := (ρ.row q.1, ρ.label q.2)

variable [Field K]

/-- The recoded dividing point of attribute `a`. -/
def Recoding.point (ρ : Recoding V V' K m) (a : Fin m) (t : K) : K := ρ.factor a * t + ρ.offset a

mutual
/-- The recoded tree. -/
def Tree.recode (ρ : Recoding V V' K m) : Tree V K m → Tree V' K m
  | .leaf c => .leaf (ρ.label c)
  | .cont a t nl ht ge lt => .cont a (ρ.point a t) nl ht (ge.recode ρ) (lt.recode ρ)
  | .disc a nl ht br => .disc a nl ht (br.recode ρ a)
def Forest.recode (ρ : Recoding V V' K m) (a : Fin m) : Forest V K m → Forest V' K m
  | .nil => .nil
  | .cons v t r => .cons (ρ.val a v) (t.recode ρ) (r.recode ρ a)
end

/-- The recoding is faithful on the rows `X`: different values and labels stay different, units are positive factors, and it does not change which (parts of)
columns count as continuous. -/
structure Recoding.Faithful [LinearOrder K] (ρ : Recoding V V' K m) (X : List (Row V m)) (num : V → K) (num' : V' → K) (isCont : List V → Bool) (isCont' : List V' → Bool) : Prop where
  val : ∀ a, Function.Injective (ρ.val a)
  label : Function.Injective ρ.label
  factor : ∀ a, 0 < ρ.factor a
  num : ∀ a v, num' (ρ.val a v) = ρ.point a (num v)
  cont : ∀ a D, (∀ v ∈ D, ∃ r ∈ X, v = r a) → isCont' (D.map (ρ.val a)) = isCont D

/-- New units and origins for the (numerical) attributes; the labels stay. -/
def units (c s : Fin m → K) : Recoding K K K m := ⟨fun a v => c a * v + s a, c, s, id⟩

variable [LinearOrder K]

/-- The new units do not change which (parts of) columns of `X` count as continuous. -/
def ColumnsKept (isCont : List K → Bool) (c s : Fin m → K) (X : List (Row K m)) : Prop :=
  ∀ a D, (∀ v ∈ D, ∃ r ∈ X, v = r a) → isCont (D.map fun v => c a * v + s a) = isCont D

/-- What "does not depend on the units" says of a way to train trees: training on the data in new units gives the same tree with its dividing points in the new units (or raises the same
exception), and the tree in the new units answers every row in the new units as the old one answers the old row. -/
def UnitFree (isCont : List K → Bool) (train : List (Row K m) → List Int → Except PyErr (Tree K K m)) (c s : Fin m → K) : Prop :=
  (∀ xs ys, ColumnsKept isCont c s xs → train (xs.map (units c s).row) ys = (train xs ys).map (Tree.recode (units c s))) ∧
  ∀ (T : Tree K K m) (r : Row K m), predict id ((units c s).row r) (T.recode (units c s)) = predict id r T

/-- Two trainings with the same outcome: both raise, or the two trees answer every row alike and record the same number of leaves and the same height. -/
def SameOutcome [DecidableEq V] (num : V → K) (a b : Except PyErr (Tree V K m)) : Prop :=
  (∃ e e', a = .error e ∧ b = .error e') ∨
  ∃ T T', a = .ok T ∧ b = .ok T' ∧ (∀ r, predict num r T = predict num r T') ∧ T.nl = T'.nl ∧ T.ht = T'.ht

/-- What is a continuous column: `type_of_target` of a float column says so. -/
def floatColumn {α : Type*} [DecidableEq α] (isInt : α → Bool) (D : List α) : Bool :=
  decide (Ops.typeOfTarget isInt ⟨.float, [D.length], D⟩ = .ok .continuous)

end CML.DTree
