import Verif.Model.Tree

/-!
# Specification of decision trees

Only the shape of trees is used here: leaves, depth, the attributes tested, and the requirements on the two things the generator
obtains from outside (the criterion and pandas' `value_counts`).
-/

namespace CML.DTree

universe u w
variable {V : Type u} {K : Type w} {m : Nat}

mutual
/-- The true number of leaves. -/
def Tree.leaves : Tree V K m → Nat
  | .leaf _ => 1
  | .cont _ _ _ _ g l => g.leaves + l.leaves
  | .disc _ _ _ br => br.leaves
def Forest.leaves : Forest V K m → Nat
  | .nil => 0
  | .cons _ t r => t.leaves + r.leaves
end

mutual
/-- The true depth: the largest number of tests on a path. -/
def Tree.depth : Tree V K m → Nat
  | .leaf _ => 0
  | .cont _ _ _ _ g l => max g.depth l.depth + 1
  | .disc _ _ _ br => br.height1
/-- One more than the largest depth of a branch (0 if there is no branch). -/
def Forest.height1 : Forest V K m → Nat
  | .nil => 0
  | .cons _ t r => max (t.depth + 1) r.height1
end

mutual
/-- The labels at the leaves. -/
def Tree.cats : Tree V K m → List Int
  | .leaf c => [c]
  | .cont _ _ _ _ g l => g.cats ++ l.cats
  | .disc _ _ _ br => br.cats
def Forest.cats : Forest V K m → List Int
  | .nil => []
  | .cons _ t r => t.cats ++ r.cats
end

mutual
/-- The attributes tested by value. -/
def Tree.discAttrs : Tree V K m → List (Fin m)
  | .leaf _ => []
  | .cont _ _ _ _ g l => g.discAttrs ++ l.discAttrs
  | .disc a _ _ br => a :: br.discAttrs
def Forest.discAttrs : Forest V K m → List (Fin m)
  | .nil => []
  | .cons _ t r => t.discAttrs ++ r.discAttrs
end

mutual
/-- `P` holds of every node of the tree. -/
def Tree.All (P : Tree V K m → Prop) : Tree V K m → Prop
  | .leaf c => P (.leaf c)
  | .cont a t n h g l => P (.cont a t n h g l) ∧ g.All P ∧ l.All P
  | .disc a n h br => P (.disc a n h br) ∧ br.All P
def Forest.All (P : Tree V K m → Prop) : Forest V K m → Prop
  | .nil => True
  | .cons _ t r => t.All P ∧ r.All P
end

/-- The branches of a discrete node. -/
def Forest.trees : Forest V K m → List (Tree V K m)
  | .nil => []
  | .cons _ t r => t :: r.trees

/-- The recorded number of leaves is right. -/
def LeavesRight (t : Tree V K m) : Prop := t.nl = (t.leaves : Int)

/-- The recorded height is right. -/
def HeightRight (t : Tree V K m) : Prop := t.ht = (t.depth : Int)

/-- At a continuous node one of the branches is a leaf. -/
def OneSided : Tree V K m → Prop
  | .cont _ _ _ _ g l => g.isLeaf = true ∨ l.isLeaf = true
  | _ => True

/-- At a discrete node all branches are equally deep. -/
def LevelBranches : Tree V K m → Prop
  | .disc _ _ _ br => ∀ s ∈ br.trees, ∀ t ∈ br.trees, s.depth = t.depth
  | _ => True

/-- A discrete node has at least one branch. -/
def HasBranch : Tree V K m → Prop
  | .disc _ _ _ br => br.trees ≠ []
  | _ => True

/-- `value_counts(y).index[0]` of a non-empty series is a most frequent label; of an empty one it does not exist. -/
def MajOK (maj : List Int → Option Int) : Prop :=
  maj [] = none ∧ ∀ ys, ys ≠ [] → ∃ c, maj ys = some c ∧ c ∈ ys ∧ ∀ d, ys.count d ≤ ys.count c

/-- Rows with equal attributes have equal labels. -/
def Consistent (data : List (Row V m × Int)) : Prop :=
  ∀ p ∈ data, ∀ q ∈ data, p.1 = q.1 → p.2 = q.2

/-- Number of labelled rows a tree predicts correctly. -/
def correct [DecidableEq V] [LE K] [DecidableLE K] (num : V → K) (t : Tree V K m) (data : List (Row V m × Int)) : Nat :=
  data.countP fun q => decide (predict num q.1 t = .ok q.2)

/-- The criterion always proposes one of the remaining attributes, to be split by value. -/
def DiscreteSplits (o : Oracle V K m) : Prop :=
  ∀ cols xs ys, cols ≠ [] → xs ≠ [] → ∃ a ∈ cols, o.split cols xs ys = some (a, none)

/-- `t` is the midpoint of two neighbouring values of the column. -/
def NeighbourMidpoint [Field K] [LinearOrder K] (col : List K) (t : K) : Prop :=
  ∃ a ∈ col, ∃ b ∈ col, a < b ∧ (∀ c ∈ col, c ≤ a ∨ b ≤ c) ∧ t = (a + b) / 2

/-- The labels of the samples whose attribute value satisfies a test. -/
def labelsWhere {U : Type*} (p : U → Bool) (D : List U) (y : List Int) : List Int :=
  ((D.zip y).filter fun q => p q.1).map Prod.snd

/-- The impurity of a partition of the labels, each part weighted by its share. -/
def partitionCost [Field K] (imp : List Int → K) (y : List Int) (parts : List (List Int)) : K :=
  (parts.map fun p => (p.length : K) / (y.length : K) * imp p).sum

/-- The impurity of the split of a numerical column at `t`. -/
def splitAt [Field K] [LinearOrder K] (imp : List Int → K) (col : List K) (y : List Int) (t : K) : K :=
  partitionCost imp y [labelsWhere (fun v => decide (t ≤ v)) col y, labelsWhere (fun v => decide (v < t)) col y]

/-- What the criterion should report for an attribute: for a discrete one the impurity of the partition by value and no dividing
point; for a continuous one the best midpoint of neighbouring values and its impurity (infinity and no point if the column has
only one value). -/
def IsCriterion [DecidableEq V] [Field K] [LinearOrder K] (imp : List Int → K) (num : V → K) (continuous : Bool) (D : List V)
    (y : List Int) (r : WithTop K × Option (Option K)) : Prop :=
  if continuous then
    ((∀ t, ¬ NeighbourMidpoint (D.map num) t) ∧ r = (⊤, some none)) ∨
    ∃ t, NeighbourMidpoint (D.map num) t ∧ r = (((splitAt imp (D.map num) y t : K) : WithTop K), some (some t)) ∧
      ∀ s, NeighbourMidpoint (D.map num) s → splitAt imp (D.map num) y t ≤ splitAt imp (D.map num) y s
  else
    ∃ values : List V, values.Nodup ∧ (∀ v, v ∈ values ↔ v ∈ D) ∧
      r = (((partitionCost imp y (values.map fun v => labelsWhere (fun u => decide (v = u)) D y) : K) : WithTop K), none)

end CML.DTree
