import Verif.Model.PlotTree
import Verif.Spec.Tree

/-!
# Specification of the picture of a tree

The picture is described by the tree alone: every node has a depth and a number of leaves to the left of it.
-/

namespace CML.PlotTree
open CML.DTree

universe u w
variable {V : Type u} {K : Type w} {m : Nat} {C : Type} [Field C]

/-- A node as the specification sees it: is it a leaf, its depth, the number of leaves left of it, the number of leaves below it
(1 for a leaf), and what is written in it. -/
structure Node (m : Nat) where
  isLeaf : Bool
  depth : Nat
  left : Nat
  below : Nat
  name : Name m

/-- The root of a tree as a node at depth `d` with `l` leaves to the left of it. -/
def rootNode (d l : Nat) : Tree V K m → Node m
  | .leaf c => ⟨true, d, l, 1, .cat c⟩
  | .cont a t n h g r => ⟨false, d, l, (Tree.cont a t n h g r).leaves, .attr a⟩
  | .disc a n h br => ⟨false, d, l, (Tree.disc a n h br).leaves, .attr a⟩

mutual
/-- The nodes of a tree in preorder; `d` is the depth of the root and `l` the number of leaves left of it. -/
def nodes (d l : Nat) : Tree V K m → List (Node m)
  | .leaf c => [rootNode d l (.leaf c : Tree V K m)]
  | .cont a t n h g r =>
    rootNode d l (.cont a t n h g r) :: (nodes (d + 1) l g ++ nodes (d + 1) (l + g.leaves) r)
  | .disc a n h br => rootNode d l (.disc a n h br) :: nodesIn (d + 1) l br
/-- The nodes of the branches, from left to right. -/
def nodesIn (d l : Nat) : Forest V K m → List (Node m)
  | .nil => []
  | .cons _ t r => nodes d l t ++ nodesIn d (l + t.leaves) r
end

mutual
/-- The edges of a tree in preorder: upper node, lower node, the branch it stands for. -/
def edges (d l : Nat) : Tree V K m → List (Node m × Node m × Edge V K)
  | .leaf _ => []
  | .cont a t n h g r =>
    ((rootNode d l (.cont a t n h g r), rootNode (d + 1) l g, .ge t) :: edges (d + 1) l g) ++
      ((rootNode d l (.cont a t n h g r), rootNode (d + 1) (l + g.leaves) r, .lt t) :: edges (d + 1) (l + g.leaves) r)
  | .disc a n h br => edgesIn (rootNode d l (.disc a n h br)) (d + 1) l br
/-- The edges from `v` to the branches and those inside the branches. -/
def edgesIn (v : Node m) (d l : Nat) : Forest V K m → List (Node m × Node m × Edge V K)
  | .nil => []
  | .cons x t r => ((v, rootNode d l t, .val x) :: edges d l t) ++ edgesIn v d (l + t.leaves) r
end

/-- In a picture with room for `n` leaves, leaf number `i` (from 0) has the abscissa `(i + 1/2) / n`. -/
def leafX (C : Type) [Field C] (n i : Nat) : C := ((i : C) + 1 / 2) / (n : C)

/-- Where a node belongs: above the middle between its first and its last leaf, and `depth` rows below the top of a picture with
`h` rows. -/
def place (C : Type) [Field C] (n : Nat) (h : Int) (v : Node m) : C × C :=
  ((leafX C n v.left + leafX C n (v.left + v.below - 1)) / 2, 1 - (v.depth : C) / (h : C))

/-- What C116 says of a tree: the nodes with their names and places, the edges with their branches. -/
def Drawn (C : Type) [Field C] (t : Tree V K m) : Prop :=
  (plotTree C t).map (fun k => (k.isLeaf, k.name, k.pos)) =
      (nodes 0 0 t).map (fun v => (v.isLeaf, v.name, place C t.leaves t.ht v)) ∧
  (plotTree C t).map (fun k => (k.parent, k.pos, k.edge)) =
      ((1 / 2, 1), place C t.leaves t.ht (rootNode 0 0 t), .root) ::
        (edges 0 0 t).map (fun q => (place C t.leaves t.ht q.1, place C t.leaves t.ht q.2.1, q.2.2)) ∧
  (∀ k ∈ plotTree C t, k.textPos = ((k.parent.1 + k.pos.1) / 2, (k.parent.2 + k.pos.2) / 2)) ∧
  ((plotTree C t).filter (·.isLeaf)).map (fun k => k.pos.1) = (List.range t.leaves).map (leafX C t.leaves) ∧
  ((plotTree C t).map (·.pos)).Nodup

end CML.PlotTree
