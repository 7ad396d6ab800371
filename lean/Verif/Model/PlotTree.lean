import Verif.Model.Tree

/-!
# Model of `plot_tree` (classicML/api/plots/tree.py)

What is drawn: the list of annotations in drawing order.  Coordinates are exact numbers of an ordered field `C`.  The global
variables `X` and `Y` of the module are threaded through the recursion; `Y` is decreased before the loop over the branches and
increased by the same amount after it (lines 51, 67), so it is an argument here and only `X` is returned.
-/

namespace CML.PlotTree
open CML.DTree

universe u w
variable {V : Type u} {K : Type w} {m : Nat} {C : Type} [Field C]

/-- The text on an edge (`str(key)`, tree.py:58, 65; the empty string for the root, line 92). -/
inductive Edge (V : Type u) (K : Type w)
  | root
  | ge (t : K)
  | lt (t : K)
  | val (v : V)

/-- What is written in a node: the attribute (tree.py:47) or the category (lines 38, 60). -/
inductive Name (m : Nat)
  | attr (a : Fin m)
  | cat (c : Int)
  | nothing

/-- One annotation (plots/utils.py:102-126 `_add_node`) together with its edge text (utils.py:129-145 `_add_text`). `parent` and `pos` are the two
coordinates passed to both; the decoration (arrow head 0.05 below the parent, font, box) is left out. -/
structure Mark (V : Type u) (K : Type w) (m : Nat) (C : Type) where
  isLeaf : Bool
  name : Name m
  pos : C × C
  parent : C × C
  edge : Edge V K
  textPos : C × C

/-- plots/utils.py:143-144: the edge text is written in the middle of the edge. -/
def textPos (parent child : C × C) : C × C :=
  ((parent.1 - child.1) / 2 + child.1, (parent.2 - child.2) / 2 + child.2)

/-- tree.py:54-62: the annotation of a leaf. -/
def leafMark (parent : C × C) (e : Edge V K) (c : Int) (pos : C × C) : Mark V K m C :=
  { isLeaf := true, name := .cat c, pos := pos, parent := parent, edge := e, textPos := textPos parent pos }

/-- tree.py:31-32, 44-49: the annotation of an inner node. -/
def innerMark (parent : C × C) (e : Edge V K) (a : Fin m) (pos : C × C) : Mark V K m C :=
  { isLeaf := false, name := .attr a, pos := pos, parent := parent, edge := e, textPos := textPos parent pos }

mutual
/-- tree.py:53-65 for one branch, i.e. a leaf (lines 54-62) or the recursive call (lines 31-67) for an inner node.
`N` is `NUM_OF_LEAVES`, `H` is `HEIGHT`; the result is the list of annotations and the new value of `X`. -/
def draw (N H : C) (parent : C × C) (e : Edge V K) (X Y : C) : Tree V K m → List (Mark V K m C) × C
  | .leaf c => ([leafMark parent e c (X + 1 / N, Y)], X + 1 / N)
  | .cont a t nl _ ge lt =>
    let child := (X + (1 + (nl : C)) / (2 * N), Y)
    let r1 := draw N H child (.ge t) X (Y - 1 / H) ge
    let r2 := draw N H child (.lt t) r1.2 (Y - 1 / H) lt
    (innerMark parent e a child :: (r1.1 ++ r2.1), r2.2)
  | .disc a nl _ br =>
    let child := (X + (1 + (nl : C)) / (2 * N), Y)
    let r := drawAll N H child X (Y - 1 / H) br
    (innerMark parent e a child :: r.1, r.2)
/-- tree.py:53: the loop over `subtree.keys()`. -/
def drawAll (N H : C) (parent : C × C) (X Y : C) : Forest V K m → List (Mark V K m C) × C
  | .nil => ([], X)
  | .cons v t rest =>
    let r1 := draw N H parent (.val v) X Y t
    let r2 := drawAll N H parent r1.2 Y rest
    (r1.1 ++ r2.1, r2.2)
end

/-- What `decision_tree.category` is for the node given to `plot_tree` (generators.py:46: `None` unless it is a leaf). -/
def rootName : Tree V K m → Name m
  | .leaf c => .cat c
  | _ => .nothing

/-- tree.py:70-92 `plot_tree` (without the decoration of the canvas): `NUM_OF_LEAVES` and `HEIGHT` are those recorded in the
root; a recorded height of zero draws one circle (lines 34-42). -/
def plotTree (C : Type) [Field C] (t : Tree V K m) : List (Mark V K m C) :=
  let N : C := (t.nl : C)
  let X : C := -(1 / 2) / N
  if t.ht = 0 then
    let child := (X + (1 + N) / (2 * N), 1)
    [{ isLeaf := true, name := rootName t, pos := child, parent := (1 / 2, 1), edge := .root, textPos := textPos (1 / 2, 1) child }]
  else (draw N (t.ht : C) (1 / 2, 1) .root X 1 t).1

end CML.PlotTree
