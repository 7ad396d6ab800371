import Verif.Spec.PlotTree
import Verif.Props.Tree
import Mathlib.Tactic.FieldSimp
import Mathlib.Tactic.Ring
import Mathlib.Tactic.Linarith
import Mathlib.Tactic.Positivity
import Mathlib.Tactic.LinearCombination

/-!
# Properties of the picture of a decision tree (C116, C117)
-/

set_option linter.unusedSectionVars false

namespace CML.PlotTree
open CML.DTree

universe u w
variable {V : Type u} {K : Type w} {m : Nat} {C : Type} [Field C]

/-! ## Lemmas -/

mutual
theorem leaves_pos : ∀ t : Tree V K m, t.All HasBranch → 1 ≤ t.leaves
  | .leaf _, _ => by simp [Tree.leaves]
  | .cont _ _ _ _ g _, h => by
    have := leaves_pos g h.2.1
    simp only [Tree.leaves]; omega
  | .disc _ _ _ br, h => by
    simp only [Tree.leaves]
    exact leaves_pos_in br h.2 (by simpa [HasBranch] using h.1)
theorem leaves_pos_in : ∀ f : Forest V K m, f.All HasBranch → f.trees ≠ [] → 1 ≤ f.leaves
  | .nil, _, h => by simp [Forest.trees] at h
  | .cons _ t _, h, _ => by
    have := leaves_pos t h.1
    simp only [Forest.leaves]; omega
end

/-- What is recorded of a mark. -/
abbrev look (k : Mark V K m C) : Bool × Name m × (C × C) := (k.isLeaf, k.name, k.pos)
/-- The edge that leads to a mark. -/
abbrev lookEdge (k : Mark V K m C) : (C × C) × (C × C) × Edge V K := (k.parent, k.pos, k.edge)
/-- What should be recorded of a node. -/
abbrev want (C : Type) [Field C] (n : Nat) (h : Int) (v : Node m) : Bool × Name m × (C × C) :=
  (v.isLeaf, v.name, place C n h v)
/-- What should be recorded of an edge. -/
abbrev wantEdge (C : Type) [Field C] (n : Nat) (h : Int) (q : Node m × Node m × Edge V K) :
    (C × C) × (C × C) × Edge V K := (place C n h q.1, place C n h q.2.1, q.2.2)

theorem place_inner [CharZero C] (n l b d : Nat) (h : Int) (hn : n ≠ 0) (hb : 1 ≤ b) (f : Bool) (nm : Name m) :
    place C n h ⟨f, d, l, b, nm⟩ = (((l : C) - 1 / 2) / n + (1 + (b : C)) / (2 * n), 1 - (d : C) / h) := by
  have hn' : (n : C) ≠ 0 := by exact_mod_cast hn
  obtain ⟨c, rfl⟩ : ∃ c, b = c + 1 := ⟨b - 1, by omega⟩
  simp only [place, leafX, Prod.mk.injEq, and_true]
  have : l + (c + 1) - 1 = l + c := by omega
  rw [this]
  push_cast
  field_simp
  ring

mutual
theorem draw_spec [CharZero C] (n : Nat) (h : Int) (hn : n ≠ 0) : ∀ (t : Tree V K m) (p : C × C) (e : Edge V K) (d l : Nat),
    t.All LeavesRight → t.All HasBranch →
    (draw (n : C) (h : C) p e (((l : C) - 1 / 2) / n) (1 - (d : C) / h) t).1.map look = (nodes d l t).map (want C n h) ∧
    (draw (n : C) (h : C) p e (((l : C) - 1 / 2) / n) (1 - (d : C) / h) t).1.map lookEdge =
      (p, place C n h (rootNode d l t), e) :: (edges d l t).map (wantEdge C n h) ∧
    (draw (n : C) (h : C) p e (((l : C) - 1 / 2) / n) (1 - (d : C) / h) t).2 = (((l + t.leaves : Nat) : C) - 1 / 2) / n
  | .leaf c, p, e, d, l, _, _ => by
    have h1 : place C n h (⟨true, d, l, 1, .cat c⟩ : Node m) = (((l : C) - 1 / 2) / n + 1 / n, 1 - (d : C) / h) := by
      rw [place_inner n l 1 d h hn le_rfl]
      simp only [Nat.cast_one, Prod.mk.injEq, and_true]
      have hn' : (n : C) ≠ 0 := by exact_mod_cast hn
      field_simp; ring
    refine ⟨?_, ?_, ?_⟩
    · simp [draw, nodes, leafMark, rootNode, h1]
    · simp [draw, edges, leafMark, rootNode, h1]
    · simp only [draw, Tree.leaves]
      push_cast; ring
  | .cont a t nl ht g r, p, e, d, l, hL, hB => by
    have hY : (1 : C) - (d : C) / h - 1 / h = 1 - ((d + 1 : Nat) : C) / h := by push_cast; ring
    have hnl : (nl : C) = ((Tree.cont a t nl ht g r).leaves : C) := by
      have := hL.1; simp only [LeavesRight, Tree.nl] at this; exact_mod_cast congrArg (Int.cast : ℤ → C) this
    have hroot := place_inner (C := C) n l _ d h hn (leaves_pos _ hB) false (.attr a)
    obtain ⟨g1, g2, g3⟩ := draw_spec n h hn g
      (((l : C) - 1 / 2) / n + (1 + (nl : C)) / (2 * n), 1 - (d : C) / h) (.ge t) (d + 1) l hL.2.1 hB.2.1
    obtain ⟨r1, r2, r3⟩ := draw_spec n h hn r
      (((l : C) - 1 / 2) / n + (1 + (nl : C)) / (2 * n), 1 - (d : C) / h) (.lt t) (d + 1) (l + g.leaves) hL.2.2 hB.2.2
    refine ⟨?_, ?_, ?_⟩
    · simp only [draw, nodes, hY, List.map_cons, List.map_append, g3, g1, r1]
      congr 1
      simp only [innerMark, rootNode, look, want, hroot, hnl]
    · simp only [draw, edges, hY, List.map_cons, List.map_append, g3, g2, r2]
      simp only [innerMark, rootNode, wantEdge, hroot, hnl]
    · simp only [draw, hY, g3, r3, Tree.leaves]
      rw [Nat.add_assoc]
  | .disc a nl ht br, p, e, d, l, hL, hB => by
    have hY : (1 : C) - (d : C) / h - 1 / h = 1 - ((d + 1 : Nat) : C) / h := by push_cast; ring
    have hnl : (nl : C) = ((Tree.disc a nl ht br).leaves : C) := by
      have := hL.1; simp only [LeavesRight, Tree.nl] at this; exact_mod_cast congrArg (Int.cast : ℤ → C) this
    have hroot := place_inner (C := C) n l _ d h hn (leaves_pos _ hB) false (.attr a)
    obtain ⟨g1, g2, g3⟩ := drawAll_spec n h hn br (rootNode d l (.disc a nl ht br)) (d + 1) l hL.2 hB.2
    have hr : place C n h (rootNode d l (.disc a nl ht br)) =
        (((l : C) - 1 / 2) / n + (1 + (nl : C)) / (2 * n), 1 - (d : C) / h) := by
      simp only [rootNode, hroot, hnl]
    rw [hr] at g1 g2 g3
    refine ⟨?_, ?_, ?_⟩
    · simp only [draw, nodes, hY, List.map_cons, g1]
      congr 1
      simp only [innerMark, rootNode, look, want, hroot, hnl]
    · simp only [draw, edges, hY, List.map_cons, g2]
      simp only [innerMark, hr]
    · simp only [draw, hY, g3, Tree.leaves]
theorem drawAll_spec [CharZero C] (n : Nat) (h : Int) (hn : n ≠ 0) : ∀ (f : Forest V K m) (v : Node m) (d l : Nat),
    f.All LeavesRight → f.All HasBranch →
    (drawAll (n : C) (h : C) (place C n h v) (((l : C) - 1 / 2) / n) (1 - (d : C) / h) f).1.map look =
      (nodesIn d l f).map (want C n h) ∧
    (drawAll (n : C) (h : C) (place C n h v) (((l : C) - 1 / 2) / n) (1 - (d : C) / h) f).1.map lookEdge =
      (edgesIn v d l f).map (wantEdge C n h) ∧
    (drawAll (n : C) (h : C) (place C n h v) (((l : C) - 1 / 2) / n) (1 - (d : C) / h) f).2 =
      (((l + f.leaves : Nat) : C) - 1 / 2) / n
  | .nil, v, d, l, _, _ => by simp [drawAll, nodesIn, edgesIn, Forest.leaves]
  | .cons x t r, v, d, l, hL, hB => by
    obtain ⟨g1, g2, g3⟩ := draw_spec n h hn t (place C n h v) (.val x) d l hL.1 hB.1
    obtain ⟨r1, r2, r3⟩ := drawAll_spec n h hn r v d (l + t.leaves) hL.2 hB.2
    refine ⟨?_, ?_, ?_⟩
    · simp only [drawAll, nodesIn, List.map_append, g1, g3, r1]
    · simp only [drawAll, edgesIn, List.map_append, List.map_cons, g2, g3, r2]
    · simp only [drawAll, g3, r3, Forest.leaves, Nat.add_assoc]
end

/-- Two nodes whose leaves are disjoint, or that lie on different levels. -/
def Apart (v w : Node m) : Prop := v.depth ≠ w.depth ∨ v.left + v.below ≤ w.left ∨ w.left + w.below ≤ v.left

mutual
theorem nodes_bounds : ∀ (t : Tree V K m) (d l : Nat), t.All HasBranch →
    ∀ v ∈ nodes d l t, d ≤ v.depth ∧ v.depth ≤ d + t.depth ∧ l ≤ v.left ∧ 1 ≤ v.below ∧ v.left + v.below ≤ l + t.leaves
  | .leaf c, d, l, _, v, hv => by
    simp only [nodes, List.mem_singleton] at hv
    subst hv
    simp [rootNode, Tree.depth, Tree.leaves]
  | .cont a t n h g r, d, l, hB, v, hv => by
    have hp := leaves_pos _ hB
    simp only [nodes, List.mem_cons, List.mem_append] at hv
    simp only [Tree.depth, Tree.leaves] at hp ⊢
    rcases hv with rfl | hv | hv
    · simp only [rootNode, Tree.leaves]; omega
    · have := nodes_bounds g (d + 1) l hB.2.1 v hv; omega
    · have := nodes_bounds r (d + 1) (l + g.leaves) hB.2.2 v hv; omega
  | .disc a n h br, d, l, hB, v, hv => by
    have hp := leaves_pos _ hB
    simp only [nodes, List.mem_cons] at hv
    simp only [Tree.depth, Tree.leaves] at hp ⊢
    rcases hv with rfl | hv
    · simp only [rootNode, Tree.leaves]; omega
    · have := nodesIn_bounds br (d + 1) l hB.2 v hv; omega
theorem nodesIn_bounds : ∀ (f : Forest V K m) (d l : Nat), f.All HasBranch →
    ∀ v ∈ nodesIn d l f, d ≤ v.depth ∧ v.depth + 1 ≤ d + f.height1 ∧ l ≤ v.left ∧ 1 ≤ v.below ∧ v.left + v.below ≤ l + f.leaves
  | .nil, d, l, _, v, hv => by simp [nodesIn] at hv
  | .cons x t r, d, l, hB, v, hv => by
    simp only [nodesIn, List.mem_append] at hv
    simp only [Forest.height1, Forest.leaves]
    rcases hv with hv | hv
    · have := nodes_bounds t d l hB.1 v hv; omega
    · have := nodesIn_bounds r d (l + t.leaves) hB.2 v hv; omega
end

mutual
theorem nodes_apart : ∀ (t : Tree V K m) (d l : Nat), t.All HasBranch → (nodes d l t).Pairwise Apart
  | .leaf c, d, l, _ => by simp [nodes]
  | .cont a t n h g r, d, l, hB => by
    simp only [nodes, List.pairwise_cons, List.pairwise_append, List.mem_append]
    refine ⟨?_, nodes_apart g _ _ hB.2.1, nodes_apart r _ _ hB.2.2, ?_⟩
    · rintro v (hv | hv)
      · have := nodes_bounds g _ _ hB.2.1 v hv
        left; simp only [rootNode]; omega
      · have := nodes_bounds r _ _ hB.2.2 v hv
        left; simp only [rootNode]; omega
    · intro v hv w hw
      have h1 := nodes_bounds g _ _ hB.2.1 v hv
      have h2 := nodes_bounds r _ _ hB.2.2 w hw
      right; left; omega
  | .disc a n h br, d, l, hB => by
    simp only [nodes, List.pairwise_cons]
    refine ⟨?_, nodesIn_apart br _ _ hB.2⟩
    intro v hv
    have := nodesIn_bounds br _ _ hB.2 v hv
    left; simp only [rootNode]; omega
theorem nodesIn_apart : ∀ (f : Forest V K m) (d l : Nat), f.All HasBranch → (nodesIn d l f).Pairwise Apart
  | .nil, d, l, _ => by simp [nodesIn]
  | .cons x t r, d, l, hB => by
    simp only [nodesIn, List.pairwise_append]
    refine ⟨nodes_apart t _ _ hB.1, nodesIn_apart r _ _ hB.2, ?_⟩
    intro v hv w hw
    have h1 := nodes_bounds t _ _ hB.1 v hv
    have h2 := nodesIn_bounds r _ _ hB.2 w hw
    right; left; omega
end

mutual
theorem leafNodes : ∀ (t : Tree V K m) (d l : Nat),
    ((nodes d l t).filter (·.isLeaf)).map (fun v => (v.left, v.below)) =
      (List.range t.leaves).map fun i => (l + i, 1)
  | .leaf c, d, l => by simp [nodes, rootNode, Tree.leaves]
  | .cont a t n h g r, d, l => by
    simp only [nodes, rootNode, List.filter_cons, Bool.false_eq_true, if_false, List.filter_append, List.map_append, leafNodes g,
      leafNodes r, Tree.leaves, List.range_add, List.map_map]
    congr 1
    apply List.map_congr_left
    intro i _
    simp [Nat.add_assoc]
  | .disc a n h br, d, l => by
    simp only [nodes, rootNode, List.filter_cons, Bool.false_eq_true, if_false, Tree.leaves]
    exact leafNodesIn br (d + 1) l
theorem leafNodesIn : ∀ (f : Forest V K m) (d l : Nat),
    ((nodesIn d l f).filter (·.isLeaf)).map (fun v => (v.left, v.below)) =
      (List.range f.leaves).map fun i => (l + i, 1)
  | .nil, d, l => by simp [nodesIn, Forest.leaves]
  | .cons x t r, d, l => by
    simp only [nodesIn, List.filter_append, List.map_append, leafNodes t, leafNodesIn r, Forest.leaves, List.range_add, List.map_map]
    congr 1
    apply List.map_congr_left
    intro i _
    simp [Nat.add_assoc]
end

theorem place_ne [CharZero C] {n : Nat} {h : Int} (hn : n ≠ 0) (hh : h ≠ 0) {v w : Node m} (hv : 1 ≤ v.below)
    (hw : 1 ≤ w.below) (hd : Apart v w) : place C n h v ≠ place C n h w := by
  have hn' : (n : C) ≠ 0 := by exact_mod_cast hn
  have hh' : (h : C) ≠ 0 := by exact_mod_cast hh
  obtain ⟨_, dv, lv, bv, _⟩ := v
  obtain ⟨_, dw, lw, bw, _⟩ := w
  simp only [Apart] at hd hv hw
  rw [place_inner n lv bv dv h hn hv, place_inner n lw bw dw h hn hw]
  intro he
  rw [Prod.mk.injEq] at he
  obtain ⟨h1, h2⟩ := he
  field_simp at h1 h2
  rcases hd with hd | hd
  · have : (dv : C) = dw := by linear_combination -h2
    exact hd (by exact_mod_cast this)
  · have : ((2 * lv + bv : Nat) : C) = ((2 * lw + bw : Nat) : C) := by push_cast; linear_combination h1
    have : 2 * lv + bv = 2 * lw + bw := by exact_mod_cast this
    omega

mutual
theorem draw_text (N H : C) : ∀ (t : Tree V K m) (p : C × C) (e : Edge V K) (X Y : C),
    ∀ k ∈ (draw N H p e X Y t).1, k.textPos = textPos k.parent k.pos
  | .leaf c, p, e, X, Y, k, hk => by
    simp only [draw, List.mem_singleton] at hk; subst hk; rfl
  | .cont a t nl ht g r, p, e, X, Y, k, hk => by
    simp only [draw, List.mem_cons, List.mem_append] at hk
    rcases hk with rfl | hk | hk
    · rfl
    · exact draw_text N H g _ _ _ _ k hk
    · exact draw_text N H r _ _ _ _ k hk
  | .disc a nl ht br, p, e, X, Y, k, hk => by
    simp only [draw, List.mem_cons] at hk
    rcases hk with rfl | hk
    · rfl
    · exact drawAll_text N H br _ _ _ k hk
theorem drawAll_text (N H : C) : ∀ (f : Forest V K m) (p : C × C) (X Y : C),
    ∀ k ∈ (drawAll N H p X Y f).1, k.textPos = textPos k.parent k.pos
  | .nil, p, X, Y, k, hk => by simp [drawAll] at hk
  | .cons x t r, p, X, Y, k, hk => by
    simp only [drawAll, List.mem_append] at hk
    rcases hk with hk | hk
    · exact draw_text N H t _ _ _ _ k hk
    · exact drawAll_text N H r _ _ _ k hk
end

theorem textPos_mid [CharZero C] (p q : C × C) : textPos p q = ((p.1 + q.1) / 2, (p.2 + q.2) / 2) := by
  simp only [textPos, Prod.mk.injEq]
  constructor <;> ring

/-! ## C116 -/

/-- C116: `plot_tree` draws exactly the nodes of the tree, each with its own name, above the middle of its leaves and on the row of
its depth, and the edges of the tree between them, each with the text of its branch. -/
theorem C116_picture [CharZero C] (t : Tree V K m) (hL : t.All LeavesRight) (hB : t.All HasBranch) (hh : t.ht = 0 → t.isLeaf = true) :
    (plotTree C t).map (fun k => (k.isLeaf, k.name, k.pos)) =
      (nodes 0 0 t).map (fun v => (v.isLeaf, v.name, place C t.leaves t.ht v)) ∧
    (plotTree C t).map (fun k => (k.parent, k.pos, k.edge)) =
      ((1 / 2, 1), place C t.leaves t.ht (rootNode 0 0 t), .root) ::
        (edges 0 0 t).map (fun q => (place C t.leaves t.ht q.1, place C t.leaves t.ht q.2.1, q.2.2)) ∧
    ∀ k ∈ plotTree C t, k.textPos = ((k.parent.1 + k.pos.1) / 2, (k.parent.2 + k.pos.2) / 2) := by
  have hn : (t.leaves : Nat) ≠ 0 := by have := leaves_pos t hB; omega
  have hself : LeavesRight t := by
    cases t with
    | leaf => exact hL
    | cont => exact hL.1
    | disc => exact hL.1
  have hnl : (t.nl : C) = (t.leaves : C) := by
    simp only [LeavesRight] at hself; rw [hself]; simp
  have hX : (-(1 / 2) / (t.leaves : C)) = (((0 : Nat) : C) - 1 / 2) / (t.leaves : C) := by simp
  have hY : (1 : C) = 1 - ((0 : Nat) : C) / (t.ht : C) := by simp
  by_cases h0 : t.ht = 0
  · have hleaf := hh h0
    cases t with
    | cont => simp [Tree.isLeaf] at hleaf
    | disc => simp [Tree.isLeaf] at hleaf
    | leaf c =>
      refine ⟨?_, ?_, ?_⟩
      · simp [plotTree, Tree.ht, Tree.nl, nodes, rootNode, rootName, place, leafX, Tree.leaves]; norm_num
      · simp [plotTree, Tree.ht, Tree.nl, nodes, rootNode, rootName, place, leafX, Tree.leaves, edges]; norm_num
      · simp [plotTree, Tree.ht, Tree.nl, textPos]; norm_num
  · obtain ⟨h1, h2, _⟩ := draw_spec (C := C) t.leaves t.ht hn t (1 / 2, 1) .root 0 0 hL hB
    rw [← hX, ← hY] at h1 h2
    have hp : plotTree C t = (draw (t.leaves : C) (t.ht : C) (1 / 2, 1) .root (-(1 / 2) / (t.leaves : C)) 1 t).1 := by
      simp only [plotTree, h0, if_false, hnl]
    rw [hp]
    refine ⟨h1, h2, ?_⟩
    exact fun k hk => (draw_text _ _ t _ _ _ _ k hk).trans (textPos_mid _ _)

/-- The leaves of the picture are evenly spaced, from left to right. -/
theorem C116_leaves [CharZero C] (t : Tree V K m) (hL : t.All LeavesRight) (hB : t.All HasBranch)
    (hh : t.ht = 0 → t.isLeaf = true) :
    ((plotTree C t).filter (·.isLeaf)).map (fun k => k.pos.1) = (List.range t.leaves).map (leafX C t.leaves) := by
  have h1 := (C116_picture (C := C) t hL hB hh).1
  have h2 : ((plotTree C t).filter (·.isLeaf)).map (fun k => k.pos.1) =
      (((plotTree C t).map (fun k => (k.isLeaf, k.name, k.pos))).filter (·.1)).map (fun q => q.2.2.1) := by
    rw [List.filter_map, List.map_map]; rfl
  have h3 : (((nodes 0 0 t).map (fun v => (v.isLeaf, v.name, place C t.leaves t.ht v))).filter (·.1)).map (fun q => q.2.2.1) =
      (((nodes 0 0 t).filter (·.isLeaf)).map (fun v => (v.left, v.below))).map
        (fun q => (leafX C t.leaves q.1 + leafX C t.leaves (q.1 + q.2 - 1)) / 2) := by
    rw [List.filter_map, List.map_map, List.map_map]; rfl
  rw [h2, h1, h3, leafNodes, List.map_map]
  apply List.map_congr_left
  intro i _
  simp only [Function.comp]
  rw [show 0 + i + 1 - 1 = i by omega, show 0 + i = i by omega]
  ring

/-- No two nodes of the picture are drawn in the same place. -/
theorem C116_distinct [CharZero C] (t : Tree V K m) (hL : t.All LeavesRight) (hB : t.All HasBranch)
    (hh : t.ht = 0 → t.isLeaf = true) : ((plotTree C t).map (·.pos)).Nodup := by
  by_cases h0 : t.ht = 0
  · simp [plotTree, h0]
  · have h1 := (C116_picture (C := C) t hL hB hh).1
    have h2 : (plotTree C t).map (·.pos) = (nodes 0 0 t).map (place C t.leaves t.ht) := by
      have := congrArg (List.map (fun q : Bool × Name m × (C × C) => q.2.2)) h1
      rwa [List.map_map, List.map_map] at this
    have hn : t.leaves ≠ 0 := by have := leaves_pos t hB; omega
    rw [h2, List.Nodup, List.pairwise_map]
    refine List.Pairwise.imp_of_mem ?_ (nodes_apart t 0 0 hB)
    intro v w hv hw ha
    exact place_ne hn h0 (nodes_bounds t 0 0 hB v hv).2.2.2.1 (nodes_bounds t 0 0 hB w hw).2.2.2.1 ha

section
variable [DecidableEq V] [LinearOrder K]

theorem drawn_of [CharZero C] {t : Tree V K m} (hL : t.All LeavesRight) (hS : t.All Sturdy) : Drawn C t := by
  have hB := sturdy_hasBranch hS
  have hh : t.ht = 0 → t.isLeaf = true := by
    intro h0
    have := (all_self hS).2.2
    by_contra hne
    have := this (by simpa using hne)
    omega
  obtain ⟨h1, h2, h3⟩ := C116_picture (C := C) t hL hB hh
  exact ⟨h1, h2, h3, C116_leaves t hL hB hh, C116_distinct t hL hB hh⟩

/-- C116 for every tree that `fit` produces without a pruner. -/
theorem C116_fitted [CharZero C] (o : Oracle V K m) (limit : Nat) (xs : List (Row V m)) (ys : List Int) (hx : xs ≠ [])
    (t : Tree V K m) (hfit : fit o limit xs ys = .ok t) : Drawn C t :=
  drawn_of (C25_leaves o limit xs ys t hfit).1 (generate_sturdy o xs hx _ _ _ _ _ hfit)

/-- C116 for every tree that `fit` produces with a post-pruner, whatever heights it recorded. -/
theorem C116_post_pruned [CharZero C] (o : Oracle V K m) (limit : Nat) (xs : List (Row V m)) (ys : List Int) (hx : xs ≠ [])
    (t t' : Tree V K m) (hfit : fit o limit xs ys = .ok t) (train val : List (Row V m × Int))
    (h : postPrune o.num o.maj t train val = .ok t') : Drawn C t' :=
  drawn_of (C27_leaves o.num o.maj t t' train val h (C25_leaves o limit xs ys t hfit).1)
    (postPrune_sturdy o.num o.maj t train val t' h (generate_sturdy o xs hx _ _ _ _ _ hfit))

/-- C116 for every tree that `fit` produces with a pre-pruner. -/
theorem C116_pre_pruned [CharZero C] [Zero K] (o : Oracle V K m) (limit : Nat) (xs : List (Row V m)) (ys : List Int)
    (hx : xs ≠ []) (t t' : Tree V K m) (hfit : fit o limit xs ys = .ok t) (train val : List (Row V m × Int))
    (h : prePrune o.num o.maj t train val = .ok t') : Drawn C t' :=
  drawn_of (prePrune_leaves o.num o.maj t train val t' h (C25_leaves o limit xs ys t hfit).1)
    (prePrune_sturdy o.num o.maj t train val t' h (generate_sturdy o xs hx _ _ _ _ _ hfit))

/-! ## C117 -/

/-- C117 in general: if the recorded height is not too small, all nodes lie in the unit square. -/
theorem canvas_of [LinearOrder C] [IsStrictOrderedRing C] {t : Tree V K m} (hL : t.All LeavesRight) (hS : t.All Sturdy)
    (hd : (t.depth : Int) ≤ t.ht) :
    ∀ k ∈ plotTree C t, 0 < k.pos.1 ∧ k.pos.1 < 1 ∧ 0 ≤ k.pos.2 ∧ k.pos.2 ≤ 1 := by
  intro k hk
  have hB := sturdy_hasBranch hS
  have hn0 : 1 ≤ t.leaves := leaves_pos t hB
  have hn : t.leaves ≠ 0 := by omega
  have hpos : k.pos ∈ (plotTree C t).map (·.pos) := List.mem_map_of_mem hk
  have h1 := (drawn_of (C := C) hL hS).1
  have h2 : (plotTree C t).map (·.pos) = (nodes 0 0 t).map (place C t.leaves t.ht) := by
    have := congrArg (List.map (fun q : Bool × Name m × (C × C) => q.2.2)) h1
    rwa [List.map_map, List.map_map] at this
  rw [h2, List.mem_map] at hpos
  obtain ⟨v, hv, he⟩ := hpos
  obtain ⟨-, b2, -, b4, b5⟩ := nodes_bounds t 0 0 hB v hv
  obtain ⟨f, d, l, b, nm⟩ := v
  simp only at b2 b4 b5
  rw [place_inner _ l b d _ hn b4] at he
  rw [← he]
  have hN : (0 : C) < (t.leaves : C) := by exact_mod_cast hn0
  have hb5 : ((l : C) + b) ≤ (t.leaves : C) := by
    have : l + b ≤ t.leaves := by omega
    exact_mod_cast this
  have hb4 : (1 : C) ≤ b := by exact_mod_cast b4
  have hl : (0 : C) ≤ l := by positivity
  have hx : ((l : C) - 1 / 2) / (t.leaves : C) + (1 + (b : C)) / (2 * (t.leaves : C)) = (l + b / 2) / (t.leaves : C) := by
    field_simp; ring
  refine ⟨?_, ?_, ?_, ?_⟩
  · simp only [hx]; positivity
  · simp only [hx]; rw [div_lt_one hN]; linarith
  · simp only
    rcases (show t.ht = 0 ∨ 0 < t.ht by omega) with h0 | h0
    · simp [h0]
    · have h0' : (0 : C) < (t.ht : C) := by exact_mod_cast h0
      have : (d : C) ≤ (t.ht : C) := by
        have : (d : Int) ≤ t.ht := by omega
        exact_mod_cast this
      have := (div_le_one h0').2 this
      linarith
  · simp only
    have h0' : (0 : C) ≤ (t.ht : C) := by
      have : 0 ≤ t.ht := by omega
      exact_mod_cast this
    have : 0 ≤ (d : C) / (t.ht : C) := by positivity
    linarith

/-- C117 (trees fitted without a pruner): every node is drawn inside the canvas. Missing: pruned trees, whose recorded height can be
too small, see `C117_off_canvas`. -/
theorem C117_canvas_partial [LinearOrder C] [IsStrictOrderedRing C] (o : Oracle V K m) (limit : Nat) (xs : List (Row V m))
    (ys : List Int) (hx : xs ≠ []) (t : Tree V K m) (hfit : fit o limit xs ys = .ok t) :
    ∀ k ∈ plotTree C t, 0 < k.pos.1 ∧ k.pos.1 < 1 ∧ 0 ≤ k.pos.2 ∧ k.pos.2 ≤ 1 :=
  canvas_of (C25_leaves o limit xs ys t hfit).1 (generate_sturdy o xs hx _ _ _ _ _ hfit)
    (C25_height_partial o limit xs ys t hfit).1

/-- C117 for post-pruned trees whose branches are level. -/
theorem C117_level_partial [LinearOrder C] [IsStrictOrderedRing C] (o : Oracle V K m) (limit : Nat) (xs : List (Row V m))
    (ys : List Int) (hx : xs ≠ []) (t t' : Tree V K m) (hfit : fit o limit xs ys = .ok t) (h1 : t.All OneSided)
    (train val : List (Row V m × Int)) (h : postPrune o.num o.maj t train val = .ok t') (hL : t'.All LevelBranches) :
    ∀ k ∈ plotTree C t', 0 < k.pos.1 ∧ k.pos.1 < 1 ∧ 0 ≤ k.pos.2 ∧ k.pos.2 ≤ 1 :=
  canvas_of (C27_leaves o.num o.maj t t' train val h (C25_leaves o limit xs ys t hfit).1)
    (postPrune_sturdy o.num o.maj t train val t' h (generate_sturdy o xs hx _ _ _ _ _ hfit))
    (le_of_eq (all_self (C27_height_fitted_partial o limit xs ys hx t t' hfit h1 train val h hL)).symm)

end

/-- C117 is false after post-pruning: a fitted tree that stays as it is under the pruner has two leaves drawn at height -1. -/
theorem C117_off_canvas :
    ∃ (xs : List (Row ℚ 2)) (ys : List Int) (val : List (Row ℚ 2 × Int)) (t t' : Tree ℚ ℚ 2),
      fit (giniDiscrete 2) 10 xs ys = .ok t ∧ postPrune id majFirst t (xs.zip ys) val = .ok t' ∧
      ((plotTree ℚ t').filter fun k => k.pos.2 = -1).length = 2 := by
  obtain ⟨t, h1, h2⟩ := exists_ok (x := fit (giniDiscrete 2) 10 [![0, 0], ![1, 0], ![1, 1]] [0, 1, 0])
    (fun t =>
      onOk (postPrune id majFirst t ([![0, 0], ![1, 0], ![1, 1]].zip [0, 1, 0]) [(![1, 0], 1), (![1, 1], 0), (![0, 0], 0)])
        fun t' => decide (((plotTree ℚ t').filter fun k => k.pos.2 = -1).length = 2)) (by decide +kernel)
  obtain ⟨t', h3, h4⟩ := exists_ok _ h2
  exact ⟨_, _, _, t, t', h1, h3, of_decide_eq_true h4⟩

/-- A fitted tree with seven nodes: four leaves in the places 1/8, 3/8, 5/8, 7/8 on the bottom row. -/
example : ∃ t, fit (giniDiscrete 2) 10 [![0, 0], ![0, 1], ![1, 0], ![1, 1]] [0, 1, 1, 0] = .ok t ∧
    (plotTree ℚ t).map (·.pos) =
      [(1/2, 1), (1/4, 1/2), (1/8, 0), (3/8, 0), (3/4, 1/2), (5/8, 0), (7/8, 0)] := by
  obtain ⟨t, h1, h2⟩ := exists_ok
    (x := fit (giniDiscrete 2) 10 [![0, 0], ![0, 1], ![1, 0], ![1, 1]] [0, 1, 1, 0])
    (fun t => decide ((plotTree ℚ t).map (·.pos) =
      [(1/2, 1), (1/4, 1/2), (1/8, 0), (3/8, 0), (3/4, 1/2), (5/8, 0), (7/8, 0)])) (by decide +kernel)
  exact ⟨t, h1, of_decide_eq_true h2⟩

end CML.PlotTree
