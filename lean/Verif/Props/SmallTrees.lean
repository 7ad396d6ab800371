import Verif.Lemmas.SmallTrees
import Mathlib.Algebra.Order.Ring.Rat
import Mathlib.Algebra.Field.Rat
import Mathlib.Data.Fin.VecNotation

set_option linter.unusedSectionVars false

/-! # Properties C29, C30, C31, C74 (decision stumps and two-level trees) -/

namespace CML.Small

open CML.DTree

variable {K : Type*} [Field K] [LinearOrder K] [IsStrictOrderedRing K] {m : Nat}

/-- C29: on at least two samples with labels -1/+1 and at least one feature a stump is found; its point is the midpoint of two
consecutive sorted values of its feature; it makes at most as many training mistakes as any rule "threshold at a midpoint of two
neighbouring values", in either direction. -/
theorem C29_minimal (data : List ((Fin m → K) × Int)) (h2 : 2 ≤ data.length) (hm : 0 < m)
    (hy : ∀ q ∈ data, q.2 = 1 ∨ q.2 = -1) :
    ∃ s, stumpGenerate data = some s ∧ ConsecutiveMidpoint (data.map fun q => q.1 s.feature) s.point ∧
      ∀ i t md, NeighbourMidpoint (data.map fun q => q.1 i) t →
        mistakes s.predict data ≤ mistakes (thresholdRule i t md) data := by
  have hne : data ≠ [] := by rintro rfl; simp at h2
  have hpos : (0 : K) < data.length := by exact_mod_cast List.length_pos_of_ne_nil hne
  unfold stumpGenerate
  rcases bestStump_spec (fun s => s.error data) (stumpCandidates data) (⊤, none) with ⟨-, h⟩ | ⟨s, hs, h, -, hmin⟩
  · exfalso
    have hc := candidatePoints_ne_nil (col := data.map fun q => q.1 ⟨0, hm⟩) (by simpa using h2)
    obtain ⟨t, ht⟩ := List.exists_mem_of_ne_nil _ hc
    have := h ⟨⟨0, hm⟩, t, .gte⟩ (mem_stumpCandidates.2 ht)
    rw [stump_error _ data hne hy] at this
    simp at this
  · refine ⟨s, h, candidatePoints_sound (mem_stumpCandidates.1 hs), ?_⟩
    intro i t md ht
    have := hmin ⟨i, t, md⟩ (mem_stumpCandidates.2 (candidatePoints_complete ht))
    rw [stump_error _ data hne hy, stump_error _ data hne hy, WithTop.coe_le_coe, div_le_div_iff_of_pos_right hpos] at this
    have h3 : mistakes (thresholdRule i t md) data = mistakes (Stump.predict ⟨i, t, md⟩) data := by
      congr 1; funext r; exact (predict_eq_rule ⟨i, t, md⟩ r).symm
    rw [h3]
    exact_mod_cast this

/-- C29, strengthened: the stump makes at most as many training mistakes as any threshold rule whatsoever whose threshold
separates the values of its feature. -/
theorem C29_beats_every_threshold (data : List ((Fin m → K) × Int)) (h2 : 2 ≤ data.length) (hm : 0 < m)
    (hy : ∀ q ∈ data, q.2 = 1 ∨ q.2 = -1) :
    ∃ s, stumpGenerate data = some s ∧ ∀ i t md, (∃ q ∈ data, q.1 i < t) → (∃ q ∈ data, t ≤ q.1 i) →
        mistakes s.predict data ≤ mistakes (thresholdRule i t md) data := by
  obtain ⟨s, h1, -, h3⟩ := C29_minimal data h2 hm hy
  refine ⟨s, h1, ?_⟩
  rintro i t md ⟨p, hp, hpt⟩ ⟨q, hq, hqt⟩
  obtain ⟨u, hu, hiff⟩ := exists_neighbour (col := data.map fun q => q.1 i) (t := t)
    ⟨p.1 i, List.mem_map.2 ⟨p, hp, rfl⟩, hpt⟩ ⟨q.1 i, List.mem_map.2 ⟨q, hq, rfl⟩, hqt⟩
  have h4 := h3 i u md hu
  have h5 : mistakes (thresholdRule i t md) data = mistakes (thresholdRule i u md) data := by
    unfold mistakes
    congr 1
    apply List.filter_congr
    intro r hr
    have h6 := hiff (r.1 i) (List.mem_map.2 ⟨r, hr, rfl⟩)
    have h7 : r.1 i < t ↔ r.1 i < u := by rw [← not_le, ← not_le, h6]
    simp only [thresholdRule, h6, h7]
  rw [h5]; exact h4

/-- C29: at least half of the training samples are classified correctly. -/
theorem C29_at_least_half (data : List ((Fin m → K) × Int)) (h2 : 2 ≤ data.length) (hm : 0 < m)
    (hy : ∀ q ∈ data, q.2 = 1 ∨ q.2 = -1) :
    ∃ s, stumpGenerate data = some s ∧ 2 * mistakes s.predict data ≤ data.length := by
  have hne : data ≠ [] := by rintro rfl; simp at h2
  have hpos : (0 : K) < data.length := by exact_mod_cast List.length_pos_of_ne_nil hne
  obtain ⟨s, h, -, -⟩ := C29_minimal data h2 hm hy
  refine ⟨s, h, ?_⟩
  unfold stumpGenerate at h
  rcases bestStump_spec (fun s => s.error data) (stumpCandidates data) (⊤, none) with ⟨h', -⟩ | ⟨s', hs, h', -, hmin⟩
  · rw [h'] at h; simp at h
  · rw [h'] at h
    simp only [Option.some.injEq] at h
    subst h
    have hflip : ∀ md, mistakes s'.predict data ≤ mistakes (thresholdRule s'.feature s'.point md) data := by
      intro md
      have hs' := mem_stumpCandidates.1 hs
      have := hmin ⟨s'.feature, s'.point, md⟩ ((mem_stumpCandidates (s := ⟨s'.feature, s'.point, md⟩)).2 hs')
      rw [stump_error _ data hne hy, stump_error _ data hne hy, WithTop.coe_le_coe, div_le_div_iff_of_pos_right hpos] at this
      have h3 : mistakes (thresholdRule s'.feature s'.point md) data = mistakes (Stump.predict ⟨s'.feature, s'.point, md⟩) data := by
        congr 1; funext r; exact (predict_eq_rule ⟨s'.feature, s'.point, md⟩ r).symm
      rw [h3]
      exact_mod_cast this
    have h4 := hflip .gte
    have h5 := hflip .le
    have h6 := mistakes_modes s'.feature s'.point data hy
    omega

/-- With a single sample no stump is found, and `predict` fails. -/
theorem C29_single_sample (q : (Fin m → K) × Int) (xs : List (Fin m → K)) :
    stumpPredict (stumpGenerate [q]) xs = .error .typeError := by
  have h : stumpCandidates [q] = [] := by
    rw [List.eq_nil_iff_forall_not_mem]
    intro s hs
    have := mem_stumpCandidates.1 hs
    simp [candidatePoints, midpoints] at this
  simp [stumpGenerate, h, bestStump, stumpPredict]

example : (stumpGenerate ([(![0, 5], 1), (![1, 4], -1), (![2, 5], 1), (![3, 1], -1)] : List ((Fin 2 → ℚ) × Int))).map
    (fun s => (s.feature, s.point, s.mode)) = some (1, 9/2, .le) := by decide +kernel

/-! ## Two-level trees -/

/-- C30: with at least one feature a two-level tree is always built; it has depth at most 2 and at most 4 leaves, predicts only +1
or -1, and each leaf carries the weighted majority of the samples that reach it, -1 on ties. -/
theorem C30_two_levels (d : List (Sample K m)) (hm : 0 < m) :
    ∃ t, fit2 d = .ok t ∧ t.depth ≤ 2 ∧ t.leaves ≤ 4 ∧ (∀ r, t.predict r = 1 ∨ t.predict r = -1) ∧
      ∀ c ds, (c, ds) ∈ t.reach d →
        c = if weightWhere (fun s => s.y = -1) ds < weightWhere (fun s => s.y = 1) ds then 1 else -1 := by
  obtain ⟨t, ht⟩ := gen2_ok hm 2 d
  obtain ⟨h1, h2, h3⟩ := gen2_shape 2 d t ht
  exact ⟨t, ht, h1, h2, h3, fun c ds h => gen2_reach 2 d t ht c ds h⟩

/-- C31: the weight of the misclassified samples is at most half the total weight, for any labels -1/+1 and any weights. -/
theorem C31_half (d : List (Sample K m)) (t : T2 K m) (h : fit2 d = .ok t) (hy : ∀ s ∈ d, s.y = 1 ∨ s.y = -1) :
    weightWhere (fun s => decide (t.predict s.x ≠ s.y)) d ≤ weightWhere (fun _ => true) d / 2 := by
  have := gen2_error 2 d t h hy
  rw [le_div_iff₀ two_pos]; linarith

/-- C74: with at least three samples and one feature the tree has a split, and the weighted Gini index of this split is minimal among
all midpoints of neighbouring values of all features; likewise below the root, for the samples that reach the node. -/
theorem C74_best_split (d : List (Sample K m)) (hm : 0 < m) (h3 : 3 ≤ d.length) :
    ∃ a t u l, fit2 d = .ok (.node a t u l) ∧ ConsecutiveMidpoint (d.map fun s => s.x a) t ∧
      (∀ b s, NeighbourMidpoint (d.map fun q => q.x b) s → giniSplit d a t ≤ giniSplit d b s) ∧
      ∀ a' t' u' l', (u = .node a' t' u' l' → ∀ b s, NeighbourMidpoint ((d.filter fun q => t ≤ q.x a).map fun q => q.x b) s →
          giniSplit (d.filter fun q => t ≤ q.x a) a' t' ≤ giniSplit (d.filter fun q => t ≤ q.x a) b s) ∧
        (l = .node a' t' u' l' → ∀ b s, NeighbourMidpoint ((d.filter fun q => q.x a < t).map fun q => q.x b) s →
          giniSplit (d.filter fun q => q.x a < t) a' t' ≤ giniSplit (d.filter fun q => q.x a < t) b s) := by
  have key : ∀ (n : Nat) (d : List (Sample K m)) a t u l, gen2 n d = .ok (.node a t u l) →
      ConsecutiveMidpoint (d.map fun s => s.x a) t ∧
      ∀ b s, NeighbourMidpoint (d.map fun q => q.x b) s → giniSplit d a t ≤ giniSplit d b s := by
    intro n d a t u l h
    rcases gen2_cases h with ⟨h', -⟩ | ⟨k, a', t', u', l', -, hd, hc, -, -, heq⟩
    · simp at h'
    · simp only [T2.node.injEq] at heq
      obtain ⟨rfl, rfl, rfl, rfl⟩ := heq
      obtain ⟨t', a', hc', ht', hmin⟩ := chooseFeature_spec d (by omega) hm
      rw [hc] at hc'
      simp only [Prod.mk.injEq, Option.some.injEq] at hc'
      obtain ⟨rfl, rfl⟩ := hc'
      exact ⟨candidatePoints_sound ht', fun b s hs => hmin b s (candidatePoints_complete hs)⟩
  obtain ⟨t, ht⟩ := gen2_ok hm 2 d
  rcases gen2_cases ht with ⟨-, h' | h'⟩ | ⟨k, a, s, u, l, hk, -, hc, hu, hl, rfl⟩
  · omega
  · omega
  · obtain ⟨h1, h2⟩ := key 2 d a s u l ht
    refine ⟨a, s, u, l, ht, h1, h2, ?_⟩
    intro a' t' u' l'
    constructor
    · rintro rfl
      exact (key _ _ _ _ _ _ hu).2
    · rintro rfl
      exact (key _ _ _ _ _ _ hl).2

/-- A labelled, weighted sample of the shape the theorems ask for. -/
def sampleData : List (Sample ℚ 1) := [⟨![0], 1, 1/4⟩, ⟨![1], -1, 1/4⟩, ⟨![2], 1, 1/4⟩, ⟨![3], -1, 1/4⟩]

example : ∃ t, fit2 sampleData = .ok t ∧ (∀ s ∈ sampleData, s.y = 1 ∨ s.y = -1) ∧
    weightWhere (fun s => decide (t.predict s.x ≠ s.y)) sampleData = 1/4 ∧ t.depth = 2 := by
  obtain ⟨t, ht, -⟩ := C30_two_levels sampleData (by decide)
  have hb : (match fit2 sampleData with
    | .ok t => decide (weightWhere (fun s => decide (t.predict s.x ≠ s.y)) sampleData = 1/4 ∧ t.depth = 2)
    | .error _ => false) = true := by decide +kernel
  rw [ht] at hb
  exact ⟨t, ht, by decide, of_decide_eq_true hb⟩

end CML.Small
