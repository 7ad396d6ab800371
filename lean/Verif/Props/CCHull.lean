import Verif.Model.CCOps
import Verif.Props.Hull
import Mathlib.Tactic.Linarith
import Mathlib.Tactic.Positivity
import Mathlib.Tactic.FieldSimp

set_option linter.unusedSectionVars false

/-! # Property C149 (convex hull with the C++ engine) -/

namespace CML.CC
open Hull (IsArgsort NoRightTurn LeftOfEdges area)

variable {K : Type*} [Field K] [LinearOrder K] [IsStrictOrderedRing K]

/-- C149: for at least one point and any result of the two sorts, the hull of the C++ engine is a closed chain: it begins and ends with a point of
smallest x, all its vertices are input points, used no more often than they occur, it has a second vertex if there is a second point, and no three
consecutive vertices turn right. -/
theorem C149_closed_left_turning (big : K) (points pts order : List (K × K)) (start : K × K) (hs : IsArgsort points (start :: pts))
    (ho : IsSlopeSort big start pts order) :
    ∃ body, computeHull (start :: pts) order = some (start :: body ++ [start]) ∧ (∀ q ∈ points, start.1 ≤ q.1) ∧
      (∀ v ∈ start :: body, v ∈ points) ∧ (start :: body).Subperm points ∧ (body = [] ↔ points.length = 1) ∧ NoRightTurn (start :: body) := by
  obtain ⟨hne, hlast⟩ := Hull.scan_last start order
  set st := Hull.scan start order with hst
  have hrev : ∃ body, st.reverse = start :: body := by
    cases hr : st.reverse with
    | nil => simp at hr; exact absurd hr hne
    | cons a body =>
      refine ⟨body, ?_⟩
      have : st.reverse.head? = some start := by rw [List.head?_reverse]; exact hlast
      rw [hr] at this
      simpa using this
  obtain ⟨body, hb⟩ := hrev
  have hsub : (start :: body).Subperm points := by
    have h1 : (start :: body).Perm st := hb ▸ st.reverse_perm
    have h2 : st.Subperm (order.reverse ++ [start]) := (Hull.scan_sublist start _).subperm
    have h3 : (order.reverse ++ [start]).Perm points := by
      refine List.Perm.trans ?_ hs.1
      refine List.perm_append_comm.trans ?_
      exact (order.reverse_perm.trans ho.1).cons start
    exact h1.subperm.trans (h2.trans h3.subperm)
  refine ⟨body, ?_, ?_, fun v hv => hsub.subset hv, hsub, ?_, ?_⟩
  · simp only [computeHull]
    rw [← hst, hb]; simp
  · intro q hq
    rcases List.mem_cons.1 (hs.1.mem_iff.2 hq) with rfl | hq'
    · exact le_refl _
    · exact (List.pairwise_cons.1 hs.2).1 q hq'
  · have hlen := hs.1.length_eq
    have hlo := ho.1.length_eq
    simp only [List.length_cons] at hlen
    constructor
    · rintro rfl
      have h1 : st = [start] := by
        have := congrArg List.reverse hb
        simpa using this
      by_contra hcon
      have h0 : order ≠ [] := by
        rintro rfl
        simp at hlo
        omega
      obtain ⟨l, a, ha⟩ : ∃ l a, order = l ++ [a] := ⟨_, _, (List.dropLast_append_getLast h0).symm⟩
      have : st = Hull.push a (Hull.scan start l) := by rw [hst, ha]; simp [Hull.scan]
      obtain ⟨pre, b, r, _, h2, _⟩ := Hull.push_spec a (Hull.scan start l) (Hull.scan_last start l).1
      rw [this, h2] at h1
      simp at h1
    · intro h1
      have h0 : order = [] := by
        rw [← List.length_eq_zero_iff]; omega
      have : st = [start] := by rw [hst, h0]; rfl
      rw [this] at hb
      simpa using hb.symm
  · rw [← hb]; exact Hull.noRightTurn_of_turns (Hull.scan_turns start _)

/-- C149: a single point is accepted (the Python engine refuses it, C02); with no point the behaviour is undefined. -/
theorem C149_one_point (p : K × K) : computeHull [p] [] = some [p, p] ∧ Hull.computeHull [p] = .error .indexError ∧
    computeHull ([] : List (K × K)) [] = none := ⟨rfl, rfl, rfl⟩

/-- The points that are not straight above or below `start`. -/
def Slanted (start : K × K) (p : K × K) : Prop := p.1 ≠ start.1

theorem slope_le_iff (big : K) (start p q : K × K) (hp : Slanted start p → slope big start p < big)
    (hq : Slanted start q → slope big start q < big) : Hull.slope start p ≤ Hull.slope start q ↔ slope big start p ≤ slope big start q := by
  have e : ∀ a : K × K, (start.2 - a.2) / (start.1 - a.1) = (a.2 - start.2) / (a.1 - start.1) := by
    intro a; rw [← neg_sub a.2, ← neg_sub a.1, neg_div_neg_eq]
  unfold Hull.slope slope
  by_cases h1 : start.1 = p.1 <;> by_cases h2 : start.1 = q.1
  · rw [if_pos h1, if_pos h2, if_pos h1, if_pos h2]
    simp
  · have hq' := hq (fun h => h2 h.symm)
    rw [slope, if_neg h2] at hq'
    rw [if_pos h1, if_neg h2, if_pos h1, if_neg h2]
    simp only [top_le_iff, WithTop.coe_ne_top, false_iff, not_le]
    exact hq'
  · have hp' := hp (fun h => h1 h.symm)
    rw [slope, if_neg h1] at hp'
    rw [if_neg h1, if_pos h2, if_neg h1, if_pos h2]
    simp only [le_top, true_iff]
    exact hp'.le
  · rw [if_neg h1, if_neg h2, if_neg h1, if_neg h2, WithTop.coe_le_coe, e, e]

/-- If the slopes from the leftmost point are pairwise different and smaller than the number that stands for infinity, the unstable sort returns the
order of the stable one. -/
theorem order_eq (big : K) (pts order : List (K × K)) (start : K × K) (ho : IsSlopeSort big start pts order)
    (hb : ∀ p ∈ pts, Slanted start p → slope big start p < big) (hd : pts.Pairwise fun p q => slope big start p ≠ slope big start q) :
    order = Hull.sortBySlope start pts := by
  have hperm : (Hull.sortBySlope start pts).Perm pts := List.perm_insertionSort _ _
  have hsort : (Hull.sortBySlope start pts).Pairwise fun p q => Hull.slope start p ≤ Hull.slope start q :=
    List.pairwise_insertionSort _ _
  have hsort' : (Hull.sortBySlope start pts).Pairwise fun p q => slope big start p ≤ slope big start q := by
    refine hsort.imp_of_mem ?_
    intro a b ha hb' h
    exact (slope_le_iff big start a b (hb a (hperm.mem_iff.1 ha)) (hb b (hperm.mem_iff.1 hb'))).1 h
  have hinj : ∀ a ∈ pts, ∀ b ∈ pts, slope big start a = slope big start b → a = b := by
    intro a ha b hb' h
    by_contra hne
    have hpw : (pts.map (slope big start)).Nodup := by
      rw [List.Nodup, List.pairwise_map]
      exact hd
    exact hne (List.inj_on_of_nodup_map hpw ha hb' h)
  refine List.Perm.eq_of_pairwise (le := fun p q => slope big start p ≤ slope big start q) ?_ ho.2 hsort' (ho.1.trans hperm.symm)
  intro a b ha hb' h1 h2
  exact hinj a (ho.1.mem_iff.1 ha) b (hperm.mem_iff.1 hb') (le_antisymm h1 h2)

/-- C149, the part that holds: if no other point is straight above or below the leftmost one and the slopes from it are pairwise different and smaller
than the number that stands for infinity, the result is that of the Python engine, whatever the (unstable) sort does. -/
theorem C149_agrees_partial (big : K) (pts order : List (K × K)) (start : K × K) (hne : pts ≠ []) (ho : IsSlopeSort big start pts order)
    (hv : ∀ p ∈ pts, Slanted start p)
    (hb : ∀ p ∈ pts, slope big start p < big) (hd : pts.Pairwise fun p q => slope big start p ≠ slope big start q) :
    ∃ hull, computeHull (start :: pts) order = some hull ∧ Hull.computeHull (start :: pts) = .ok hull := by
  have heq := order_eq big pts order start ho (fun p hp _ => hb p hp) hd
  match pts, hne with
  | p :: pts, _ =>
    refine ⟨_, rfl, ?_⟩
    simp only [Hull.computeHull]
    rw [if_neg, heq]
    · rfl
    · simp only [List.any_eq_true, not_exists, not_and]
      intro q hq
      simp [Hull.slope, (hv q hq).symm]

/-- C149 is false whenever a second point is straight above, below or at the leftmost one: the C++ engine returns a polygon, the Python engine raises. -/
theorem C149_vertical (pts order : List (K × K)) (start p : K × K) (hp : p ∈ pts) (hx : ¬Slanted start p) :
    (∃ hull, computeHull (start :: pts) order = some hull) ∧ Hull.computeHull (start :: pts) = .error .overflowError := by
  match pts, hp with
  | q :: pts, hp =>
    refine ⟨⟨_, rfl⟩, ?_⟩
    simp only [Hull.computeHull]
    rw [if_pos]
    simp only [List.any_eq_true]
    refine ⟨p, hp, ?_⟩
    simp only [Slanted, not_not] at hx
    simp [Hull.slope, hx]

/-- C149, the part that holds: then every input point is on or to the left of every edge, if the points are distinct and a second leftmost point is above
the first. -/
theorem C149_encloses_partial (big : K) (points pts order hull : List (K × K)) (start : K × K) (hs : IsArgsort points (start :: pts))
    (hne : pts ≠ []) (ho : IsSlopeSort big start pts order) (hnd : points.Nodup)
    (hb : ∀ p ∈ pts, Slanted start p → slope big start p < big) (hd : pts.Pairwise fun p q => slope big start p ≠ slope big start q)
    (hv : ∀ p ∈ pts, p.1 = start.1 → start.2 < p.2) (hh : computeHull (start :: pts) order = some hull) :
    ∀ q ∈ points, LeftOfEdges hull q := by
  have heq := order_eq big pts order start ho hb hd
  obtain ⟨p, pts, rfl⟩ := List.exists_cons_of_ne_nil hne
  have hg : hull = Hull.graham start (p :: pts) := by
    simp only [computeHull, Option.some.injEq] at hh
    rw [← hh, heq]; rfl
  rw [hg]
  refine Hull.graham_encloses points start p pts hs hnd ?_
  have hmem : start ∈ points := hs.1.mem_iff.1 (by simp)
  refine List.pairwise_cons.2 ⟨fun p hp h _ => hv p hp h.symm, ?_⟩
  refine hd.imp_of_mem ?_
  intro p q hp hq hne h hmin
  exfalso
  have hp1 : p.1 = start.1 := le_antisymm (hmin start hmem) ((List.pairwise_cons.1 hs.2).1 p hp)
  have hq1 : q.1 = start.1 := by rw [← h]; exact hp1
  exact hne (by simp [slope, hp1, hq1])

/-- Non-vacuity: four points in general position, one of them straight above the first. -/
example : IsArgsort [(2, 1), (0, 3), (3, 3), (0, 0)] ([(0, 0), (0, 3), (2, 1), (3, 3)] : List (ℚ × ℚ)) ∧
    IsSlopeSort 1000 (0, 0) [(0, 3), (2, 1), (3, 3)] ([(2, 1), (3, 3), (0, 3)] : List (ℚ × ℚ)) ∧
    computeHull [(0, 0), (0, 3), (2, 1), (3, 3)] ([(2, 1), (3, 3), (0, 3)] : List (ℚ × ℚ)) = some [(0, 0), (2, 1), (3, 3), (0, 3), (0, 0)] := by
  refine ⟨⟨by decide +kernel, by decide +kernel⟩, ⟨by decide +kernel, by decide +kernel⟩, by decide +kernel⟩

/-- C149 is false when points are in line with the leftmost one: an order that the unstable sort may return makes the polygon leave out the input point
(3, 3); the Python engine encloses it. -/
theorem C149_unstable :
    IsArgsort [(0, 0), (1, 1), (2, 2), (3, 0), (3, 3)] ([(0, 0), (1, 1), (2, 2), (3, 0), (3, 3)] : List (ℚ × ℚ)) ∧
    IsSlopeSort 1000 (0, 0) [(1, 1), (2, 2), (3, 0), (3, 3)] ([(3, 0), (2, 2), (1, 1), (3, 3)] : List (ℚ × ℚ)) ∧
    computeHull [(0, 0), (1, 1), (2, 2), (3, 0), (3, 3)] ([(3, 0), (2, 2), (1, 1), (3, 3)] : List (ℚ × ℚ)) =
      some [(0, 0), (3, 0), (2, 2), (1, 1), (3, 3), (0, 0)] ∧
    area (3, 0) (2, 2) ((3, 3) : ℚ × ℚ) < 0 ∧
    Hull.computeHull ([(0, 0), (1, 1), (2, 2), (3, 0), (3, 3)] : List (ℚ × ℚ)) = .ok [(0, 0), (3, 0), (3, 3), (0, 0)] := by
  refine ⟨⟨by decide +kernel, by decide +kernel⟩, ⟨by decide +kernel, by decide +kernel⟩, by decide +kernel, by decide +kernel,
    by decide +kernel⟩

/-- C149 is false when a slope exceeds the number that stands for infinity, however large that number: the point straight above the first is then
taken too early and ends up outside. -/
theorem C149_overflow (big : K) (hb : 1 < big) :
    IsSlopeSort big (0, 0) [(0, 2), ((big + 1)⁻¹, 1), (1, 0)] [(1, 0), (0, 2), ((big + 1)⁻¹, 1)] ∧
    IsArgsort [(0, 0), (0, 2), ((big + 1)⁻¹, 1), (1, 0)] ([(0, 0), (0, 2), ((big + 1)⁻¹, 1), (1, 0)] : List (K × K)) ∧
    computeHull [(0, 0), (0, 2), ((big + 1)⁻¹, 1), (1, 0)] [(1, 0), (0, 2), ((big + 1)⁻¹, 1)] =
      some [(0, 0), (1, 0), (0, 2), ((big + 1)⁻¹, 1), (0, 0)] ∧
    area ((big + 1)⁻¹, 1) (0, 0) ((0, 2) : K × K) < 0 := by
  have hpos : 0 < big + 1 := by linarith
  have hi : 0 < (big + 1)⁻¹ := inv_pos.2 hpos
  have hi1 : (big + 1)⁻¹ < 1 / 2 := by
    rw [inv_lt_comm₀ hpos (by norm_num)]; norm_num; linarith
  refine ⟨⟨?_, ?_⟩, ⟨List.Perm.refl _, ?_⟩, ?_, ?_⟩
  · exact (List.perm_append_comm (l₁ := [((1 : K), (0 : K))]) (l₂ := [(0, 2), ((big + 1)⁻¹, 1)]))
  · have h1 : slope big (0, 0) ((1, 0) : K × K) = 0 := by simp [slope]
    have h2 : slope big (0, 0) ((0, 2) : K × K) = big := by simp [slope]
    have h3 : slope big (0, 0) (((big + 1)⁻¹, 1) : K × K) = big + 1 := by
      simp [slope, hi.ne]
    simp only [List.pairwise_cons, List.mem_cons, List.not_mem_nil, or_false, forall_eq_or_imp, forall_eq, h1, h2, h3, IsEmpty.forall_iff,
      implies_true, List.Pairwise.nil, and_true, and_self]
    refine ⟨⟨by linarith, by linarith⟩, by linarith⟩
  · simp only [List.pairwise_cons, List.mem_cons, List.not_mem_nil, or_false, forall_eq_or_imp, forall_eq, IsEmpty.forall_iff,
      implies_true, List.Pairwise.nil, and_true, and_self]
    refine ⟨⟨le_refl _, hi.le, by norm_num⟩, ⟨hi.le, by norm_num⟩, by linarith⟩
  · have c1 : ¬Hull.crossProduct ((0, 0) : K × K) (1, 0) (0, 2) < 0 := by
      simp only [Hull.crossProduct]; norm_num
    have c2 : ¬Hull.crossProduct ((1, 0) : K × K) (0, 2) ((big + 1)⁻¹, 1) < 0 := by
      simp only [Hull.crossProduct]; linarith
    simp [computeHull, Hull.scan, Hull.push, c1, c2]
  · simp only [area]; linarith

end CML.CC
