import Verif.Lemmas.Hull
import Mathlib.Algebra.Order.Ring.Rat
import Mathlib.Algebra.Field.Rat
import Mathlib.Tactic.NormNum

set_option linter.unusedSectionVars false

/-! # Properties C02, C03 (convex hull) -/

namespace CML.Hull

variable {K : Type*} [Field K] [LinearOrder K] [IsStrictOrderedRing K]

/-- The chain of the scan, for any order of the points by x. -/
theorem graham_closed (points : List (K × K)) (start p : K × K) (pts : List (K × K)) (hs : IsArgsort points (start :: p :: pts)) :
    ∃ body, graham start (p :: pts) = start :: body ++ [start] ∧
      (∀ q ∈ points, start.1 ≤ q.1) ∧ (∀ v ∈ start :: body, v ∈ points) ∧
      (start :: body).Subperm points ∧ body ≠ [] ∧ NoRightTurn (start :: body) := by
  obtain ⟨hne, hlast⟩ := scan_last start (sortBySlope start (p :: pts))
  set st := scan start (sortBySlope start (p :: pts)) with hst
  have hrev : ∃ body, st.reverse = start :: body := by
    cases hr : st.reverse with
    | nil => simp at hr; exact absurd hr hne
    | cons a body =>
      refine ⟨body, ?_⟩
      have : st.reverse.head? = some start := by rw [List.head?_reverse]; exact hlast
      rw [hr] at this
      simpa using this
  obtain ⟨body, hb⟩ := hrev
  have hperm : (sortBySlope start (p :: pts)).Perm (p :: pts) := List.perm_insertionSort _ _
  have hsub : (start :: body).Subperm points := by
    have h1 : (start :: body).Perm st := hb ▸ st.reverse_perm
    have h2 : st.Subperm ((sortBySlope start (p :: pts)).reverse ++ [start]) := (scan_sublist start _).subperm
    have h3 : ((sortBySlope start (p :: pts)).reverse ++ [start]).Perm points := by
      refine List.Perm.trans ?_ hs.1
      refine List.perm_append_comm.trans ?_
      exact ((sortBySlope start (p :: pts)).reverse_perm.trans hperm).cons start
    exact h1.subperm.trans (h2.trans h3.subperm)
  refine ⟨body, ?_, ?_, fun v hv => hsub.subset hv, hsub, ?_, ?_⟩
  · simp only [graham]
    rw [← hst, hb]; simp
  · intro q hq
    rcases List.mem_cons.1 (hs.1.mem_iff.2 hq) with rfl | hq'
    · exact le_refl _
    · exact (List.pairwise_cons.1 hs.2).1 q hq'
  · rintro rfl
    have h1 : st = [start] := by
      have := congrArg List.reverse hb
      simpa using this
    have h0 : sortBySlope start (p :: pts) ≠ [] := by
      intro h0
      have := hperm.length_eq
      rw [h0] at this; simp at this
    -- the last pushed point is on top, above the start
    obtain ⟨l, a, ha⟩ : ∃ l a, sortBySlope start (p :: pts) = l ++ [a] :=
      ⟨_, _, (List.dropLast_append_getLast h0).symm⟩
    have : st = push a (scan start l) := by rw [hst, ha]; simp [scan]
    obtain ⟨pre, b, r, _, h2, _⟩ := push_spec a (scan start l) (scan_last start l).1
    rw [this, h2] at h1
    simp at h1
  · rw [← hb]; exact noRightTurn_of_turns (scan_turns start _)

/-- The scan encloses distinct points if those of smallest x come in increasing order of y. -/
theorem graham_encloses (points : List (K × K)) (start p : K × K) (pts : List (K × K)) (hs : IsArgsort points (start :: p :: pts))
    (hnd : points.Nodup)
    (hties : (start :: p :: pts).Pairwise fun p q => p.1 = q.1 → (∀ r ∈ points, p.1 ≤ r.1) → p.2 < q.2) :
    ∀ q ∈ points, LeftOfEdges (graham start (p :: pts)) q := by
  have hnd' : (start :: p :: pts).Nodup := hs.1.nodup_iff.2 hnd
  have hmin : ∀ r ∈ points, start.1 ≤ r.1 := by
    intro r hr
    rcases List.mem_cons.1 (hs.1.mem_iff.2 hr) with rfl | hr'
    · exact le_refl _
    · exact (List.pairwise_cons.1 hs.2).1 r hr'
  have hhalf : ∀ a ∈ p :: pts, InHalf start a := by
    intro a ha
    rcases ((List.pairwise_cons.1 hs.2).1 a ha).lt_or_eq with h | h
    · exact Or.inl h
    · exact Or.inr ⟨h, (List.pairwise_cons.1 hties).1 a ha h hmin⟩
  have hx : (p :: pts).Pairwise fun a q => a.1 < q.1 ∨ (a.1 = q.1 ∧ (a.1 = start.1 → a.2 < q.2)) := by
    refine ((List.pairwise_cons.1 hs.2).2.and (List.pairwise_cons.1 hties).2).imp ?_
    rintro a q ⟨h1, h2⟩
    rcases h1.lt_or_eq with h | h
    · exact Or.inl h
    · exact Or.inr ⟨h, fun h' => h2 h (by rw [h']; exact hmin)⟩
  have hperm : (sortBySlope start (p :: pts)).Perm (p :: pts) := List.perm_insertionSort _ _
  have hinv := inv_scan (sortBySlope start (p :: pts))
    (fun a ha => hhalf a (hperm.mem_iff.1 ha))
    (sortBySlope_after (p :: pts) hhalf hx (List.nodup_cons.1 hnd').2)
  obtain ⟨b, r, hst, htop⟩ := hinv.top
  obtain ⟨hne, hlast⟩ := scan_last start (sortBySlope start (p :: pts))
  have hhull : graham start (p :: pts) = (start :: scan start (sortBySlope start (p :: pts))).reverse := by
    rw [graham, List.reverse_cons]
    congr 1
    rw [List.take_one, List.head?_reverse, hlast]; rfl
  intro q hq
  have hq' : q ∈ start :: sortBySlope start (p :: pts) := by
    rcases List.mem_cons.1 (hs.1.mem_iff.2 hq) with h | h
    · simp [h]
    · exact List.mem_cons_of_mem _ (hperm.mem_iff.2 h)
  rw [hhull]
  apply leftOfEdges_of_edgesLeft
  rw [hst]
  refine ⟨?_, hst ▸ hinv.left q hq'⟩
  have e : area b start q = area start q b := by unfold area; ring
  rw [e]
  rcases htop q hq' with h | h | h
  · rw [h, area_self_mid]
  · rw [h, area_self_left]
  · exact h.nonneg

/-- When the constructor succeeds. -/
theorem computeHull_ok {sorted hull : List (K × K)} (h : computeHull sorted = .ok hull) :
    ∃ start p pts, sorted = start :: p :: pts ∧ hull = graham start (p :: pts) ∧ ∀ q ∈ p :: pts, start.1 ≠ q.1 := by
  match sorted, h with
  | start :: p :: pts, h =>
    simp only [computeHull] at h
    split_ifs at h with hc
    injection h with h
    refine ⟨start, p, pts, rfl, h.symm, ?_⟩
    intro q hq he
    simp only [List.any_eq_true, not_exists, not_and] at hc
    exact hc q hq (by simp [slope, he])

/-- C02: whenever `ConvexHull` returns, for any result of the first sort, the hull is a closed chain: it begins and ends with a
point of smallest x, all its vertices are input points, no vertex is used more often than it occurs in the input, and no three
consecutive vertices turn right. -/
theorem C02_closed_left_turning_partial (points sorted hull : List (K × K)) (hs : IsArgsort points sorted)
    (hh : computeHull sorted = .ok hull) :
    ∃ start body, hull = start :: body ++ [start] ∧
      (∀ q ∈ points, start.1 ≤ q.1) ∧ (∀ v ∈ start :: body, v ∈ points) ∧
      (start :: body).Subperm points ∧ body ≠ [] ∧ NoRightTurn (start :: body) := by
  obtain ⟨start, p, pts, rfl, rfl, -⟩ := computeHull_ok hh
  obtain ⟨body, h⟩ := graham_closed points start p pts hs
  exact ⟨start, body, h⟩

/-- C02: `ConvexHull` returns exactly if there are at least two points, only one of which has the smallest x… -/
theorem C02_returns_iff (points sorted : List (K × K)) (hs : IsArgsort points sorted) :
    (∃ hull, computeHull sorted = .ok hull) ↔ 2 ≤ points.length ∧ UniqueLeftmost points := by
  have hlen : sorted.length = points.length := hs.1.length_eq
  constructor
  · rintro ⟨hull, hh⟩
    obtain ⟨start, p, pts, rfl, rfl, hne⟩ := computeHull_ok hh
    refine ⟨by simp at hlen; omega, ?_⟩
    obtain ⟨l₁, l₂, rfl⟩ := List.append_of_mem (hs.1.mem_iff.1 (List.mem_cons_self (a := start)))
    refine ⟨l₁, start, l₂, rfl, ?_⟩
    intro q hq
    have hp : (p :: pts).Perm (l₁ ++ l₂) := (List.perm_cons start).1 (hs.1.trans List.perm_middle)
    have hq' := hp.mem_iff.2 hq
    exact lt_of_le_of_ne ((List.pairwise_cons.1 hs.2).1 q hq') (hne q hq')
  · rintro ⟨h2, l₁, s, l₂, rfl, hlt⟩
    match sorted, hs, hlen with
    | [], _, hlen => simp at hlen
    | [_], _, hlen => rw [← hlen] at h2; simp at h2
    | start :: p :: pts, hs, hlen =>
      have hmem : start ∈ l₁ ++ s :: l₂ := hs.1.mem_iff.1 (List.mem_cons_self (a := start))
      have hst : start = s := by
        by_contra hne
        have h1 : start ∈ l₁ ++ l₂ := by
          rcases List.mem_append.1 hmem with h | h
          · exact List.mem_append.2 (Or.inl h)
          · rcases List.mem_cons.1 h with h | h
            · exact absurd h hne
            · exact List.mem_append.2 (Or.inr h)
        have hs' : s ∈ start :: p :: pts := hs.1.mem_iff.2 (by simp)
        rcases List.mem_cons.1 hs' with h | h
        · exact hne h.symm
        · exact absurd (hlt start h1) (not_lt.2 ((List.pairwise_cons.1 hs.2).1 s h))
      subst hst
      have hp : (p :: pts).Perm (l₁ ++ l₂) := (List.perm_cons start).1 (hs.1.trans List.perm_middle)
      refine ⟨_, by
        simp only [computeHull]
        rw [if_neg]
        simp only [List.any_eq_true, not_exists, not_and]
        intro q hq
        have := hlt q (hp.mem_iff.1 hq)
        simp [slope, this.ne]⟩

/-- …and so fails, against the claim, for every set in which two points share the smallest x (for instance a duplicate or a vertical
left edge): `OverflowError`. -/
theorem C02_vertical (points sorted : List (K × K)) (hs : IsArgsort points sorted) (h2 : 2 ≤ points.length)
    (hu : ¬UniqueLeftmost points) : computeHull sorted = .error .overflowError := by
  have hlen : sorted.length = points.length := hs.1.length_eq
  match sorted, hs, hlen with
  | [], _, hlen => rw [← hlen] at h2; simp at h2
  | [_], _, hlen => rw [← hlen] at h2; simp at h2
  | start :: p :: pts, hs, hlen =>
    simp only [computeHull]
    split_ifs with hc
    · rfl
    · exact absurd ((C02_returns_iff points _ hs).1 ⟨_, by simp only [computeHull]; rw [if_neg hc]⟩).2 hu

/-- The square is such a set. -/
example : ¬UniqueLeftmost ([(0, 0), (0, 1), (1, 0), (1, 1)] : List (ℚ × ℚ)) ∧
    computeHull ([(0, 0), (0, 1), (1, 0), (1, 1)] : List (ℚ × ℚ)) = .error .overflowError := by
  have h : computeHull ([(0, 0), (0, 1), (1, 0), (1, 1)] : List (ℚ × ℚ)) = .error .overflowError := by decide +kernel
  refine ⟨fun hu => ?_, h⟩
  obtain ⟨hull, hh⟩ := (C02_returns_iff _ _ ⟨List.Perm.refl _, by decide +kernel⟩).2 ⟨by simp, hu⟩
  rw [h] at hh; cases hh

/-- Non-vacuity: a quadrangle with an interior and a collinear point. -/
example : IsArgsort [(1, 1), (2, 0), (0, 0), (2, 2), (1, 2), (1, 0)]
      ([(0, 0), (1, 2), (1, 1), (1, 0), (2, 0), (2, 2)] : List (ℚ × ℚ)) ∧
    computeHull ([(0, 0), (1, 2), (1, 1), (1, 0), (2, 0), (2, 2)] : List (ℚ × ℚ)) =
      .ok [(0, 0), (1, 0), (2, 0), (2, 2), (1, 2), (0, 0)] := by
  refine ⟨⟨by decide +kernel, by decide +kernel⟩, by decide +kernel⟩

/-- C02: with fewer than two points the constructor raises. -/
theorem C02_too_few (sorted : List (K × K)) (h : sorted.length < 2) : computeHull sorted = .error .indexError := by
  match sorted, h with
  | [], _ => rfl
  | [_], _ => rfl

/-- C03: if `ConvexHull` returns and the points are distinct, every input point is on or to the left of every edge of the closed
polygon. Missing from the full statement: sets for which it does not return (`C02_vertical`) and duplicate points, for which it is
false (`C03_duplicates_wrong`). -/
theorem C03_encloses_partial (points sorted hull : List (K × K)) (hs : IsArgsort points sorted)
    (hnd : points.Nodup) (hh : computeHull sorted = .ok hull) : ∀ q ∈ points, LeftOfEdges hull q := by
  obtain ⟨start, p, pts, rfl, rfl, hne⟩ := computeHull_ok hh
  refine graham_encloses points start p pts hs hnd ?_
  refine List.pairwise_cons.2 ⟨fun q hq he => absurd he (hne q hq), ?_⟩
  refine List.Pairwise.imp_of_mem (R := fun _ _ => True) ?_ (List.pairwise_of_forall fun _ _ => trivial)
  intro a b ha hb _ _ hmin
  exact absurd (le_antisymm ((List.pairwise_cons.1 hs.2).1 a ha) (hmin start (hs.1.mem_iff.1 List.mem_cons_self))) (hne a ha)

/-- Non-vacuity: the points of the quadrangle above are distinct. -/
example : ([(1, 1), (2, 0), (0, 0), (2, 2), (1, 2), (1, 0)] : List (ℚ × ℚ)).Nodup := by decide +kernel

/-- C03 fails with a duplicate point, even if the leftmost point is unique: after the duplicate (1, 1), (1, 1) the scan
no longer sees the right turn at it, and the input point (1, 5) is strictly to the right of the edge from (3, 0) to (1, 1). -/
theorem C03_duplicates_wrong :
    IsArgsort [(0, 0), (1, 1), (1, 1), (1, 5), (3, 0)] ([(0, 0), (1, 1), (1, 1), (1, 5), (3, 0)] : List (ℚ × ℚ)) ∧
    computeHull ([(0, 0), (1, 1), (1, 1), (1, 5), (3, 0)] : List (ℚ × ℚ)) =
      .ok [(0, 0), (3, 0), (1, 1), (1, 1), (1, 5), (0, 0)] ∧
    area (3, 0) (1, 1) ((1, 5) : ℚ × ℚ) < 0 := by
  refine ⟨⟨List.Perm.refl _, by decide +kernel⟩, by decide +kernel, by decide +kernel⟩

end CML.Hull
