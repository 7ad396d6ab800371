import Verif.Props.HullSym

set_option linter.unusedSectionVars false

/-! # Property C332 (the convex hull of a convex hull) -/

namespace CML.Hull

variable {K : Type} [Field K] [LinearOrder K] [IsStrictOrderedRing K]

lemma push_of_turns (p : K × K) : ∀ l : List (K × K), Turns (p :: l) → push p l = p :: l
  | [], _ => rfl
  | [_], _ => rfl
  | b :: a :: rest, h => by
    rw [push, if_neg]
    rw [cross_eq]
    exact not_lt.2 h.1

lemma scan_of_turns (start : K × K) (l : List (K × K)) (h : Turns (l.reverse ++ [start])) : scan start l = l.reverse ++ [start] := by
  induction l using List.reverseRecOn with
  | nil => rfl
  | append_singleton l a ih =>
    rw [List.reverse_append, List.reverse_singleton, List.singleton_append, List.cons_append] at h ⊢
    have h' : Turns (l.reverse ++ [start]) := Turns.suffix [a] _ h
    have : scan start (l ++ [a]) = push a (scan start l) := by simp [scan]
    rw [this, ih h', push_of_turns a _ h]

/-- **C332.** Computing the hull of the vertices of a hull (without the repetition of the first one at the end) gives this hull again, in the same order, however the first sort arranges
points of equal x. Missing: the closed chain itself, which is refused (`C332_closed_refused`). -/
theorem C332_idempotent_partial (points sorted hull : List (K × K)) (hs : IsArgsort points sorted) (hh : computeHull sorted = .ok hull) (sorted' : List (K × K))
    (hs' : IsArgsort hull.dropLast sorted') : computeHull sorted' = .ok hull := by
  obtain ⟨s, body, hb, -, -, -, hbne, -⟩ := C02_closed_left_turning_partial points sorted hull hs hh
  obtain ⟨start, p, pts, rfl, rfl, hne⟩ := computeHull_ok hh
  obtain ⟨stne, hlast⟩ := scan_last start (sortBySlope start (p :: pts))
  have hg : graham start (p :: pts) = (scan start (sortBySlope start (p :: pts))).reverse ++ [start] := by
    rw [graham]
    congr 1
    rw [List.take_one, List.head?_reverse, hlast]; rfl
  have hrev : (scan start (sortBySlope start (p :: pts))).reverse = s :: body := by
    rw [hg] at hb
    exact (List.append_inj' hb rfl).1
  have hss : s = start := by
    have h1 := congrArg List.head? hrev
    rw [List.head?_reverse, hlast] at h1
    simpa using h1.symm
  subst hss
  have hst : scan s (sortBySlope s (p :: pts)) = body.reverse ++ [s] := by
    have := congrArg List.reverse hrev
    simpa using this
  have hturn : Turns (body.reverse ++ [s]) := hst ▸ scan_turns s _
  have hsub : body.Sublist (sortBySlope s (p :: pts)) := by
    have := (scan_sublist s (sortBySlope s (p :: pts))).reverse
    rw [hrev] at this
    simpa using this
  have hlex : body.Pairwise (Lex s) := (sort_lex _ (List.pairwise_cons.1 hs.2).2).sublist hsub
  have hmem : ∀ q ∈ body, s.1 < q.1 := by
    intro q hq
    have hq' : q ∈ p :: pts := (List.perm_insertionSort _ _).mem_iff.1 (hsub.subset hq)
    exact lt_of_le_of_ne ((List.pairwise_cons.1 hs.2).1 q hq') (hne q hq')
  rw [hb] at hs'
  have hd : (s :: body ++ [s]).dropLast = s :: body := by rw [List.dropLast_concat]
  rw [hd] at hs'
  obtain ⟨hull', hh'⟩ := (C02_returns_iff (s :: body) sorted' hs').2 ⟨by
      have := List.length_pos_of_ne_nil hbne
      simp only [List.length_cons]; omega, [], s, body, rfl, by simpa using hmem⟩
  obtain ⟨s', p', l', rfl, rfl, hne'⟩ := computeHull_ok hh'
  have e : s' = s := by
    rcases List.mem_cons.1 (hs'.1.mem_iff.1 (List.mem_cons_self (a := s'))) with h | h
    · exact h
    · rcases List.mem_cons.1 (hs'.1.mem_iff.2 (List.mem_cons_self (a := s))) with h' | h'
      · exact h'.symm
      · exact absurd ((List.pairwise_cons.1 hs'.2).1 s h') (not_le.2 (hmem s' h))
  subst e
  have hpl : (p' :: l').Perm body := (List.perm_cons s').1 hs'.1
  have es : sortBySlope s' (p' :: l') = body := by
    refine List.Perm.eq_of_pairwise (le := Lex s') ?_ (sort_lex _ (List.pairwise_cons.1 hs'.2).2) hlex ((List.perm_insertionSort _ _).trans hpl)
    intro a b ha _ h1 h2
    exact lex_antisymm (hne' a ((List.perm_insertionSort _ _).mem_iff.1 ha)) h1 h2
  rw [hh', hb]
  simp only [graham, es, scan_of_turns s' body hturn]
  simp

/-- **C332** (violated). The hull as it is returned, a closed chain, has its leftmost point twice: passed to `ConvexHull` it raises `OverflowError`, always. -/
theorem C332_closed_refused (points sorted hull : List (K × K)) (hs : IsArgsort points sorted) (hh : computeHull sorted = .ok hull) (sorted' : List (K × K))
    (hs' : IsArgsort hull sorted') : computeHull sorted' = .error .overflowError := by
  obtain ⟨s, body, hb, hmin, hin, -, hbne, -⟩ := C02_closed_left_turning_partial points sorted hull hs hh
  refine C02_vertical hull sorted' hs' (by rw [hb]; simp) ?_
  rintro ⟨l₁, t, l₂, h1, h2⟩
  have hcount : 2 ≤ hull.count s := by
    rw [hb]; simp
  have ht : t ∈ hull := by rw [h1]; simp
  have hst : s.1 ≤ t.1 := by
    rw [hb] at ht
    rcases List.mem_append.1 ht with h | h
    · exact hmin t (hin t h)
    · rw [List.mem_singleton.1 h]
  have hc : (l₁ ++ l₂).count s + (if t = s then 1 else 0) = hull.count s := by
    rw [h1, List.count_append, List.count_append, List.count_cons]
    simp only [beq_iff_eq]
    omega
  have hpos : 0 < (l₁ ++ l₂).count s := by
    split at hc <;> omega
  exact absurd (h2 s (List.count_pos_iff.1 hpos)) (not_lt.2 hst)

/-- **C332.** Points added inside (or on the border of) the hull do not change the convex set it spans. -/
theorem C332_inner_points (points more sorted sorted' hull hull' : List (K × K)) (hs : IsArgsort points sorted) (hh : computeHull sorted = .ok hull)
    (hs' : IsArgsort (points ++ more) sorted') (hh' : computeHull sorted' = .ok hull') (hm : ∀ q ∈ more, q ∈ convexHull K {v | v ∈ hull}) :
    convexHull K {v | v ∈ hull'} = convexHull K {v | v ∈ hull} := by
  rw [C251_same_set _ _ _ hs' hh', C251_same_set _ _ _ hs hh]
  rw [C251_same_set _ _ _ hs hh] at hm
  refine le_antisymm (convexHull_min ?_ (convex_convexHull K _)) (convexHull_mono ?_)
  · intro q hq
    rw [Set.mem_ofPred_eq, List.mem_append] at hq
    rcases hq with h | h
    · exact subset_convexHull K _ h
    · exact hm q h
  · intro q hq
    rw [Set.mem_ofPred_eq] at hq ⊢
    exact List.mem_append_left _ hq

/-- Non-vacuity: a square with a point inside; its hull, and the hull of the four vertices. -/
example : computeHull ([(0, 0), (1, 1), (1, -1), (1, 0), (2, 0)] : List (ℚ × ℚ)) = .ok [(0, 0), (1, -1), (2, 0), (1, 1), (0, 0)] ∧
    computeHull ([(0, 0), (1, 1), (1, -1), (2, 0)] : List (ℚ × ℚ)) = .ok [(0, 0), (1, -1), (2, 0), (1, 1), (0, 0)] ∧
    computeHull ([(0, 0), (0, 0), (1, -1), (1, 1), (2, 0)] : List (ℚ × ℚ)) = .error .overflowError := by
  refine ⟨by decide +kernel, by decide +kernel, by decide +kernel⟩

end CML.Hull
