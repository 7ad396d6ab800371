import Verif.Props.Hull
import Mathlib.Analysis.Convex.Hull
import Mathlib.Analysis.Convex.Combination
import Mathlib.Tactic.FinCases

set_option linter.unusedSectionVars false

/-! # Properties C249, C250, C251 (convex hull: order of the points, coordinates, same convex set) -/

namespace CML.Hull

variable {K : Type} [Field K] [LinearOrder K] [IsStrictOrderedRing K]

/-- The order of the scan: by slope, then by x. -/
def Lex (s p q : K × K) : Prop := slope s p < slope s q ∨ (slope s p = slope s q ∧ p.1 ≤ q.1)

theorem insert_lex {s a : K × K} : ∀ (l : List (K × K)), l.Pairwise (Lex s) → (∀ p ∈ l, a.1 ≤ p.1) →
    (l.orderedInsert (fun p q => slope s p ≤ slope s q) a).Pairwise (Lex s)
  | [], _, _ => by simp
  | b :: l, hpw, hx => by
    obtain ⟨hb, hl⟩ := List.pairwise_cons.1 hpw
    simp only [List.orderedInsert]
    split
    · rename_i hle
      refine List.pairwise_cons.2 ⟨?_, hpw⟩
      intro p hp
      have : slope s a ≤ slope s p := by
        rcases List.mem_cons.1 hp with rfl | hp'
        · exact hle
        · rcases hb p hp' with h | h
          · exact hle.trans h.le
          · exact hle.trans h.1.le
      rcases this.lt_or_eq with h | h
      · exact .inl h
      · exact .inr ⟨h, hx p hp⟩
    · rename_i hle
      refine List.pairwise_cons.2 ⟨?_, insert_lex l hl fun p hp => hx p (by simp [hp])⟩
      intro p hp
      rw [List.mem_orderedInsert] at hp
      rcases hp with rfl | hp
      · exact .inl (not_le.1 hle)
      · exact hb p hp

theorem sort_lex {s : K × K} (l : List (K × K)) (hx : l.Pairwise fun p q => p.1 ≤ q.1) : (sortBySlope s l).Pairwise (Lex s) := by
  unfold sortBySlope
  induction l with
  | nil => simp
  | cons a l ih =>
    rw [List.insertionSort_cons]
    obtain ⟨h1, h2⟩ := List.pairwise_cons.1 hx
    exact insert_lex _ (ih h2) fun p hp => h1 p ((List.perm_insertionSort _ l).mem_iff.1 hp)

/-- The slope and x determine a point. -/
theorem lex_antisymm {s p q : K × K} (hp : s.1 ≠ p.1) (h1 : Lex s p q) (h2 : Lex s q p) : p = q := by
  have hs : slope s p = slope s q := by
    rcases h1 with h | h
    · rcases h2 with h' | h'
      · exact absurd (h.trans h') (lt_irrefl _)
      · exact h'.1.symm
    · exact h.1
  have hx : p.1 = q.1 := by
    rcases h1 with h | h
    · exact absurd hs h.ne
    · rcases h2 with h' | h'
      · exact absurd hs.symm h'.ne
      · exact le_antisymm h.2 h'.2
  refine Prod.ext hx ?_
  unfold slope at hs
  rw [if_neg hp, if_neg (hx ▸ hp), ← hx, WithTop.coe_inj] at hs
  have : s.1 - p.1 ≠ 0 := sub_ne_zero.2 hp
  rw [div_left_inj' this] at hs
  linarith

/-- **C249.** The hull does not depend on the order in which the points are given, nor on how the (unstable) first sort arranges points of equal x. -/
theorem C249_order (points points' sorted sorted' : List (K × K)) (hp : points.Perm points') (hs : IsArgsort points sorted) (hs' : IsArgsort points' sorted') :
    computeHull sorted = computeHull sorted' := by
  have hpp : sorted.Perm sorted' := hs.1.trans (hp.trans hs'.1.symm)
  by_cases h2 : 2 ≤ points.length
  · by_cases hu : UniqueLeftmost points
    · obtain ⟨hull, hh⟩ := (C02_returns_iff points sorted hs).2 ⟨h2, hu⟩
      have hs2 : IsArgsort points sorted' := ⟨hs'.1.trans hp.symm, hs'.2⟩
      obtain ⟨hull', hh'⟩ := (C02_returns_iff points sorted' hs2).2 ⟨h2, hu⟩
      obtain ⟨s, p, l, rfl, rfl, hne⟩ := computeHull_ok hh
      obtain ⟨s', p', l', rfl, rfl, hne'⟩ := computeHull_ok hh'
      have e : s = s' := by
        rcases List.mem_cons.1 (hpp.mem_iff.1 (List.mem_cons_self (a := s))) with h | h
        · exact h
        · rcases List.mem_cons.1 (hpp.mem_iff.2 (List.mem_cons_self (a := s'))) with h' | h'
          · exact h'.symm
          · exact absurd (le_antisymm ((List.pairwise_cons.1 hs.2).1 s' h') ((List.pairwise_cons.1 hs'.2).1 s h)) (hne s' h')
      subst e
      have hpl : (p :: l).Perm (p' :: l') := (List.perm_cons s).1 hpp
      have es : sortBySlope s (p :: l) = sortBySlope s (p' :: l') := by
        refine List.Perm.eq_of_pairwise (le := Lex s) ?_ (sort_lex _ (List.pairwise_cons.1 hs.2).2) (sort_lex _ (List.pairwise_cons.1 hs'.2).2)
          ((List.perm_insertionSort _ _).trans (hpl.trans (List.perm_insertionSort _ _).symm))
        intro a b ha _ h1 h2
        exact lex_antisymm (hne a ((List.perm_insertionSort _ _).mem_iff.1 ha)) h1 h2
      rw [hh, hh']
      simp only [graham, es]
    · rw [C02_vertical points sorted hs h2 hu, C02_vertical points sorted' ⟨hs'.1.trans hp.symm, hs'.2⟩ h2 hu]
  · have h := hs.1.length_eq
    have h' := hpp.length_eq
    rw [C02_too_few sorted (by omega), C02_too_few sorted' (by omega)]

/-- Other coordinates: x moved and stretched, y moved, stretched and sheared along x. -/
def coords (a b u v c : K) (p : K × K) : K × K := (a * p.1 + u, b * p.2 + v + c * p.1)

theorem coords_slope {a b u v c : K} (ha : 0 < a) (hb : 0 < b) (s p q : K × K) (hp : s.1 ≠ p.1) (hq : s.1 ≠ q.1) :
    slope (coords a b u v c s) (coords a b u v c p) ≤ slope (coords a b u v c s) (coords a b u v c q) ↔ slope s p ≤ slope s q := by
  have key : ∀ r : K × K, s.1 ≠ r.1 → slope (coords a b u v c s) (coords a b u v c r) = ((b * ((s.2 - r.2) / (s.1 - r.1)) + c) / a : K) := by
    intro r hr
    have h0 : s.1 - r.1 ≠ 0 := sub_ne_zero.2 hr
    have h1 : a * s.1 + u ≠ a * r.1 + u := by
      intro h
      exact hr (mul_left_cancel₀ ha.ne' (add_right_cancel h))
    unfold slope coords
    rw [if_neg h1]
    congr 1
    have e : a * s.1 + u - (a * r.1 + u) = a * (s.1 - r.1) := by ring
    rw [e]
    field_simp
    ring
  rw [key p hp, key q hq]
  unfold slope
  rw [if_neg hp, if_neg hq, WithTop.coe_le_coe, WithTop.coe_le_coe, div_le_div_iff_of_pos_right ha, add_le_add_iff_right, mul_le_mul_iff_right₀ hb]

theorem coords_cross {a b u v c : K} (ha : 0 < a) (hb : 0 < b) (s p q : K × K) :
    crossProduct (coords a b u v c s) (coords a b u v c p) (coords a b u v c q) < 0 ↔ crossProduct s p q < 0 := by
  have e : crossProduct (coords a b u v c s) (coords a b u v c p) (coords a b u v c q) = (a * b) * crossProduct s p q := by
    unfold crossProduct coords
    ring
  rw [e]
  have := mul_pos ha hb
  constructor
  · intro h
    by_contra h'
    exact absurd (mul_nonneg this.le (not_lt.1 h')) (not_le.2 h)
  · intro h
    exact mul_neg_of_pos_of_neg this h

theorem coords_push {a b u v c : K} (ha : 0 < a) (hb : 0 < b) (p : K × K) : ∀ l : List (K × K),
    push (coords a b u v c p) (l.map (coords a b u v c)) = (push p l).map (coords a b u v c)
  | [] => rfl
  | [_] => rfl
  | y :: x :: rest => by
    simp only [List.map_cons, push]
    by_cases h : crossProduct x y p < 0
    · rw [if_pos h, if_pos ((coords_cross ha hb _ _ _).2 h)]
      exact coords_push ha hb p (x :: rest)
    · rw [if_neg h, if_neg ((coords_cross ha hb _ _ _).not.2 h)]
      rfl

theorem coords_argsort {a b u v c : K} (ha : 0 < a) {points sorted : List (K × K)} :
    IsArgsort points sorted → IsArgsort (points.map (coords a b u v c)) (sorted.map (coords a b u v c)) := by
  rintro ⟨h1, h2⟩
  refine ⟨h1.map _, List.pairwise_map.2 (h2.imp ?_)⟩
  intro p q h
  exact add_le_add_left (mul_le_mul_of_nonneg_left h ha.le) _

/-- **C250.** Moving the points, stretching each axis and shearing along the y axis moves, stretches and shears the hull; a set for which the constructor raises keeps raising
the same exception. The result of the first sort is any admissible one on both sides. -/
theorem C250_coords {a b : K} (u v c : K) (ha : 0 < a) (hb : 0 < b) (points sorted sorted' : List (K × K)) (hs : IsArgsort points sorted)
    (hs' : IsArgsort (points.map fun p => (a * p.1 + u, b * p.2 + v + c * p.1)) sorted') :
    computeHull sorted' = (computeHull sorted).map fun hull => hull.map fun p => (a * p.1 + u, b * p.2 + v + c * p.1) := by
  rw [C249_order _ _ sorted' (sorted.map (coords a b u v c)) (.refl _) hs' (coords_argsort ha hs)]
  match sorted with
  | [] => rfl
  | [_] => rfl
  | s :: p :: pts =>
    have hany : ((p :: pts).map (coords a b u v c)).any (fun q => slope (coords a b u v c s) q == ⊤) = (p :: pts).any fun q => slope s q == ⊤ := by
      rw [List.any_map]
      congr 1
      funext q
      rw [Bool.eq_iff_iff]
      have h1 : (coords a b u v c s).1 = (coords a b u v c q).1 ↔ s.1 = q.1 := ⟨fun h => mul_left_cancel₀ ha.ne' (add_right_cancel h), fun h => by simp only [coords]; rw [h]⟩
      have h2 : slope (coords a b u v c s) (coords a b u v c q) = ⊤ ↔ slope s q = ⊤ := by
        unfold slope
        by_cases h : s.1 = q.1
        · rw [if_pos h, if_pos (h1.2 h)]
        · rw [if_neg h, if_neg (h1.not.2 h)]
          simp
      simpa using h2
    change (if ((p :: pts).map (coords a b u v c)).any (fun q => slope (coords a b u v c s) q == ⊤) then _ else _) = _
    rw [hany]
    simp only [computeHull]
    split
    · rfl
    · rename_i hc
      have hne : ∀ q ∈ p :: pts, s.1 ≠ q.1 := by
        intro q hq he
        simp only [List.any_eq_true, not_exists, not_and] at hc
        exact hc q hq (by simp [slope, he])
      have hsort : sortBySlope (coords a b u v c s) ((p :: pts).map (coords a b u v c)) = (sortBySlope s (p :: pts)).map (coords a b u v c) := by
        unfold sortBySlope
        refine (List.map_insertionSort _ _ _ _ ?_).symm
        intro x hx y hy
        exact (coords_slope ha hb s x y (hne x hx) (hne y hy)).symm
      have hscan : ∀ l : List (K × K), scan (coords a b u v c s) (l.map (coords a b u v c)) = (scan s l).map (coords a b u v c) := by
        intro l
        unfold scan
        suffices h : ∀ st : List (K × K), (l.map (coords a b u v c)).foldl (fun stack p => push p stack) (st.map (coords a b u v c)) =
            (l.foldl (fun stack p => push p stack) st).map (coords a b u v c) from h [s]
        induction l with
        | nil => intro st; rfl
        | cons q l ih =>
          intro st
          rw [List.map_cons, List.foldl_cons, List.foldl_cons, coords_push ha hb, ih]
      change Except.ok (graham (coords a b u v c s) ((p :: pts).map (coords a b u v c))) = Except.ok ((graham s (p :: pts)).map (coords a b u v c))
      congr 1
      simp only [graham]
      rw [hsort, hscan, List.map_append, List.map_take, List.map_reverse]

/-- A vertex removed by the scan is in the triangle of the start, its neighbour and the new point. -/
theorem popped {s a b p : K × K} (h1 : 0 ≤ area s a b) (h2 : 0 ≤ area s b p) (h3 : area a b p < 0) : b ∈ convexHull K {s, a, p} := by
  have hD : area s a p = area s a b + area s b p - area a b p := by unfold area; ring
  have hpos : 0 < area s a p := by rw [hD]; linarith
  have e1 : b.1 * area s a p = -(area a b p) * s.1 + area s b p * a.1 + area s a b * p.1 := by unfold area; ring
  have e2 : b.2 * area s a p = -(area a b p) * s.2 + area s b p * a.2 + area s a b * p.2 := by unfold area; ring
  have hm : ∀ z ∈ ({s, a, p} : Set (K × K)), z ∈ convexHull K {s, a, p} := fun z hz => subset_convexHull K _ hz
  have := (convex_convexHull K ({s, a, p} : Set (K × K))).sum_mem (t := Finset.univ) (w := ![-(area a b p) / area s a p, area s b p / area s a p, area s a b / area s a p])
    (z := ![s, a, p]) (by
      intro i _
      fin_cases i
      · exact div_nonneg (by linarith) hpos.le
      · exact div_nonneg h2 hpos.le
      · exact div_nonneg h1 hpos.le) (by
      rw [Fin.sum_univ_three]
      simp only [Matrix.cons_val_zero, Matrix.cons_val_one, Matrix.cons_val_two, Matrix.head_cons, Matrix.tail_cons]
      rw [← add_div, ← add_div, div_eq_one_iff_eq hpos.ne', hD]
      ring) (by
      intro i _
      fin_cases i
      · exact hm s (by simp)
      · exact hm a (by simp)
      · exact hm p (by simp))
  rw [Fin.sum_univ_three] at this
  simp only [Matrix.cons_val_zero, Matrix.cons_val_one, Matrix.cons_val] at this
  convert this using 1
  refine Prod.ext ?_ ?_
  · simp only [Prod.fst_add, Prod.smul_fst, smul_eq_mul]
    rw [div_mul_eq_mul_div, div_mul_eq_mul_div, div_mul_eq_mul_div, ← add_div, ← add_div, eq_div_iff hpos.ne']
    exact e1
  · simp only [Prod.snd_add, Prod.smul_snd, smul_eq_mul]
    rw [div_mul_eq_mul_div, div_mul_eq_mul_div, div_mul_eq_mul_div, ← add_div, ← add_div, eq_div_iff hpos.ne']
    exact e2

theorem mem_push (p : K × K) : ∀ l : List (K × K), p ∈ push p l
  | [] => by simp [push]
  | [_] => by simp [push]
  | b :: a :: rest => by
    simp only [push]
    split
    · exact mem_push p (a :: rest)
    · simp

/-- Pushing a point keeps the convex hull of the stack and adds the point. -/
theorem push_hull {s p : K × K} : ∀ l : List (K × K), (l.Pairwise fun b a => 0 ≤ area s a b) → (∀ x ∈ l, 0 ≤ area s x p) → l.getLast? = some s →
    ∀ x ∈ l, x ∈ convexHull K {v | v ∈ push p l}
  | [], _, _, _ => by simp
  | [b], _, _, _ => fun x hx => subset_convexHull K _ (by simp only [push, Set.mem_ofPred_eq]; exact List.mem_cons_of_mem _ hx)
  | b :: a :: rest, hpw, hp, hlast => by
    intro x hx
    obtain ⟨h1, h2⟩ := List.pairwise_cons.1 hpw
    simp only [push]
    split
    · rename_i hc
      have ih := push_hull (a :: rest) h2 (fun x hx => hp x (List.mem_cons_of_mem _ hx)) (by rw [List.getLast?_cons_cons] at hlast; exact hlast)
      rcases List.mem_cons.1 hx with rfl | hx'
      · have hsm : s ∈ a :: rest := by
          rw [List.getLast?_cons_cons] at hlast
          exact List.mem_of_getLast? hlast
        have := popped (h1 a List.mem_cons_self) (hp x List.mem_cons_self) (by rw [← cross_eq]; exact hc)
        refine convexHull_min ?_ (convex_convexHull K _) this
        intro z hz
        rcases hz with rfl | rfl | rfl
        · exact ih z hsm
        · exact ih z List.mem_cons_self
        · exact subset_convexHull K _ (mem_push z _)
      · exact ih x hx'
    · exact subset_convexHull K _ (List.mem_cons_of_mem _ hx)

/-- **C251.** The vertices span the same convex set as the points, duplicates or not. -/
theorem C251_same_set (points sorted hull : List (K × K)) (hs : IsArgsort points sorted) (hh : computeHull sorted = .ok hull) :
    convexHull K {v | v ∈ hull} = convexHull K {p | p ∈ points} := by
  obtain ⟨s, p, l, rfl, rfl, hne⟩ := computeHull_ok hh
  have hclosed := C02_closed_left_turning_partial points _ _ hs hh
  apply le_antisymm
  · obtain ⟨start, body, hb, -, hv, -⟩ := hclosed
    refine convexHull_mono ?_
    intro v hvm
    rw [Set.mem_ofPred_eq, hb] at hvm
    rcases List.mem_append.1 hvm with h | h
    · exact hv v h
    · rw [List.mem_singleton.1 h]; exact hv _ List.mem_cons_self
  · refine convexHull_min ?_ (convex_convexHull K _)
    have hhalf : ∀ q ∈ p :: l, InHalf s q := fun q hq => .inl (lt_of_le_of_ne ((List.pairwise_cons.1 hs.2).1 q hq) (hne q hq))
    have hperm : (sortBySlope s (p :: l)).Perm (p :: l) := List.perm_insertionSort _ _
    have hord : (sortBySlope s (p :: l)).Pairwise fun a b => 0 ≤ area s a b := by
      refine List.Pairwise.imp_of_mem ?_ (sort_lex (s := s) _ (List.pairwise_cons.1 hs.2).2)
      intro a b ha hb hlex
      refine (slope_le_iff (hhalf a (hperm.mem_iff.1 ha)) (hhalf b (hperm.mem_iff.1 hb))).1 ?_
      rcases hlex with h | h
      · exact h.le
      · exact h.1.le
    have key : ∀ (pts done stack : List (K × K)), (done ++ pts).Pairwise (fun a b => 0 ≤ area s a b) → stack.Sublist (done.reverse ++ [s]) → stack.getLast? = some s →
        (∀ x ∈ s :: done, x ∈ convexHull K {v | v ∈ stack}) →
        ∀ x ∈ s :: (done ++ pts), x ∈ convexHull K {v | v ∈ pts.foldl (fun stack p => push p stack) stack} := by
      intro pts
      induction pts with
      | nil => intro done stack _ _ _ h; simpa using h
      | cons q pts ih =>
        intro done stack hpw hsub hlast h
        have hne' : stack ≠ [] := by rintro rfl; simp at hlast
        have hpw' := List.pairwise_append.1 hpw
        have hst : stack.Pairwise fun b a => 0 ≤ area s a b := by
          refine List.Pairwise.sublist hsub ?_
          rw [List.pairwise_append]
          refine ⟨?_, by simp, ?_⟩
          · rw [List.pairwise_reverse]; exact hpw'.1
          · intro a _ b hb
            rw [List.mem_singleton.1 hb, area_self_left]
        have hbq : ∀ x ∈ stack, 0 ≤ area s x q := by
          intro x hx
          rcases List.mem_append.1 (hsub.subset hx) with hx | hx
          · exact hpw'.2.2 x (by simpa using hx) q (by simp)
          · rw [List.mem_singleton.1 hx, area_self_left]
        have hpush := push_hull stack hst hbq hlast
        have := ih (done ++ [q]) (push q stack) (by simpa using hpw) (by
            simp only [List.reverse_append, List.reverse_singleton, List.singleton_append, List.cons_append]
            exact (push_sublist q stack).trans (hsub.cons_cons q)) (push_last q stack hne' s hlast) (by
            intro x hx
            rw [← List.cons_append] at hx
            rcases List.mem_append.1 hx with hx | hx
            · exact convexHull_min (fun z hz => hpush z hz) (convex_convexHull K _) (h x hx)
            · rw [List.mem_singleton.1 hx]
              exact subset_convexHull K _ (mem_push q _))
        simpa using this
    intro q hq
    have hq' : q ∈ s :: sortBySlope s (p :: l) := by
      rcases List.mem_cons.1 (hs.1.mem_iff.2 hq) with rfl | h
      · simp
      · exact List.mem_cons_of_mem _ (hperm.mem_iff.2 h)
    have := key (sortBySlope s (p :: l)) [] [s] (by simpa using hord) (by simp) (by simp) (by
      intro x hx
      exact subset_convexHull K _ (by simpa using hx)) q (by simpa using hq')
    refine convexHull_mono ?_ this
    intro v hv
    simp only [Set.mem_ofPred_eq, graham]
    exact List.mem_append_left _ (List.mem_reverse.2 hv)

/-- **C251**, corners: a point that is not in the convex hull of the others is a vertex. -/
theorem C251_corners (points sorted hull : List (K × K)) (hs : IsArgsort points sorted) (hh : computeHull sorted = .ok hull) (q : K × K) (hq : q ∈ points)
    (hc : q ∉ convexHull K {p | p ∈ points ∧ p ≠ q}) : q ∈ hull := by
  by_contra hn
  apply hc
  have h1 : q ∈ convexHull K {v | v ∈ hull} := by
    rw [C251_same_set points sorted hull hs hh]
    exact subset_convexHull K _ hq
  refine convexHull_mono ?_ h1
  intro v hv
  refine ⟨?_, fun h => hn (h ▸ hv)⟩
  obtain ⟨start, body, hb, -, hv', -⟩ := C02_closed_left_turning_partial points _ _ hs hh
  rw [Set.mem_ofPred_eq, hb] at hv
  rcases List.mem_append.1 hv with h | h
  · exact hv' v h
  · rw [List.mem_singleton.1 h]; exact hv' _ List.mem_cons_self

/-- A square with its centre, given in two orders; a point inside an edge is a vertex too. -/
example : computeHull ([(-2, 0), (0, 2), (0, 0), (0, -2), (1, 1), (2, 0)] : List (ℚ × ℚ)) = .ok [(-2, 0), (0, -2), (2, 0), (1, 1), (0, 2), (-2, 0)] ∧
    computeHull ([(-2, 0), (0, -2), (0, 0), (0, 2), (1, 1), (2, 0)] : List (ℚ × ℚ)) = .ok [(-2, 0), (0, -2), (2, 0), (1, 1), (0, 2), (-2, 0)] := by
  constructor <;> decide +kernel

end CML.Hull
