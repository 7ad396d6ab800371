import Verif.Spec.SmallTrees
import Verif.Lemmas.TreeCriteria
import Mathlib.Data.List.Dedup
import Mathlib.Data.Finset.Max
import Mathlib.Algebra.BigOperators.Group.List.Basic

set_option linter.unusedSectionVars false

/-! # Lemmas about decision stumps and two-level trees -/

namespace CML.Small

open CML.DTree

variable {K : Type*} [Field K] [LinearOrder K] {m : Nat}

/-! ## Candidate points -/

theorem mem_midpoints_consecutive : ∀ (l : List K), l.Pairwise (· ≤ ·) → ∀ t ∈ midpoints l, ConsecutiveMidpoint l t
  | [], _, t, h => by simp [midpoints] at h
  | [a], _, t, h => by simp [midpoints] at h
  | a :: b :: l, h, t, ht => by
    have hs := List.pairwise_cons.1 h
    have hs2 := List.pairwise_cons.1 hs.2
    simp only [midpoints, List.mem_cons] at ht
    rcases ht with rfl | ht
    · refine ⟨a, by simp, b, by simp, hs.1 b (by simp), ?_, rfl⟩
      intro c hc
      rcases List.mem_cons.1 hc with rfl | hc
      · exact .inl (le_refl _)
      · rcases List.mem_cons.1 hc with rfl | hc
        · exact .inr (le_refl _)
        · exact .inr (hs2.1 c hc)
    · obtain ⟨x, hx, y, hy, hle, hn, rfl⟩ := mem_midpoints_consecutive (b :: l) hs.2 t ht
      refine ⟨x, List.mem_cons_of_mem _ hx, y, List.mem_cons_of_mem _ hy, hle, ?_, rfl⟩
      intro c hc
      rcases List.mem_cons.1 hc with rfl | hc
      · exact .inl (hs.1 x hx)
      · exact hn c hc

theorem neighbour_mem_midpoints : ∀ (l : List K), l.Pairwise (· ≤ ·) → ∀ t, NeighbourMidpoint l t → t ∈ midpoints l
  | [], _, t, ⟨x, hx, _⟩ => by simp at hx
  | [a], _, t, ⟨x, hx, y, hy, hlt, _⟩ => by
    simp at hx hy; subst hx; subst hy; exact absurd hlt (lt_irrefl _)
  | a :: b :: l, h, t, ⟨x, hx, y, hy, hlt, hn, ht⟩ => by
    have hs := List.pairwise_cons.1 h
    have hs2 := List.pairwise_cons.1 hs.2
    simp only [midpoints, List.mem_cons]
    have hy' : y ∈ b :: l := by
      rcases List.mem_cons.1 hy with rfl | hy
      · rcases List.mem_cons.1 hx with rfl | hx
        · exact absurd hlt (lt_irrefl _)
        · exact absurd hlt (not_lt.2 (hs.1 x hx))
      · exact hy
    by_cases hxb : x ∈ b :: l
    · exact .inr (neighbour_mem_midpoints (b :: l) hs.2 t ⟨x, hxb, y, hy', hlt, fun c hc => hn c (List.mem_cons_of_mem _ hc), ht⟩)
    · have hxa : x = a := (List.mem_cons.1 hx).resolve_right hxb
      left
      have hby : b = y := by
        have h1 : x ≠ b := fun h => hxb (by simp [h])
        rcases hn b (by simp) with h' | h'
        · exact absurd (le_antisymm (hxa ▸ hs.1 b (by simp)) h') h1
        · refine le_antisymm ?_ h'
          rcases List.mem_cons.1 hy' with rfl | h2
          · exact le_refl _
          · exact hs2.1 y h2
      rw [ht, hxa, hby]

theorem candidatePoints_sound {col : List K} {t : K} (h : t ∈ candidatePoints col) : ConsecutiveMidpoint col t := by
  have hp := List.perm_insertionSort (· ≤ ·) col
  obtain ⟨a, ha, b, hb, hle, hn, rfl⟩ := mem_midpoints_consecutive _ (List.pairwise_insertionSort (· ≤ ·) col) t h
  exact ⟨a, hp.mem_iff.1 ha, b, hp.mem_iff.1 hb, hle, fun c hc => hn c (hp.mem_iff.2 hc), rfl⟩

theorem candidatePoints_complete {col : List K} {t : K} (h : NeighbourMidpoint col t) : t ∈ candidatePoints col := by
  apply neighbour_mem_midpoints _ (List.pairwise_insertionSort (· ≤ ·) col)
  rwa [neighbour_congr fun a => (List.perm_insertionSort (· ≤ ·) col).mem_iff]

theorem candidatePoints_ne_nil {col : List K} (h : 2 ≤ col.length) : candidatePoints col ≠ [] := by
  intro h0
  have := midpoints_nil h0
  rw [(List.perm_insertionSort (· ≤ ·) col).length_eq] at this
  omega

/-- Every separating threshold acts like a midpoint of two neighbours. -/
theorem exists_neighbour [IsStrictOrderedRing K] {col : List K} {t : K} (hlo : ∃ a ∈ col, a < t) (hhi : ∃ b ∈ col, t ≤ b) :
    ∃ s, NeighbourMidpoint col s ∧ ∀ c ∈ col, (s ≤ c ↔ t ≤ c) := by
  classical
  obtain ⟨a, ha, hamax⟩ := Finset.exists_max_image (col.toFinset.filter fun c => c < t) id (by
    obtain ⟨a, ha, hat⟩ := hlo
    exact ⟨a, by simp [ha, hat]⟩)
  obtain ⟨b, hb, hbmin⟩ := Finset.exists_min_image (col.toFinset.filter fun c => t ≤ c) id (by
    obtain ⟨b, hb, hbt⟩ := hhi
    exact ⟨b, by simp [hb, hbt]⟩)
  simp only [Finset.mem_filter, List.mem_toFinset, id] at ha hamax hb hbmin
  have hab : a < b := lt_of_lt_of_le ha.2 hb.2
  have hm := midpoint_between hab
  have hsep : ∀ c ∈ col, c ≤ a ∨ b ≤ c := by
    intro c hc
    by_cases h : c < t
    · exact .inl (hamax c ⟨hc, h⟩)
    · exact .inr (hbmin c ⟨hc, not_lt.1 h⟩)
  refine ⟨(a + b) / 2, ⟨a, ha.1, b, hb.1, hab, hsep, rfl⟩, ?_⟩
  intro c hc
  constructor
  · intro h
    rcases hsep c hc with h' | h'
    · exact absurd hm.1 (not_lt.2 (le_trans h h'))
    · exact le_trans hb.2 h'
  · intro h
    rcases hsep c hc with h' | h'
    · exact absurd ha.2 (not_lt.2 (le_trans h h'))
    · exact le_trans hm.2.le h'

/-! ## The stump search -/

theorem bestStump_spec (err : Stump K m → WithTop K) : ∀ (l : List (Stump K m)) (best : WithTop K × Option (Stump K m)),
    (bestStump err l best = best.2 ∧ ∀ s ∈ l, best.1 ≤ err s) ∨
    ∃ s ∈ l, bestStump err l best = some s ∧ err s < best.1 ∧ ∀ s' ∈ l, err s ≤ err s'
  | [], best => .inl ⟨rfl, by simp⟩
  | c :: l, best => by
    rw [bestStump]
    split
    · rename_i hlt
      rcases bestStump_spec err l (err c, some c) with ⟨h1, h2⟩ | ⟨s, hs, h1, h2, h3⟩
      · refine .inr ⟨c, by simp, h1, hlt, ?_⟩
        intro s' hs'
        rcases List.mem_cons.1 hs' with rfl | hs'
        · exact le_refl _
        · exact h2 s' hs'
      · refine .inr ⟨s, by simp [hs], h1, lt_trans h2 hlt, ?_⟩
        intro s' hs'
        rcases List.mem_cons.1 hs' with rfl | hs'
        · exact h2.le
        · exact h3 s' hs'
    · rename_i hlt
      rcases bestStump_spec err l best with ⟨h1, h2⟩ | ⟨s, hs, h1, h2, h3⟩
      · refine .inl ⟨h1, ?_⟩
        intro s' hs'
        rcases List.mem_cons.1 hs' with rfl | hs'
        · exact not_lt.1 hlt
        · exact h2 s' hs'
      · refine .inr ⟨s, by simp [hs], h1, h2, ?_⟩
        intro s' hs'
        rcases List.mem_cons.1 hs' with rfl | hs'
        · exact le_trans h2.le (not_lt.1 hlt)
        · exact h3 s' hs'

theorem mem_stumpCandidates {data : List ((Fin m → K) × Int)} {s : Stump K m} :
    s ∈ stumpCandidates data ↔ s.point ∈ candidatePoints (data.map fun q => q.1 s.feature) := by
  unfold stumpCandidates
  simp only [List.mem_flatMap, List.mem_map, List.mem_finRange, true_and]
  constructor
  · rintro ⟨i, md, -, t, ht, rfl⟩
    exact ht
  · intro h
    refine ⟨s.feature, s.mode, by cases s.mode <;> simp, s.point, h, rfl⟩

theorem predict_eq_rule (s : Stump K m) (r : Fin m → K) : s.predict r = thresholdRule s.feature s.point s.mode r := by
  unfold Stump.predict thresholdRule
  cases s.mode <;> simp

theorem stump_error [IsStrictOrderedRing K] (s : Stump K m) (data : List ((Fin m → K) × Int)) (hne : data ≠ [])
    (hy : ∀ q ∈ data, q.2 = 1 ∨ q.2 = -1) :
    s.error data = (((mistakes s.predict data : Nat) : K) / (data.length : K) : K) := by
  unfold Stump.error Metrics.binaryAccuracy
  have hn : (data.map fun q => ((s.predict q.1 : Int) : K)).length ≠ 0 := by simpa using hne
  rw [if_neg hn]
  simp only [List.length_map]
  congr 1
  have hpos : (0 : K) < data.length := by exact_mod_cast List.length_pos_of_ne_nil hne
  have hz : (data.map fun q => ((s.predict q.1 : Int) : K)).zip (data.map Prod.snd) =
      data.map fun q => (((s.predict q.1 : Int) : K), q.2) := by
    rw [List.zip_map']
  have hc : ((data.map fun q => ((s.predict q.1 : Int) : K)).zip (data.map Prod.snd)).countP (fun q => Metrics.wrong q.1 q.2)
      = mistakes s.predict data := by
    rw [hz, List.countP_map, mistakes, ← List.countP_eq_length_filter]
    apply List.countP_congr
    intro q hq
    have t1 : (1 : K) / 2 ≤ 1 := by norm_num
    have t2 : ¬ ((1 : K) / 2 ≤ -1) := by norm_num
    have t3 : (-1 : K) < 1 / 2 := by norm_num
    have t4 : ¬ ((1 : K) < 1 / 2) := by norm_num
    have hp : s.predict q.1 = 1 ∨ s.predict q.1 = -1 := by
      unfold Stump.predict
      cases s.mode <;> simp only <;> split <;> simp
    simp only [Function.comp, Metrics.wrong, decide_eq_true_eq]
    rcases hp with hp | hp <;> rcases hy q hq with h | h <;>
      simp only [hp, h, Int.cast_one, Int.cast_neg, t1, t2, t3, t4] <;> decide
  rw [hc]
  field_simp
  ring

theorem mistakes_le_length (f : (Fin m → K) → Int) (data : List ((Fin m → K) × Int)) : mistakes f data ≤ data.length :=
  List.length_filter_le _ _

/-- Reversing the mode turns mistakes into hits. -/
theorem mistakes_modes (i : Fin m) (t : K) : ∀ (data : List ((Fin m → K) × Int)), (∀ q ∈ data, q.2 = 1 ∨ q.2 = -1) →
    mistakes (thresholdRule i t .gte) data + mistakes (thresholdRule i t .le) data = data.length
  | [], _ => by simp [mistakes]
  | q :: data, h => by
    have ih := mistakes_modes i t data fun p hp => h p (by simp [hp])
    unfold mistakes at ih ⊢
    have hq := h q (by simp)
    by_cases ht : t ≤ q.1 i
    · rcases hq with hq | hq <;> simp [thresholdRule, ht, hq, not_lt.2 ht] <;>
        simp [thresholdRule] at ih <;> omega
    · have ht' := lt_of_not_ge ht
      rcases hq with hq | hq <;> simp [thresholdRule, ht, hq, ht'] <;>
        simp [thresholdRule] at ih <;> omega

/-! ## Two-level trees -/

theorem weight_split (p q : Sample K m → Bool) : ∀ (d : List (Sample K m)),
    weightWhere p d = weightWhere p (d.filter q) + weightWhere p (d.filter fun s => ! q s)
  | [] => by simp [weightWhere]
  | s :: d => by
    have ih := weight_split p q d
    unfold weightWhere at ih ⊢
    by_cases hp : p s <;> by_cases hq : q s <;> simp_all <;> ring

theorem filter_lt_eq (a : Fin m) (t : K) (d : List (Sample K m)) :
    (d.filter fun s => s.x a < t) = d.filter fun s => ! decide (t ≤ s.x a) := by
  apply List.filter_congr
  intro s _
  by_cases h : t ≤ s.x a
  · simp [h, not_lt.2 h]
  · simp [h, lt_of_not_ge h]

theorem weightWhere_congr {p q : Sample K m → Bool} {d : List (Sample K m)} (h : ∀ s ∈ d, p s = q s) :
    weightWhere p d = weightWhere q d := by
  unfold weightWhere
  rw [List.filter_congr h]

theorem weight_eq (d : List (Sample K m)) : weight d = weightWhere (fun _ => true) d := by
  unfold weight weightWhere
  rw [List.filter_eq_self.2 (by simp)]

theorem err_node (a : Fin m) (t : K) (u l : T2 K m) (d : List (Sample K m)) :
    weightWhere (fun s => decide ((T2.node a t u l).predict s.x ≠ s.y)) d =
      weightWhere (fun s => decide (u.predict s.x ≠ s.y)) (d.filter fun s => t ≤ s.x a) +
      weightWhere (fun s => decide (l.predict s.x ≠ s.y)) (d.filter fun s => s.x a < t) := by
  rw [weight_split _ (fun s => decide (t ≤ s.x a)), ← filter_lt_eq]
  congr 1
  · apply weightWhere_congr
    intro s hs
    simp only [List.mem_filter, decide_eq_true_eq] at hs
    simp only [T2.predict, if_pos hs.2]
  · apply weightWhere_congr
    intro s hs
    simp only [List.mem_filter, decide_eq_true_eq] at hs
    simp only [T2.predict, if_neg (not_le.2 hs.2)]

theorem gen2_cases {n : Nat} {d : List (Sample K m)} {t : T2 K m} (h : gen2 n d = .ok t) :
    (t = .leaf (leafCat d) ∧ (n = 0 ∨ d.length ≤ 2)) ∨
    ∃ k a s u l, n = k + 1 ∧ 2 < d.length ∧ chooseFeature d = (some s, some a) ∧ gen2 k (d.filter fun q => s ≤ q.x a) = .ok u ∧
      gen2 k (d.filter fun q => q.x a < s) = .ok l ∧ t = .node a s u l := by
  cases n with
  | zero => simp only [gen2, Except.ok.injEq] at h; exact .inl ⟨h.symm, .inl rfl⟩
  | succ k =>
    rw [gen2] at h
    split at h
    · rename_i hl
      simp only [Except.ok.injEq] at h
      exact .inl ⟨h.symm, .inr hl⟩
    · rename_i hl
      split at h
      · rename_i s a hc
        split at h
        · rename_i u l hu hl'
          simp only [Except.ok.injEq] at h
          exact .inr ⟨k, a, s, u, l, rfl, by omega, hc, hu, hl', h.symm⟩
        · simp at h
        · simp at h
      · simp at h

theorem gen2_shape : ∀ (n : Nat) (d : List (Sample K m)) (t : T2 K m), gen2 n d = .ok t →
    t.depth ≤ n ∧ t.leaves ≤ 2 ^ n ∧ (∀ r, t.predict r = 1 ∨ t.predict r = -1) := by
  intro n
  induction n with
  | zero =>
    intro d t h
    rcases gen2_cases h with ⟨rfl, -⟩ | ⟨k, a, s, u, l, hk, -⟩
    · refine ⟨by simp [T2.depth], by simp [T2.leaves], ?_⟩
      intro r; simp only [T2.predict, leafCat]; split <;> simp
    · omega
  | succ n ih =>
    intro d t h
    rcases gen2_cases h with ⟨rfl, -⟩ | ⟨k, a, s, u, l, hk, -, -, hu, hl, rfl⟩
    · refine ⟨by simp [T2.depth], by simp [T2.leaves, Nat.one_le_two_pow], ?_⟩
      intro r; simp only [T2.predict, leafCat]; split <;> simp
    · have hk' : k = n := by omega
      subst hk'
      obtain ⟨a1, a2, a3⟩ := ih _ _ hu
      obtain ⟨b1, b2, b3⟩ := ih _ _ hl
      refine ⟨by simp only [T2.depth]; omega, ?_, ?_⟩
      · simp only [T2.leaves]; rw [pow_succ]; omega
      · intro r
        simp only [T2.predict]
        split
        · exact a3 r
        · exact b3 r

theorem gen2_reach : ∀ (n : Nat) (d : List (Sample K m)) (t : T2 K m), gen2 n d = .ok t →
    ∀ c ds, (c, ds) ∈ t.reach d → c = leafCat ds := by
  intro n
  induction n with
  | zero =>
    intro d t h c ds hc
    rcases gen2_cases h with ⟨rfl, -⟩ | ⟨k, a, s, u, l, hk, -⟩
    · simp only [T2.reach, List.mem_singleton, Prod.mk.injEq] at hc
      rw [hc.1, hc.2]
    · omega
  | succ n ih =>
    intro d t h c ds hc
    rcases gen2_cases h with ⟨rfl, -⟩ | ⟨k, a, s, u, l, hk, -, -, hu, hl, rfl⟩
    · simp only [T2.reach, List.mem_singleton, Prod.mk.injEq] at hc
      rw [hc.1, hc.2]
    · have hk' : k = n := by omega
      subst hk'
      simp only [T2.reach, List.mem_append] at hc
      rcases hc with hc | hc
      · exact ih _ _ hu c ds hc
      · exact ih _ _ hl c ds hc

variable [IsStrictOrderedRing K]

theorem leaf_error (d : List (Sample K m)) (hy : ∀ s ∈ d, s.y = 1 ∨ s.y = -1) :
    2 * weightWhere (fun s => decide (leafCat d ≠ s.y)) d ≤ weightWhere (fun _ => true) d := by
  have hpos : weight (d.filter fun s => s.y = 1) = weightWhere (fun s => decide (s.y = 1)) d := rfl
  have hneg : weight (d.filter fun s => s.y = -1) = weightWhere (fun s => decide (s.y = -1)) d := rfl
  have htot : weightWhere (fun _ => true) d = weightWhere (fun s => decide (s.y = 1)) d + weightWhere (fun s => decide (s.y = -1)) d := by
    rw [weight_split _ (fun s => decide (s.y = 1))]
    congr 1
    · rw [← weight_eq]; rfl
    · rw [← weight_eq]
      unfold weight weightWhere
      congr 2
      apply List.filter_congr
      intro s hs
      rcases hy s hs with h | h <;> simp [h]
  unfold leafCat
  split
  · rename_i h
    rw [hpos, hneg] at h
    have : weightWhere (fun s => decide ((1 : Int) ≠ s.y)) d = weightWhere (fun s => decide (s.y = -1)) d := by
      apply weightWhere_congr
      intro s hs
      rcases hy s hs with h | h <;> simp [h]
    rw [this, htot]; linarith
  · rename_i h
    rw [hpos, hneg, not_lt] at h
    have : weightWhere (fun s => decide ((-1 : Int) ≠ s.y)) d = weightWhere (fun s => decide (s.y = 1)) d := by
      apply weightWhere_congr
      intro s hs
      rcases hy s hs with h | h <;> simp [h]
    rw [this, htot]; linarith

theorem gen2_error : ∀ (n : Nat) (d : List (Sample K m)) (t : T2 K m), gen2 n d = .ok t →
    (∀ s ∈ d, s.y = 1 ∨ s.y = -1) →
    2 * weightWhere (fun s => decide (t.predict s.x ≠ s.y)) d ≤ weightWhere (fun _ => true) d := by
  intro n
  induction n with
  | zero =>
    intro d t h hy
    rcases gen2_cases h with ⟨rfl, -⟩ | ⟨k, a, s, u, l, hk, -⟩
    · exact leaf_error d hy
    · omega
  | succ n ih =>
    intro d t h hy
    rcases gen2_cases h with ⟨rfl, -⟩ | ⟨k, a, s, u, l, hk, -, -, hu, hl, rfl⟩
    · exact leaf_error d hy
    · have hk' : k = n := by omega
      subst hk'
      rw [err_node, weight_split (fun _ => true) (fun q => decide (s ≤ q.x a)), ← filter_lt_eq]
      have h1 := ih _ _ hu fun q hq => hy q (List.mem_of_mem_filter hq)
      have h2 := ih _ _ hl fun q hq => hy q (List.mem_of_mem_filter hq)
      linarith

/-! ## The choice of the split -/

theorem wgini_eq (d : List (Sample K m)) : wgini d = giniIndex d := by
  unfold wgini giniIndex
  congr 1
  have hperm : (pyUnique (d.map Sample.y)).Perm (d.map Sample.y).dedup := by
    rw [List.perm_ext_iff_of_nodup (nodup_pyUnique _) (List.nodup_dedup _)]
    intro a; rw [mem_pyUnique, List.mem_dedup]
  have := (hperm.map fun c => (weight (d.filter fun s => s.y = c) / weight d) ^ 2).sum_eq
  rw [this, weight_eq d]
  rfl

theorem wCost_eq (d : List (Sample K m)) (a : Fin m) (t : K) : wCost d a t = giniSplit d a t := by
  unfold wCost giniSplit
  simp only [wgini_eq, weight_eq d]
  rfl

theorem chooseLoop_spec (d : List (Sample K m)) : ∀ (l : List (Fin m)) (best : WithTop K × Option K × Option (Fin m)),
    (chooseLoop d l best = best.2 ∧ ∀ a ∈ l, best.1 ≤ (wValue d a).1) ∨
    ∃ a ∈ l, chooseLoop d l best = ((wValue d a).2, some a) ∧ (wValue d a).1 < best.1 ∧
      ∀ b ∈ l, (wValue d a).1 ≤ (wValue d b).1
  | [], best => .inl ⟨rfl, by simp⟩
  | c :: l, best => by
    rw [chooseLoop]
    split
    · rename_i hlt
      rcases chooseLoop_spec d l ((wValue d c).1, (wValue d c).2, some c) with ⟨h1, h2⟩ | ⟨a, ha, h1, h2, h3⟩
      · refine .inr ⟨c, by simp, h1, hlt, ?_⟩
        intro b hb
        rcases List.mem_cons.1 hb with rfl | hb
        · exact le_refl _
        · exact h2 b hb
      · refine .inr ⟨a, by simp [ha], h1, lt_trans h2 hlt, ?_⟩
        intro b hb
        rcases List.mem_cons.1 hb with rfl | hb
        · exact h2.le
        · exact h3 b hb
    · rename_i hlt
      rcases chooseLoop_spec d l best with ⟨h1, h2⟩ | ⟨a, ha, h1, h2, h3⟩
      · refine .inl ⟨h1, ?_⟩
        intro b hb
        rcases List.mem_cons.1 hb with rfl | hb
        · exact not_lt.1 hlt
        · exact h2 b hb
      · refine .inr ⟨a, by simp [ha], h1, h2, ?_⟩
        intro b hb
        rcases List.mem_cons.1 hb with rfl | hb
        · exact le_trans h2.le (not_lt.1 hlt)
        · exact h3 b hb

theorem wValue_spec (d : List (Sample K m)) (a : Fin m) :
    (candidatePoints (d.map fun s => s.x a) = [] ∧ wValue d a = (⊤, none)) ∨
    ∃ t ∈ candidatePoints (d.map fun s => s.x a), wValue d a = (((giniSplit d a t : K) : WithTop K), some t) ∧
      ∀ s ∈ candidatePoints (d.map fun q => q.x a), giniSplit d a t ≤ giniSplit d a s := by
  unfold wValue
  rcases contBest_spec (wCost d a) (candidatePoints (d.map fun s => s.x a)) (⊤, none) with
    ⟨h1, h2⟩ | ⟨pre, t, post, hl, h1, h2, h3, h4⟩
  · left
    refine ⟨?_, h1⟩
    rw [List.eq_nil_iff_forall_not_mem]
    intro t ht
    have := h2 t ht
    simp at this
  · right
    refine ⟨t, by simp [hl], by rw [h1, wCost_eq], ?_⟩
    intro s hs
    rw [← wCost_eq, ← wCost_eq]
    rw [hl] at hs
    rcases List.mem_append.1 hs with h | h
    · exact (h3 s h).le
    · rcases List.mem_cons.1 h with rfl | h
      · exact le_refl _
      · exact h4 s h

theorem chooseFeature_spec (d : List (Sample K m)) (hd : 2 ≤ d.length) (hm : 0 < m) :
    ∃ t a, chooseFeature d = (some t, some a) ∧ t ∈ candidatePoints (d.map fun s => s.x a) ∧
      ∀ b, ∀ s ∈ candidatePoints (d.map fun q => q.x b), giniSplit d a t ≤ giniSplit d b s := by
  have hne : ∀ b : Fin m, candidatePoints (d.map fun q => q.x b) ≠ [] := fun b => candidatePoints_ne_nil (by simpa using hd)
  unfold chooseFeature
  rcases chooseLoop_spec d (List.finRange m) (⊤, none, none) with ⟨h1, h2⟩ | ⟨a, ha, h1, h2, h3⟩
  · exfalso
    have h4 := h2 ⟨0, hm⟩ (List.mem_finRange _)
    rcases wValue_spec d ⟨0, hm⟩ with ⟨h5, -⟩ | ⟨t, -, h5, -⟩
    · exact hne _ h5
    · rw [h5] at h4; simp at h4
  · rcases wValue_spec d a with ⟨h5, -⟩ | ⟨t, ht, h5, h6⟩
    · exact absurd h5 (hne _)
    · refine ⟨t, a, by rw [h1, h5], ht, ?_⟩
      intro b s hs
      have h7 := h3 b (List.mem_finRange _)
      rcases wValue_spec d b with ⟨h8, -⟩ | ⟨t', ht', h8, h9⟩
      · exact absurd h8 (hne _)
      · rw [h5, h8] at h7
        simp only [WithTop.coe_le_coe] at h7
        exact le_trans h7 (h9 s hs)

theorem gen2_ok (hm : 0 < m) : ∀ (n : Nat) (d : List (Sample K m)), ∃ t, gen2 n d = .ok t := by
  intro n
  induction n with
  | zero => intro d; exact ⟨_, rfl⟩
  | succ n ih =>
    intro d
    rw [gen2]
    split
    · exact ⟨_, rfl⟩
    · rename_i hl
      obtain ⟨t, a, h, -⟩ := chooseFeature_spec d (by omega) hm
      rw [h]
      simp only
      obtain ⟨u, hu⟩ := ih (d.filter fun s => t ≤ s.x a)
      obtain ⟨l, hl⟩ := ih (d.filter fun s => s.x a < t)
      rw [hu, hl]
      exact ⟨_, rfl⟩

end CML.Small
