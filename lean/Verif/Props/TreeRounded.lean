import Verif.Props.Tree
import Verif.Lemmas.Rounded

set_option linter.unusedSectionVars false

/-! # Property C280: dividing points of decision trees in floating point -/

namespace CML.DTree
open CML.Float

universe u w
variable {V : Type u} {m : Nat} [DecidableEq V]
variable {K : Type w} [Field K] [LinearOrder K] [IsStrictOrderedRing K]

/-- C280: whatever the rounding, the dividing point between two numbers of the format lies between them, both included. -/
theorem C280_between {fl : K → K} (hfl : IsRounding fl) {a b : K} (ha : fl a = a) (hb : fl b = b) (h : a ≤ b) :
    a ≤ fl (fl (a + b) / 2) ∧ fl (fl (a + b) / 2) ≤ b := by
  have h2a := hfl.twice a ha
  have h2b := hfl.twice b hb
  have l1 : 2 * a ≤ fl (a + b) := by
    have := hfl.mono (2 * a) (a + b) (by linarith)
    rwa [h2a] at this
  have l2 : fl (a + b) ≤ 2 * b := by
    have := hfl.mono (a + b) (2 * b) (by linarith)
    rwa [h2b] at this
  constructor
  · have := hfl.mono a (fl (a + b) / 2) (by linarith)
    rwa [ha] at this
  · have := hfl.mono (fl (a + b) / 2) b (by linarith)
    rwa [hb] at this

/-- C280 (part): if the stored dividing point of any two different values of a column separates them (greater than the smaller, at most the larger), fitting
succeeds on every consistent training set and every training row is predicted correctly. -/
theorem C280_succeeds_partial (imp : List Int → K) (num : V → K) (isCont : List V → Bool)
    (hnum : ∀ D, isCont D = true → ∀ v ∈ D, ∀ w ∈ D, num v = num w → v = w) (maj : List Int → Option Int) (hm : MajOK maj) (fl : K → K)
    (limit : Nat) (xs : List (Row V m)) (ys : List Int) (hl : m + xs.length < limit) (hlen : xs.length = ys.length)
    (hys : ys ≠ []) (hcons : Consistent (xs.zip ys))
    (hsep : ∀ a, ∀ r ∈ xs, ∀ s ∈ xs, num (r a) < num (s a) →
      num (r a) < fl ((num (r a) + num (s a)) / 2) ∧ fl ((num (r a) + num (s a)) / 2) ≤ num (s a)) :
    ∃ t, fit (criterionOracle imp num isCont maj fl) limit xs ys = .ok t ∧ ∀ q ∈ xs.zip ys, predict num q.1 t = .ok q.2 := by
  obtain ⟨t, ht⟩ := generate_succeeds (criterionOracle imp num isCont maj fl) xs hm
    (criterionOracle_good imp num isCont maj fl hnum) hsep limit (List.finRange m) xs ys (fun _ h => h) (by simpa using hl) hlen hys
    (fun a ha => absurd (List.mem_finRange a) ha) hcons
  exact ⟨t, ht, C23_training_exact _ _ _ _ _ hlen hcons ht⟩

/-- Values with the numbers 0.1, 0.2, 0.3 of double precision and dividing points of single precision. -/
example : ∃ t, fit (criterionOracle gini id ratCont majFirst fun t => f32 (f64 t)) 10 [![f64 (1 / 10)], ![f64 (2 / 10)], ![f64 (3 / 10 : ℚ)]] [0, 1, 0] = .ok t ∧
    ∀ q ∈ [![f64 (1 / 10)], ![f64 (2 / 10)], ![f64 (3 / 10 : ℚ)]].zip [0, 1, 0], predict id q.1 t = .ok q.2 :=
  C280_succeeds_partial gini id ratCont (by intro D _ v _ w _ h; exact h) majFirst majFirst_ok _ 10 _ _ (by decide) rfl (by simp)
    (by unfold Consistent; decide +kernel) (by decide +kernel)

/-- C280 fails: if all attributes are continuous and all midpoints are rounded down to the smallest value of their column or below, fitting exceeds the
recursion limit, whatever it is, for every training set with at least two labels in which equal rows have equal labels. -/
theorem C280_diverges (imp : List Int → K) (num : V → K) (isCont : List V → Bool)
    (hnum : ∀ D, isCont D = true → ∀ v ∈ D, ∀ w ∈ D, num v = num w → v = w) (maj : List Int → Option Int) (fl : K → K)
    (limit : Nat) (xs : List (Row V m)) (ys : List Int) (hlen : xs.length = ys.length) (hcons : Consistent (xs.zip ys))
    (hys : ∃ c ∈ ys, ∃ c' ∈ ys, c ≠ c') (hcont : ∀ a, isCont (xs.map fun r => r a) = true)
    (hlow : ∀ a, ∀ r ∈ xs, ∀ s ∈ xs, ∀ q ∈ xs, num (r a) < num (s a) → fl ((num (r a) + num (s a)) / 2) ≤ num (q a)) :
    fit (criterionOracle imp num isCont maj fl) limit xs ys = .error .recursionError := by
  have hg := criterionOracle_good (m := m) imp num isCont maj fl hnum
  obtain ⟨c, hc, c', hc', hne⟩ := hys
  have huniq : (pyUnique ys).length ≠ 1 := by
    intro h
    obtain ⟨d, hd⟩ := List.length_eq_one_iff.1 h
    have h1 : c ∈ pyUnique ys := mem_pyUnique.2 hc
    have h2 : c' ∈ pyUnique ys := mem_pyUnique.2 hc'
    rw [hd, List.mem_singleton] at h1 h2
    exact hne (h1.trans h2.symm)
  have hmem : ∀ y ∈ ys, ∃ p ∈ xs.zip ys, p.2 = y := by
    intro y hy
    rw [← map_snd_zip hlen] at hy
    obtain ⟨p, hp, he⟩ := List.mem_map.1 hy
    exact ⟨p, hp, he⟩
  obtain ⟨p, hp, rfl⟩ := hmem c hc
  obtain ⟨p', hp', rfl⟩ := hmem c' hc'
  have hr1 := (List.of_mem_zip (a := p.1) (b := p.2) hp).1
  have hr2 := (List.of_mem_zip (a := p'.1) (b := p'.2) hp').1
  have hdiff : p.1 ≠ p'.1 := fun h => hne (hcons p hp p' hp' h)
  have hxs : xs ≠ [] := fun h => by rw [h] at hr1; cases hr1
  have hcols : List.finRange m ≠ [] := by
    intro h
    apply hdiff
    funext a
    have := List.mem_finRange a
    rw [h] at this
    cases this
  -- the split
  obtain ⟨a, t, hsp⟩ : ∃ a t, (criterionOracle (m := m) imp num isCont maj fl).split (List.finRange m) xs ys = some (a, some t) := by
    cases hsp : (criterionOracle (m := m) imp num isCont maj fl).split (List.finRange m) xs ys with
    | none =>
      exact absurd (funext fun a => hg.none _ _ _ hsp a (List.mem_finRange a) _ hr1 _ hr2) hdiff
    | some q =>
      obtain ⟨a, _ | t⟩ := q
      · exfalso
        obtain ⟨value, hv, h⟩ := C24_optimal_division imp num isCont (List.finRange m) xs ys
        simp only [criterionOracle] at hsp
        rcases h with ⟨h, -⟩ | ⟨-, b, -, -, h, -⟩
        · rw [h] at hsp; simp at hsp
        · have hb := hv b
          rw [h] at hsp
          unfold IsCriterion at hb
          rw [if_pos (hcont b)] at hb
          rcases hb with ⟨-, hb⟩ | ⟨t, -, hb, -⟩ <;> rw [hb] at hsp <;> simp at hsp
      · exact ⟨a, t, rfl⟩
  obtain ⟨x, hx, y, hy, hlt, -, ht⟩ := hg.mid _ _ _ _ _ hsp
  obtain ⟨r, hr, rfl⟩ := List.mem_map.1 hx
  obtain ⟨s, hs, rfl⟩ := List.mem_map.1 hy
  have hall : ∀ q ∈ xs, decide ((criterionOracle (m := m) imp num isCont maj fl).fl t ≤ (criterionOracle (m := m) imp num isCont maj fl).num (q a)) = true := by
    intro q hq
    rw [decide_eq_true_eq, ht]
    exact hlow a r hr s hs q hq hlt
  unfold fit
  induction limit with
  | zero => rfl
  | succ n ih =>
    unfold generate
    rw [if_neg huniq, if_neg (by rintro (h | h); exacts [hxs h, hcols h]), hsp]
    simp only
    have h0 : (xs.filter fun r => decide ((criterionOracle (m := m) imp num isCont maj fl).fl t ≤ (criterionOracle (m := m) imp num isCont maj fl).num (r a))) = xs :=
      List.filter_eq_self.2 hall
    have h1 : selY (fun r => decide ((criterionOracle (m := m) imp num isCont maj fl).fl t ≤ (criterionOracle (m := m) imp num isCont maj fl).num (r a))) xs ys = ys := by
      unfold selY
      rw [List.filter_eq_self.2 fun q hq => hall q.1 (List.of_mem_zip (a := q.1) (b := q.2) hq).1, map_snd_zip hlen]
    rw [h0, h1, ih]

/-- C280: two values of double precision that are rounded to the same number of single precision from above cannot be told apart in 32-bit precision. -/
example (limit : Nat) : fit (criterionOracle gini id ratCont majFirst fun t => f32 (f64 t)) limit [![1 + 1 / 2 ^ 30], ![(1 + 1 / 2 ^ 29 : ℚ)]] [0, 1] = .error .recursionError :=
  C280_diverges gini id ratCont (by intro D _ v _ w _ h; exact h) majFirst _ limit _ _ rfl (by unfold Consistent; decide +kernel) (by decide) (by decide +kernel)
    (by decide +kernel)

/-- The midpoint of two neighbouring numbers of single precision is rounded to the one with the even significand. -/
theorem midpoint_neighbours [FloorRing K] (n : Nat) (h1 : 2 ^ 23 ≤ n) (h2 : n < 2 ^ 24) (k : Int) (hk : -149 ≤ k) :
    f32 (((n : K) * 2 ^ k + ((n + 1 : Nat) : K) * 2 ^ k) / 2) = (if n % 2 = 0 then (n : K) else ((n + 1 : Nat) : K)) * 2 ^ k := by
  have hs := two_zpow_pos (K := K) k
  have hx : ((n : K) * 2 ^ k + ((n + 1 : Nat) : K) * 2 ^ k) / 2 = ((n : K) + 1 / 2) * 2 ^ k := by push_cast; ring
  have hpos : 0 < ((n : K) + 1 / 2) * 2 ^ k := by positivity
  have c1 : ((2 ^ 23 : Nat) : K) ≤ n := Nat.cast_le.2 h1
  have c2 : ((n + 1 : Nat) : K) ≤ ((2 ^ 24 : Nat) : K) := Nat.cast_le.2 h2
  have hlog : Int.log 2 |((n : K) + 1 / 2) * 2 ^ k| = 23 + k := by
    rw [abs_of_pos hpos]
    apply le_antisymm
    · rw [← Int.lt_add_one_iff, ← Int.lt_zpow_iff_log_lt (by norm_num) hpos, show (23 + k + 1 : Int) = 24 + k by omega, Nat.cast_ofNat,
        zpow_add₀ (by norm_num)]
      refine mul_lt_mul_of_pos_right ?_ hs
      rw [show (24 : Int) = ((24 : Nat) : Int) by rfl, zpow_natCast]
      push_cast at c2
      linarith
    · rw [← Int.zpow_le_iff_le_log (by norm_num) hpos, Nat.cast_ofNat, zpow_add₀ (by norm_num)]
      refine mul_le_mul_of_nonneg_right ?_ hs.le
      rw [show (23 : Int) = ((23 : Nat) : Int) by rfl, zpow_natCast]
      push_cast at c1
      linarith
  have hE : ulpExp 24 (-149) (((n : K) + 1 / 2) * 2 ^ k) = k := by
    unfold ulpExp
    rw [hlog]
    push_cast
    rw [max_eq_left (by omega)]
    omega
  rw [hx]
  unfold f32
  rw [rne_eq, hE, mul_div_assoc, div_self hs.ne', mul_one]
  congr 1
  split_ifs with he
  · rw [nearest_unique _ (n : Int)]
    · simp
    · push_cast; rw [add_sub_cancel_left]; norm_num
    · intro _; omega
  · rw [nearest_unique _ ((n + 1 : Nat) : Int)]
    · simp
    · push_cast; rw [show (2 : K) * ((n : K) + 1 / 2 - (n + 1)) = -1 by ring]; norm_num
    · intro _; omega

/-- C280 fails for half of the pairs of neighbouring numbers of single precision: with two samples of different labels and values `n·2ᵏ`, `(n+1)·2ᵏ`
(`2²³ ≤ n < 2²⁴`), fitting in 32-bit precision exceeds every recursion limit if `n` is even, and succeeds with the right predictions if `n` is odd. -/
theorem C280_neighbours (imp : List Int → ℚ) (maj : List Int → Option Int) (hm : MajOK maj) (isCont : List ℚ → Bool)
    (n : Nat) (h1 : 2 ^ 23 ≤ n) (h2 : n < 2 ^ 24) (k : Int) (hk : -149 ≤ k) (hcont : isCont [(n : ℚ) * 2 ^ k, ((n + 1 : Nat) : ℚ) * 2 ^ k] = true)
    (c c' : Int) (hc : c ≠ c') (limit : Nat) (hl : 3 < limit) :
    (n % 2 = 0 → fit (m := 1) (criterionOracle imp id isCont maj f32) limit [fun _ => (n : ℚ) * 2 ^ k, fun _ => ((n + 1 : Nat) : ℚ) * 2 ^ k] [c, c'] = .error .recursionError) ∧
    (n % 2 ≠ 0 → ∃ t, fit (m := 1) (criterionOracle imp id isCont maj f32) limit [fun _ => (n : ℚ) * 2 ^ k, fun _ => ((n + 1 : Nat) : ℚ) * 2 ^ k] [c, c'] = .ok t ∧
      predict id (fun _ => (n : ℚ) * 2 ^ k) t = .ok c ∧ predict id (fun _ => ((n + 1 : Nat) : ℚ) * 2 ^ k) t = .ok c') := by
  have hs := two_zpow_pos (K := ℚ) k
  have hlt : (n : ℚ) * 2 ^ k < ((n + 1 : Nat) : ℚ) * 2 ^ k := by
    refine mul_lt_mul_of_pos_right ?_ hs
    push_cast; linarith
  have hmid := midpoint_neighbours (K := ℚ) n h1 h2 k hk
  have heven : n % 2 = 0 → f32 (((n : ℚ) * 2 ^ k + ((n + 1 : Nat) : ℚ) * 2 ^ k) / 2) = (n : ℚ) * 2 ^ k := fun h => by rw [hmid, if_pos h]
  have hodd : n % 2 ≠ 0 → f32 (((n : ℚ) * 2 ^ k + ((n + 1 : Nat) : ℚ) * 2 ^ k) / 2) = ((n + 1 : Nat) : ℚ) * 2 ^ k := fun h => by rw [hmid, if_neg h]
  clear hmid
  have hcons : Consistent ([fun _ : Fin 1 => (n : ℚ) * 2 ^ k, fun _ => ((n + 1 : Nat) : ℚ) * 2 ^ k].zip [c, c']) := by
    intro p hp q hq he
    simp only [List.zip_cons_cons, List.zip_nil_right, List.mem_cons, List.not_mem_nil, or_false] at hp hq
    rcases hp with rfl | rfl <;> rcases hq with rfl | rfl
    · rfl
    · exact absurd (congrFun he 0) hlt.ne
    · exact absurd (congrFun he 0) hlt.ne'
    · rfl
  generalize (n : ℚ) * 2 ^ k = a at *
  generalize ((n + 1 : Nat) : ℚ) * 2 ^ k = b at *
  constructor
  · intro he
    refine C280_diverges imp id isCont (by intro D _ v _ w _ h; exact h) maj f32 limit _ _ rfl hcons ⟨c, by simp, c', by simp, hc⟩ (fun _ => hcont) ?_
    intro _ r hr s hs q hq hrs
    simp only [List.mem_cons, List.not_mem_nil, or_false] at hr hs hq
    simp only [id] at hrs ⊢
    rcases hr with rfl | rfl <;> rcases hs with rfl | rfl
    · exact absurd hrs (lt_irrefl _)
    · show f32 ((a + b) / 2) ≤ q _
      rw [heven he]
      rcases hq with rfl | rfl
      · exact le_rfl
      · exact hlt.le
    · exact absurd hrs hlt.asymm
    · exact absurd hrs (lt_irrefl _)
  · intro he
    obtain ⟨t, ht, hp⟩ := C280_succeeds_partial imp id isCont (by intro D _ v _ w _ h; exact h) maj hm f32 limit [fun _ : Fin 1 => a, fun _ => b] [c, c']
      (by simpa using hl) rfl (by simp) hcons (by
        intro _ r hr s hs hrs
        simp only [List.mem_cons, List.not_mem_nil, or_false] at hr hs
        simp only [id] at hrs ⊢
        rcases hr with rfl | rfl <;> rcases hs with rfl | rfl
        · exact absurd hrs (lt_irrefl _)
        · show a < f32 ((a + b) / 2) ∧ f32 ((a + b) / 2) ≤ b
          rw [hodd he]
          exact ⟨hlt, le_rfl⟩
        · exact absurd hrs hlt.asymm
        · exact absurd hrs (lt_irrefl _))
    exact ⟨t, ht, hp (fun _ => a, c) (by simp), hp (fun _ => b, c') (by simp)⟩

/-- The smallest such pair above 1. -/
example (limit : Nat) (hl : 3 < limit) : fit (m := 1) (criterionOracle gini id (fun _ => true) majFirst f32) limit
    [fun _ => ((2 ^ 23 : Nat) : ℚ) * 2 ^ (-23 : Int), fun _ => ((2 ^ 23 + 1 : Nat) : ℚ) * 2 ^ (-23 : Int)] [0, 1] = .error .recursionError :=
  (C280_neighbours gini majFirst majFirst_ok (fun _ => true) (2 ^ 23) le_rfl (by norm_num) (-23) (by norm_num) rfl 0 1 (by decide) limit hl).1 (by norm_num)

end CML.DTree
