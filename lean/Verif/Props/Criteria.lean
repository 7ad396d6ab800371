import Verif.Lemmas.Criteria
import Verif.Props.Tree
import Mathlib.Tactic.NormNum

/-! # Properties of the split criteria: C24 for the generator, C122, C123 -/

set_option linter.unusedSectionVars false

namespace CML.DTree
open Finset

universe u w

/-! ## C24: what the generator receives -/

section C24b
variable {V : Type u} {K : Type w} {m : Nat} [DecidableEq V] [Field K] [LinearOrder K]

/-- Values of the criterion in terms of candidates. -/
theorem getValue_cand (imp : List Int → K) (num : V → K) (isCont : List V → Bool) (xs : List (Row V m)) (ys : List Int) (a : Fin m) :
    let r := getValue imp num (isCont (xs.map fun r => r a)) (xs.map fun r => r a) ys
    (r.1 = ⊤ ∧ ∀ p, ¬ Candidate num isCont xs a p) ∨
    ∃ p, Candidate num isCont xs a p ∧ r.1 = ((candCost imp num xs ys a p : K) : WithTop K) ∧
      r.2 = (match p with | none => none | some t => some (some t)) ∧
      ∀ q, Candidate num isCont xs a q → candCost imp num xs ys a p ≤ candCost imp num xs ys a q := by
  intro r
  have h := getValue_spec imp num (isCont (xs.map fun r => r a)) (xs.map fun r => r a) ys
  unfold IsCriterion at h
  split at h
  · rename_i hc
    rcases h with ⟨h1, h2⟩ | ⟨t, h1, h2, h3⟩
    · refine .inl ⟨by simp [r, h2], ?_⟩
      intro p hp
      cases p with
      | none => unfold Candidate at hp; simp [hc] at hp
      | some t => exact h1 t hp.2
    · refine .inr ⟨some t, ⟨hc, h1⟩, by simp only [r, h2]; rfl, by simp [r, h2], ?_⟩
      intro q hq
      cases q with
      | none => unfold Candidate at hq; simp [hc] at hq
      | some s => exact h3 s hq.2
  · rename_i hc
    simp only [Bool.not_eq_true] at hc
    obtain ⟨values, hnd, hmem, hv⟩ := h
    refine .inr ⟨none, hc, ?_, by simp [r, hv], ?_⟩
    · simp only [r, hv, candCost]
      norm_cast
      unfold partitionCost
      have hperm : values.Perm (xs.map fun r => r a).dedup := by
        rw [List.perm_ext_iff_of_nodup hnd (List.nodup_dedup _)]
        intro v; rw [hmem, List.mem_dedup]
      exact ((hperm.map _).map _).sum_eq
    · intro q hq
      cases q with
      | none => exact le_refl _
      | some s => exact absurd hq.1 (by simp [hc])

/-- C24 for the tree generator with the Gini index or the entropy: the generator is told to split exactly when some attribute
admits a split, and then receives a possible split of least impurity among all splits on all attributes. -/
theorem C24_generator_choice (imp : List Int → K) (num : V → K) (isCont : List V → Bool) (maj : List Int → Option Int)
    (fl : K → K) (cols : List (Fin m)) (xs : List (Row V m)) (ys : List Int) :
    ((criterionOracle imp num isCont maj fl).split cols xs ys = none ∧ ∀ b ∈ cols, ∀ p, ¬ Candidate num isCont xs b p) ∨
    ∃ a ∈ cols, ∃ p, (criterionOracle imp num isCont maj fl).split cols xs ys = some (a, p) ∧ Candidate num isCont xs a p ∧
      ∀ b ∈ cols, ∀ q, Candidate num isCont xs b q → candCost imp num xs ys a p ≤ candCost imp num xs ys b q := by
  rcases minLoop_spec (fun a => let D := xs.map fun r : Row V m => r a; getValue imp num (isCont D) D ys) cols (none, ⊤, none) with
      ⟨h1, h2⟩ | ⟨pre, a, post, hl, h1, h2, h3, h4⟩
  · refine .inl ⟨?_, ?_⟩
    · simp only [criterionOracle, optimalDivision, h1]
    · intro b hb
      have hb' := top_le_iff.1 (h2 b hb)
      rcases getValue_cand imp num isCont xs ys b with ⟨_, h⟩ | ⟨p, _, h, _⟩
      · exact h
      · rw [hb'] at h; exact absurd h (by simp)
  · refine .inr ⟨a, by simp [hl], ?_⟩
    rcases getValue_cand imp num isCont xs ys a with ⟨h, _⟩ | ⟨p, hp1, hp2, hp3, hp4⟩
    · simp only [h] at h2; exact absurd h2 (lt_irrefl _)
    · refine ⟨p, ?_, hp1, ?_⟩
      · simp only [criterionOracle, optimalDivision, h1]
        generalize getValue imp num (isCont (xs.map fun r => r a)) (xs.map fun r => r a) ys = g at hp3
        obtain ⟨g1, g2⟩ := g
        simp only at hp3
        rw [hp3]
        cases p <;> rfl
      · have hall : ∀ b ∈ cols, (getValue imp num (isCont (xs.map fun r => r a)) (xs.map fun r => r a) ys).1 ≤
            (getValue imp num (isCont (xs.map fun r => r b)) (xs.map fun r => r b) ys).1 := by
          intro b hb
          rw [hl] at hb
          rcases List.mem_append.1 hb with hb | hb
          · exact (h3 b hb).le
          · rcases List.mem_cons.1 hb with rfl | hb
            · exact le_refl _
            · exact h4 b hb
        intro b hb q hq
        have h5 := hall b hb
        rcases getValue_cand imp num isCont xs ys b with ⟨_, h⟩ | ⟨p', hp1', hp2', hp3', hp4'⟩
        · exact absurd hq (h q)
        · rw [hp2, hp2'] at h5
          exact le_trans (by exact_mod_cast h5) (hp4' q hq)

/-- C24 for the tree generator with the information gain: again a possible split of least remaining impurity, i.e. of largest
gain. -/
theorem C24_generator_choice_gain [IsStrictOrderedRing K] (imp : List Int → K) (num : V → K) (isCont : List V → Bool)
    (maj : List Int → Option Int)
    (fl : K → K) (cols : List (Fin m)) (xs : List (Row V m)) (ys : List Int) :
    ((gainOracle imp num isCont maj fl).split cols xs ys = none ∧ ∀ b ∈ cols, ∀ p, ¬ Candidate num isCont xs b p) ∨
    ∃ a ∈ cols, ∃ p, (gainOracle imp num isCont maj fl).split cols xs ys = some (a, p) ∧ Candidate num isCont xs a p ∧
      ∀ b ∈ cols, ∀ q, Candidate num isCont xs b q → candCost imp num xs ys a p ≤ candCost imp num xs ys b q := by
  rcases maxLoop_spec (fun a => let D := xs.map fun r : Row V m => r a; let r := getValue imp num (isCont D) D ys;
      (gainOf (imp ys) r.1, r.2)) cols (none, ⊥, none) with ⟨h1, h2⟩ | ⟨pre, a, post, hl, h1, h2, h3, h4⟩
  · refine .inl ⟨?_, ?_⟩
    · simp only [gainOracle, gainDivision, h1]
    · intro b hb
      have hb' := le_bot_iff.1 (h2 b hb)
      rcases getValue_cand imp num isCont xs ys b with ⟨_, h⟩ | ⟨p, _, h, _⟩
      · exact h
      · simp only [h] at hb'; exact absurd hb' (by simp [gainOf])
  · refine .inr ⟨a, by simp [hl], ?_⟩
    rcases getValue_cand imp num isCont xs ys a with ⟨h, _⟩ | ⟨p, hp1, hp2, hp3, hp4⟩
    · simp only [h] at h2; exact absurd h2 (lt_irrefl _)
    · refine ⟨p, ?_, hp1, ?_⟩
      · simp only [gainOracle, gainDivision, h1]
        rw [hp3]
        cases p <;> rfl
      · have hall : ∀ b ∈ cols, gainOf (imp ys) (getValue imp num (isCont (xs.map fun r => r b)) (xs.map fun r => r b) ys).1 ≤
            gainOf (imp ys) (getValue imp num (isCont (xs.map fun r => r a)) (xs.map fun r => r a) ys).1 := by
          intro b hb
          rw [hl] at hb
          rcases List.mem_append.1 hb with hb | hb
          · exact (h3 b hb).le
          · rcases List.mem_cons.1 hb with rfl | hb
            · exact le_refl _
            · exact h4 b hb
        intro b hb q hq
        have h5 := hall b hb
        rcases getValue_cand imp num isCont xs ys b with ⟨_, h⟩ | ⟨p', hp1', hp2', hp3', hp4'⟩
        · exact absurd hq (h q)
        · rw [hp2, hp2'] at h5
          simp only [gainOf, WithBot.coe_le_coe] at h5
          exact le_trans (by linarith) (hp4' q hq)

end C24b

example : (gainOracle (m := 2) (gini (K := ℚ)) id ratCont majFirst id).split [0, 1]
    [![1, 1/2], ![1, 3/2], ![0, 5/2], ![0, 7/2]] [0, 1, 1, 1] = some (1, some 1) := by decide +kernel

/-! ## C122: the impurity measures -/

section C122
variable {K : Type*} [Field K] [LinearOrder K] [IsStrictOrderedRing K]

theorem length_pos_cast (y : List Int) (hy : y ≠ []) (F : Type*) [Field F] [LinearOrder F] [IsStrictOrderedRing F] :
    (0 : F) < (y.length : F) := by
  rw [Nat.cast_pos, List.length_pos_iff]; exact hy

/-- The frequencies sum to one. -/
theorem freq_sum (y : List Int) (hy : y ≠ []) (F : Type*) [Field F] [LinearOrder F] [IsStrictOrderedRing F] :
    ∑ c ∈ y.toFinset, (y.count c : F) / (y.length : F) = 1 := by
  rw [← sum_div]
  have h := length_eq_sum_count y y.toFinset fun a ha => List.mem_toFinset.2 ha
  rw [show ∑ c ∈ y.toFinset, (y.count c : F) = (y.length : F) by exact_mod_cast h.symm]
  exact div_self (length_pos_cast y hy F).ne'

theorem freq_pos (y : List Int) (hy : y ≠ []) (F : Type*) [Field F] [LinearOrder F] [IsStrictOrderedRing F] (c : Int)
    (hc : c ∈ y.toFinset) : (0 : F) < (y.count c : F) / (y.length : F) := by
  have h1 := length_pos_cast y hy F
  have h2 : (0 : F) < (y.count c : F) := by rw [Nat.cast_pos]; exact List.count_pos_iff.2 (List.mem_toFinset.1 hc)
  positivity

theorem freq_le_one (y : List Int) (F : Type*) [Field F] [LinearOrder F] [IsStrictOrderedRing F] (c : Int) :
    (y.count c : F) / (y.length : F) ≤ 1 := by
  apply div_le_one_of_le₀
  · exact_mod_cast List.count_le_length
  · exact_mod_cast Nat.zero_le _

theorem pure_iff_freq (y : List Int) (hy : y ≠ []) (F : Type*) [Field F] [LinearOrder F] [IsStrictOrderedRing F] :
    Pure y ↔ ∀ c ∈ y.toFinset, (y.count c : F) / (y.length : F) = 1 := by
  have h0 := (length_pos_cast y hy F).ne'
  have e : ∀ c, (y.count c : F) / (y.length : F) = 1 ↔ y.count c = y.length := by
    intro c; rw [div_eq_one_iff_eq h0]; exact Nat.cast_inj
  simp only [e, List.mem_toFinset, List.count_eq_length]
  unfold Pure
  exact ⟨fun h c hc b hb => h c hc b hb, fun h a ha b hb => h a ha b hb⟩

theorem balanced_iff_freq (y : List Int) (hy : y ≠ []) (F : Type*) [Field F] [LinearOrder F] [IsStrictOrderedRing F] :
    Balanced y ↔ ∀ c ∈ y.toFinset, (y.count c : F) / (y.length : F) = 1 / (y.toFinset.card : F) := by
  have h0 := length_pos_cast y hy F
  have hk : (0 : F) < (y.toFinset.card : F) := by
    rw [Nat.cast_pos, card_pos, List.toFinset_nonempty_iff]; exact hy
  constructor
  · intro hb c hc
    have hs := freq_sum y hy F
    rw [sum_congr rfl (g := fun _ => (y.count c : F) / (y.length : F)), sum_const, nsmul_eq_mul] at hs
    · rw [eq_div_iff hk.ne', mul_comm]; exact hs
    · intro d hd
      rw [hb d (List.mem_toFinset.1 hd) c (List.mem_toFinset.1 hc)]
  · intro h a ha b hb
    have h1 := (h a (List.mem_toFinset.2 ha)).trans (h b (List.mem_toFinset.2 hb)).symm
    rw [div_left_inj' h0.ne'] at h1
    exact_mod_cast h1

/-- C122: the Gini index is the probability that two labels drawn independently from the sample differ. -/
theorem C122_gini_pairs (y : List Int) (hy : y ≠ []) :
    gini (K := K) y = (((y ×ˢ y).filter fun p => p.1 ≠ p.2).length : K) / (y.length : K) ^ 2 := by
  have h0 := (length_pos_cast y hy K).ne'
  have h1 : ∀ z : List Int, ((z ×ˢ y).filter fun p => p.1 = p.2).length = (z.map fun a => y.count a).sum := by
    intro z
    induction z with
    | nil => simp
    | cons a z ih =>
      rw [List.product_cons, List.filter_append, List.length_append, ih, List.map_cons, List.sum_cons]
      congr 1
      rw [← List.countP_eq_length_filter, List.countP_map, List.count]
      refine List.countP_congr fun b _ => ?_
      simp only [Function.comp_apply, decide_eq_true_eq, beq_iff_eq]
      exact eq_comm
  have h2 : ((y ×ˢ y).filter fun p => p.1 ≠ p.2).length + ((y ×ˢ y).filter fun p => p.1 = p.2).length = y.length * y.length := by
    rw [← List.length_product y y, ← List.countP_eq_length_filter, ← List.countP_eq_length_filter, Nat.add_comm]
    have := List.length_eq_countP_add_countP (fun p : Int × Int => decide (p.1 = p.2)) (l := y ×ˢ y)
    rw [this]
    congr 1
    exact List.countP_congr fun p _ => by simp
  have h3 : (y.map fun a => y.count a).sum = ∑ c ∈ y.toFinset, y.count c * y.count c := by
    rw [Finset.sum_list_map_count]; rfl
  rw [h1, h3] at h2
  have h4 : (((y ×ˢ y).filter fun p => p.1 ≠ p.2).length : K) =
      (y.length : K) ^ 2 - ∑ c ∈ y.toFinset, (y.count c : K) ^ 2 := by
    have : (((y ×ˢ y).filter fun p => p.1 ≠ p.2).length : K) + ∑ c ∈ y.toFinset, (y.count c : K) * y.count c =
        (y.length : K) * y.length := by exact_mod_cast h2
    simp only [pow_two]
    linarith
  rw [h4, gini_eq y _ fun a ha => List.mem_toFinset.2 ha, sub_div, div_self (by positivity), sum_div]
  simp only [div_pow]

example : gini (K := ℚ) [0, 1, 1] = 4 / 9 ∧ ((([0, 1, 1] : List Int) ×ˢ [0, 1, 1]).filter fun p => p.1 ≠ p.2).length = 4 := by
  decide +kernel

/-- C122: the Gini index is 0 exactly for equal labels, and at most `1 - 1/k` for `k` different labels, with equality exactly
for equally frequent ones. -/
theorem C122_gini_range (y : List Int) (hy : y ≠ []) :
    0 ≤ gini (K := K) y ∧ (gini (K := K) y = 0 ↔ Pure y) ∧
    gini (K := K) y ≤ 1 - 1 / (y.toFinset.card : K) ∧ (gini (K := K) y = 1 - 1 / (y.toFinset.card : K) ↔ Balanced y) := by
  have hg := gini_eq (K := K) y _ fun a ha => List.mem_toFinset.2 ha
  have hs := freq_sum y hy K
  have hk : (0 : K) < (y.toFinset.card : K) := by
    rw [Nat.cast_pos, card_pos, List.toFinset_nonempty_iff]; exact hy
  have e1 : gini (K := K) y = ∑ c ∈ y.toFinset, (y.count c : K) / (y.length : K) * (1 - (y.count c : K) / (y.length : K)) := by
    rw [hg]; simp only [mul_sub, mul_one, sum_sub_distrib, hs, pow_two]
  have hnn : ∀ c ∈ y.toFinset, 0 ≤ (y.count c : K) / (y.length : K) * (1 - (y.count c : K) / (y.length : K)) := fun c hc =>
    mul_nonneg (freq_pos y hy K c hc).le (sub_nonneg.2 (freq_le_one y K c))
  have e2 : 1 - 1 / (y.toFinset.card : K) - gini (K := K) y =
      ∑ c ∈ y.toFinset, ((y.count c : K) / (y.length : K) - 1 / (y.toFinset.card : K)) ^ 2 := by
    have : ∀ c ∈ y.toFinset, ((y.count c : K) / (y.length : K) - 1 / (y.toFinset.card : K)) ^ 2 =
        ((y.count c : K) / (y.length : K)) ^ 2 - 2 * (1 / (y.toFinset.card : K)) * ((y.count c : K) / (y.length : K)) +
          (1 / (y.toFinset.card : K)) ^ 2 := fun c _ => by ring
    rw [sum_congr rfl this, sum_add_distrib, sum_sub_distrib, ← mul_sum, hs, sum_const, nsmul_eq_mul, hg]
    field_simp; ring
  refine ⟨by rw [e1]; exact sum_nonneg hnn, ?_, ?_, ?_⟩
  · rw [e1, sum_eq_zero_iff_of_nonneg hnn, pure_iff_freq y hy K]
    refine forall₂_congr fun c hc => ?_
    rw [mul_eq_zero, or_iff_right (freq_pos y hy K c hc).ne', sub_eq_zero, eq_comm]
  · have := sum_nonneg (s := y.toFinset) fun c _ => sq_nonneg ((y.count c : K) / (y.length : K) - 1 / (y.toFinset.card : K))
    rw [← e2] at this; linarith
  · rw [eq_comm, ← sub_eq_zero, e2, sum_eq_zero_iff_of_nonneg fun c _ => sq_nonneg _, balanced_iff_freq y hy K]
    refine forall₂_congr fun c hc => ?_
    rw [pow_eq_zero_iff two_ne_zero, sub_eq_zero]

example : Pure [3, 3] ∧ ¬ Pure [3, 4] ∧ Balanced [3, 4] ∧ ¬ Balanced [3, 4, 4] := by
  refine ⟨by unfold Pure; decide, by unfold Pure; decide, by unfold Balanced; decide, by unfold Balanced; decide⟩

/-- C122: the entropy is 0 exactly for equal labels, and at most `log₂ k` for `k` different labels, with equality exactly for
equally frequent ones. -/
theorem C122_entropy_range (y : List Int) (hy : y ≠ []) :
    0 ≤ entropy y ∧ (entropy y = 0 ↔ Pure y) ∧
    entropy y ≤ Real.logb 2 (y.toFinset.card) ∧ (entropy y = Real.logb 2 (y.toFinset.card) ↔ Balanced y) := by
  have hg := entropy_eq y _ fun a ha => List.mem_toFinset.2 ha
  have hl2 : 0 < Real.log 2 := Real.log_pos (by norm_num)
  have hs := freq_sum y hy ℝ
  have hk : (0 : ℝ) < (y.toFinset.card : ℝ) := by
    rw [Nat.cast_pos, card_pos, List.toFinset_nonempty_iff]; exact hy
  have hnn : ∀ c ∈ y.toFinset, 0 ≤ -((y.count c : ℝ) / (y.length : ℝ)) * Real.log ((y.count c : ℝ) / (y.length : ℝ)) :=
    fun c hc => by
      have h1 := freq_pos y hy ℝ c hc
      have h2 := Real.log_nonpos h1.le (freq_le_one y ℝ c)
      nlinarith
  have hcell : ∀ c ∈ y.toFinset, -((y.count c : ℝ) / (y.length : ℝ)) * Real.log ((y.count c : ℝ) / (y.length : ℝ)) -
      (y.count c : ℝ) / (y.length : ℝ) * Real.log (y.toFinset.card) ≤ 1 / (y.toFinset.card : ℝ) - (y.count c : ℝ) / (y.length : ℝ) ∧
      (-((y.count c : ℝ) / (y.length : ℝ)) * Real.log ((y.count c : ℝ) / (y.length : ℝ)) -
        (y.count c : ℝ) / (y.length : ℝ) * Real.log (y.toFinset.card) = 1 / (y.toFinset.card : ℝ) - (y.count c : ℝ) / (y.length : ℝ) ↔
        (y.count c : ℝ) / (y.length : ℝ) = 1 / (y.toFinset.card : ℝ)) := by
    intro c hc
    have h1 := freq_pos y hy ℝ c hc
    generalize (y.count c : ℝ) / (y.length : ℝ) = p at *
    generalize (y.toFinset.card : ℝ) = k at *
    have e : -p * Real.log p - p * Real.log k = p * Real.log (1 / (k * p)) := by
      rw [Real.log_div one_ne_zero (by positivity), Real.log_mul hk.ne' h1.ne', Real.log_one]; ring
    have e2 : 1 / k - p = p * (1 / (k * p) - 1) := by field_simp
    rw [e, e2]
    refine ⟨mul_le_mul_of_nonneg_left (Real.log_le_sub_one_of_pos (by positivity)) h1.le, ?_⟩
    rw [mul_right_inj' h1.ne']
    constructor
    · intro h
      by_contra hne
      have : 1 / (k * p) ≠ 1 := by
        intro h1'
        rw [div_eq_one_iff_eq (by positivity)] at h1'
        apply hne; rw [eq_div_iff hk.ne', mul_comm]; exact h1'.symm
      exact absurd h (ne_of_lt (Real.log_lt_sub_one_of_pos (by positivity) this))
    · intro h
      have : k * p = 1 := by rw [h]; field_simp
      rw [this]; simp
  have e1 : Real.log 2 * (entropy y - Real.logb 2 (y.toFinset.card)) =
      ∑ c ∈ y.toFinset, (-((y.count c : ℝ) / (y.length : ℝ)) * Real.log ((y.count c : ℝ) / (y.length : ℝ)) -
      (y.count c : ℝ) / (y.length : ℝ) * Real.log (y.toFinset.card)) := by
    rw [sum_sub_distrib, ← sum_mul, hs, hg, Real.logb]; field_simp
  have e0 : ∑ c ∈ y.toFinset, (1 / (y.toFinset.card : ℝ) - (y.count c : ℝ) / (y.length : ℝ)) = 0 := by
    rw [sum_sub_distrib, hs, sum_const, nsmul_eq_mul]; field_simp; ring
  refine ⟨by rw [hg]; exact div_nonneg (sum_nonneg hnn) hl2.le, ?_, ?_, ?_⟩
  · rw [hg, div_eq_zero_iff, or_iff_left hl2.ne', sum_eq_zero_iff_of_nonneg hnn, pure_iff_freq y hy ℝ]
    refine forall₂_congr fun c hc => ?_
    have h1 := freq_pos y hy ℝ c hc
    rw [mul_eq_zero, neg_eq_zero, or_iff_right h1.ne']
    constructor
    · intro h
      rcases Real.log_eq_zero.1 h with h | h | h
      · exact absurd h h1.ne'
      · exact h
      · linarith
    · intro h; rw [h]; simp
  · have := sum_le_sum fun c hc => (hcell c hc).1
    rw [e0, ← e1] at this
    have := nonpos_of_mul_nonpos_right this hl2
    linarith
  · rw [balanced_iff_freq y hy ℝ, ← sub_eq_zero, ← mul_right_inj' hl2.ne', mul_zero, e1, ← e0,
      sum_eq_sum_iff_of_le fun c hc => (hcell c hc).1]
    exact forall₂_congr fun c hc => (hcell c hc).2

end C122

/-! ## C123: splitting never increases the impurity -/

section C123
variable {V : Type u} {K : Type w} [DecidableEq V] [Field K] [LinearOrder K] [IsStrictOrderedRing K]

/-- C123: splitting by the values of an attribute never increases the Gini index, and leaves it unchanged exactly when the
attribute is independent of the label. -/
theorem C123_gini_values (D : List V) (y : List Int) (h : D.length = y.length) (hy : y ≠ []) :
    discValue (gini (K := K)) D y ≤ gini y ∧ (discValue (gini (K := K)) D y = gini y ↔ Independent D y) := by
  have hP : D.zip y ≠ [] := by
    intro h0
    have := congrArg List.length h0
    rw [List.length_zip, h] at this
    simp at this; exact hy this
  obtain ⟨hn, hv, hnv, hnc, hnn⟩ := table (D.zip y) hP K
  have e2 : (D.zip y).map Prod.snd = y := List.map_snd_zip (by omega)
  have hd := discValue_eq (gini (K := K)) D y h
  have hd' : discValue (gini (K := K)) D y = ∑ v ∈ ((D.zip y).map Prod.fst).toFinset,
      ((group (D.zip y) v).length : K) / (((D.zip y).map Prod.snd).length : K) *
        (1 - ∑ c ∈ ((D.zip y).map Prod.snd).toFinset, (((group (D.zip y) v).count c : K) / ((group (D.zip y) v).length : K)) ^ 2) := by
    rw [hd]
    exact sum_congr rfl fun v _ => by rw [gini_eq _ _ (group_subset (D.zip y) v)]
  have hg : gini (K := K) y = 1 - ∑ c ∈ ((D.zip y).map Prod.snd).toFinset,
      ((((D.zip y).map Prod.snd).count c : K) / (((D.zip y).map Prod.snd).length : K)) ^ 2 := by
    rw [gini_eq (K := K) y ((D.zip y).map Prod.snd).toFinset fun a ha => List.mem_toFinset.2 (by rw [e2]; exact ha), e2]
  have hgap := gini_gap _ _ (fun v c => ((group (D.zip y) v).count c : K)) _ _ _ hn hv hnv hnc hnn
  rw [← hg, ← hd'] at hgap
  have hnn' : ∀ v ∈ ((D.zip y).map Prod.fst).toFinset, 0 ≤ ∑ c ∈ ((D.zip y).map Prod.snd).toFinset,
      ((group (D.zip y) v).length : K) / (((D.zip y).map Prod.snd).length : K) *
      (((group (D.zip y) v).count c : K) / ((group (D.zip y) v).length : K) -
        (((D.zip y).map Prod.snd).count c : K) / (((D.zip y).map Prod.snd).length : K)) ^ 2 := fun v hv' =>
    sum_nonneg fun c _ => mul_nonneg (div_nonneg (hv v hv').le hn.le) (sq_nonneg _)
  refine ⟨?_, ?_⟩
  · have := sum_nonneg hnn'
    rw [← hgap] at this; linarith
  · rw [eq_comm, ← sub_eq_zero, hgap, sum_eq_zero_iff_of_nonneg hnn', independent_iff D y h]
    refine forall₂_congr fun v hv' => ?_
    rw [sum_eq_zero_iff_of_nonneg fun c _ => mul_nonneg (div_nonneg (hv v hv').le hn.le) (sq_nonneg _)]
    refine forall₂_congr fun c hc => ?_
    rw [mul_eq_zero, or_iff_right (div_pos (hv v hv') hn).ne', pow_eq_zero_iff two_ne_zero, sub_eq_zero,
      div_eq_div_iff (hv v hv').ne' hn.ne']
    constructor
    · intro h'; have : (((group (D.zip y) v).count c * ((D.zip y).map Prod.snd).length : ℕ) : K) =
        ((((D.zip y).map Prod.snd).count c * (group (D.zip y) v).length : ℕ) : K) := by push_cast; exact h'
      rw [Nat.cast_inj] at this; rw [this]; ring
    · intro h'
      have : (((group (D.zip y) v).count c * ((D.zip y).map Prod.snd).length : ℕ) : K) =
        (((group (D.zip y) v).length * ((D.zip y).map Prod.snd).count c : ℕ) : K) := by rw [h']
      push_cast at this; rw [this]; ring

/-- C123: the same for the entropy. -/
theorem C123_entropy_values (D : List V) (y : List Int) (h : D.length = y.length) (hy : y ≠ []) :
    discValue entropy D y ≤ entropy y ∧ (discValue entropy D y = entropy y ↔ Independent D y) := by
  have hP : D.zip y ≠ [] := by
    intro h0
    have := congrArg List.length h0
    rw [List.length_zip, h] at this
    simp at this; exact hy this
  have hl2 : 0 < Real.log 2 := Real.log_pos (by norm_num)
  obtain ⟨hn, hv, hnv, hnc, hnn⟩ := table (D.zip y) hP ℝ
  have e2 : (D.zip y).map Prod.snd = y := List.map_snd_zip (by omega)
  have hd := discValue_eq entropy D y h
  have hd' : discValue entropy D y = (∑ v ∈ ((D.zip y).map Prod.fst).toFinset,
      ((group (D.zip y) v).length : ℝ) / (((D.zip y).map Prod.snd).length : ℝ) *
        (∑ c ∈ ((D.zip y).map Prod.snd).toFinset, -(((group (D.zip y) v).count c : ℝ) / ((group (D.zip y) v).length : ℝ)) *
          Real.log (((group (D.zip y) v).count c : ℝ) / ((group (D.zip y) v).length : ℝ)))) / Real.log 2 := by
    rw [hd, sum_div]
    exact sum_congr rfl fun v _ => by rw [entropy_eq _ _ (group_subset (D.zip y) v), mul_div_assoc]
  have hg : entropy y = (∑ c ∈ ((D.zip y).map Prod.snd).toFinset,
      -((((D.zip y).map Prod.snd).count c : ℝ) / (((D.zip y).map Prod.snd).length : ℝ)) *
      Real.log ((((D.zip y).map Prod.snd).count c : ℝ) / (((D.zip y).map Prod.snd).length : ℝ))) / Real.log 2 := by
    rw [entropy_eq y ((D.zip y).map Prod.snd).toFinset fun a ha => List.mem_toFinset.2 (by rw [e2]; exact ha), e2]
  obtain ⟨h1, h2⟩ := entropy_gap _ _ (fun v c => ((group (D.zip y) v).count c : ℝ)) _ _ _ hn
    (fun v _ c _ => Nat.cast_nonneg _) hv hnv hnc hnn
  rw [hd', hg]
  refine ⟨div_le_div_of_nonneg_right h1 hl2.le, ?_⟩
  rw [div_left_inj' hl2.ne', h2, independent_iff D y h]
  refine forall₂_congr fun v _ => forall₂_congr fun c _ => ?_
  constructor <;> intro h' <;> exact_mod_cast h'

/-- A split at a point is a split by the values of the test. -/
theorem contValue_eq (imp : List Int → K) (D : List K) (y : List Int) (t : K) (h : D.length = y.length) :
    contValue imp D y t = discValue imp (D.map fun v => decide (t ≤ v)) y := by
  have hz : (D.map fun v => decide (t ≤ v)).zip y = (D.zip y).map fun p => (decide (t ≤ p.1), p.2) := by
    rw [List.zip_map_left]; rfl
  have hgrp : ∀ b : Bool, group ((D.map fun v => decide (t ≤ v)).zip y) b =
      ((D.zip y).filter fun p => b = decide (t ≤ p.1)).map Prod.snd := by
    intro b
    unfold group
    rw [hz, List.filter_map, List.map_map]; rfl
  rw [discValue_eq imp _ y (by simpa using h)]
  have e2 : ((D.map fun v => decide (t ≤ v)).zip y).map Prod.snd = y := List.map_snd_zip (by simp; omega)
  rw [e2]
  have hsub : ∑ v ∈ ((((D.map fun v => decide (t ≤ v)).zip y).map Prod.fst).toFinset),
      ((group ((D.map fun v => decide (t ≤ v)).zip y) v).length : K) / (y.length : K) * imp (group ((D.map fun v => decide (t ≤ v)).zip y) v) =
      ∑ v : Bool, ((group ((D.map fun v => decide (t ≤ v)).zip y) v).length : K) / (y.length : K) *
        imp (group ((D.map fun v => decide (t ≤ v)).zip y) v) := by
    refine sum_subset (subset_univ _) fun b _ hb => ?_
    have : group ((D.map fun v => decide (t ≤ v)).zip y) b = [] := by
      unfold group
      rw [List.map_eq_nil_iff, List.filter_eq_nil_iff]
      intro p hp hpb
      simp only [decide_eq_true_eq] at hpb
      apply hb
      rw [List.mem_toFinset, hpb]
      exact List.mem_map.2 ⟨p, hp, rfl⟩
    rw [this]; simp
  rw [hsub, Fintype.sum_bool, hgrp, hgrp]
  unfold contValue
  have f1 : ((D.zip y).filter fun p => decide (true = decide (t ≤ p.1))) = (D.zip y).filter fun p => t ≤ p.1 :=
    List.filter_congr fun p _ => by simp
  have f2 : ((D.zip y).filter fun p => decide (false = decide (t ≤ p.1))) = (D.zip y).filter fun p => p.1 < t :=
    List.filter_congr fun p _ => by simp
  rw [f1, f2]

/-- C123: splitting a numerical attribute at any point never increases the Gini index, and leaves it unchanged exactly when the
outcome of the test is independent of the label. -/
theorem C123_gini_point (D : List K) (y : List Int) (t : K) (h : D.length = y.length) (hy : y ≠ []) :
    contValue (gini (K := K)) D y t ≤ gini y ∧
      (contValue (gini (K := K)) D y t = gini y ↔ Independent (D.map fun v => decide (t ≤ v)) y) := by
  rw [contValue_eq _ _ _ _ h]
  exact C123_gini_values _ y (by simpa using h) hy

/-- C123: the same for the entropy. -/
theorem C123_entropy_point (D : List ℝ) (y : List Int) (t : ℝ) (h : D.length = y.length) (hy : y ≠ []) :
    contValue entropy D y t ≤ entropy y ∧
      (contValue entropy D y t = entropy y ↔ Independent (D.map fun v => decide (t ≤ v)) y) := by
  rw [contValue_eq _ _ _ _ h]
  exact C123_entropy_values _ y (by simpa using h) hy

/-- C123: the information gain of the chosen attribute is a number, and it is not negative. -/
theorem C123_gain_nonneg {m : Nat} (num : V → ℝ) (isCont : List V → Bool) (cols : List (Fin m)) (xs : List (Row V m))
    (ys : List Int) (h : xs.length = ys.length) (hy : ys ≠ []) (a : Fin m) (g : WithBot ℝ) (p : Option (Option ℝ))
    (hd : gainDivision entropy num isCont cols xs ys = (some a, g, p)) : ∃ r : ℝ, g = (r : WithBot ℝ) ∧ 0 ≤ r := by
  rcases maxLoop_spec (fun a => let D := xs.map fun r : Row V m => r a; let r := getValue entropy num (isCont D) D ys;
      (gainOf (entropy ys) r.1, r.2)) cols (none, ⊥, none) with ⟨h1, h2⟩ | ⟨pre, b, post, hl, h1, h2, h3, h4⟩
  · unfold gainDivision at hd
    simp only at hd h1
    rw [h1] at hd
    simp at hd
  · unfold gainDivision at hd
    simp only at hd h1 h2
    rw [h1] at hd
    simp only [Prod.mk.injEq, Option.some.injEq] at hd
    obtain ⟨rfl, rfl, _⟩ := hd
    rcases getValue_cand entropy num isCont xs ys b with ⟨h, _⟩ | ⟨p, hp1, hp2, hp3, hp4⟩
    · rw [h] at h2; exact absurd h2 (lt_irrefl _)
    · rw [hp2]
      refine ⟨_, rfl, ?_⟩
      rw [sub_nonneg]
      cases p with
      | some t =>
        have := (C123_entropy_point ((xs.map fun r => r b).map num) ys t (by simp [h]) hy).1
        refine le_trans (le_of_eq ?_) this
        simp [candCost, splitAt, partitionCost, labelsWhere, contValue]
      | none =>
        have := (C123_entropy_values (xs.map fun r => r b) ys (by simp [h]) hy).1
        refine le_trans (le_of_eq ?_) this
        simp only [candCost, partitionCost, discValue, List.map_map]
        have hperm : (xs.map fun r => r b).dedup.Perm (pyUnique (xs.map fun r => r b)) := by
          rw [List.perm_ext_iff_of_nodup (List.nodup_dedup _) (nodup_pyUnique _)]
          intro v; rw [mem_pyUnique, List.mem_dedup]
        exact (hperm.map _).sum_eq

example : Independent [0, 0, 1, 1] [5, 6, 5, 6] ∧ ¬ Independent [0, 0, 1, 1] [5, 5, 6, 6] := by
  constructor
  · intro v c
    by_cases h1 : v = 0 <;> by_cases h2 : v = 1 <;> by_cases h3 : c = 5 <;> by_cases h4 : c = 6 <;>
      simp_all [List.count_cons, eq_comm]
  · intro h; have := h 0 5; simp at this

example : discValue (gini (K := ℚ)) [0, 0, 1, 1] [5, 5, 6, 6] = 0 ∧ gini (K := ℚ) [5, 5, 6, 6] = 1 / 2 := by decide +kernel

end C123

end CML.DTree
