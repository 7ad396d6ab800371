import Verif.Lemmas.Ops
import Verif.Lemmas.Sym
import Mathlib.Algebra.BigOperators.Ring.Finset
import Mathlib.Algebra.BigOperators.Fin
import Mathlib.Data.Fintype.BigOperators
import Mathlib.Data.Fintype.Pi
import Mathlib.Analysis.SpecialFunctions.Complex.LogBounds
import Mathlib.Tactic.FieldSimp

set_option linter.unusedSectionVars false

/-!
# Property C300: bootstrap samples on average

`np.random.choice(np.arange(n), n)` (ops.py:46-47) may return any of the `n ^ n` index arrays, all equally likely.
-/

namespace CML.Ops

variable {α β : Type*} {n : Nat}

lemma fancy_ofFn {ρ : Type*} (rows : Fin n → ρ) (f : Fin n → Fin n) :
    fancy (List.ofFn rows) ((List.ofFn f).map Fin.val) = some (List.ofFn fun k => rows (f k)) := by
  unfold fancy
  rw [List.map_ofFn]
  have := mapM_eq_some_map (fun i : Fin n => some (rows (f i))) (fun i => rows (f i)) (List.finRange n) (fun _ _ => rfl)
  rw [List.ofFn_eq_map, List.ofFn_eq_map, List.ofFn_eq_map]
  rw [← this, mapM_map_option]
  refine mapM_congr_option _ _ _ fun i _ => ?_
  simp

/-- The sample that belongs to the index array `f`. -/
lemma bootstrap_eq (rng : Option Nat → (n : Nat) → Fin n → Fin n) (seed : Option Nat) (rows : Fin n → List α) (labels : Fin n → β) (f : Fin n → Fin n)
    (h : rng seed n = f) :
    bootstrapSampling rng (.d2 (List.ofFn rows)) (some (.d1 (List.ofFn labels))) seed = .ok (List.ofFn fun k => rows (f k), some (List.ofFn fun k => [labels (f k)])) := by
  have hlen : (Arr.d2 (List.ofFn rows)).len = n := by simp [Arr.len]
  have hi : ∀ m, m = n → (List.ofFn (rng seed m)).map Fin.val = (List.ofFn f).map Fin.val := by rintro m rfl; rw [h]
  unfold bootstrapSampling
  simp only
  rw [hi _ hlen, if_neg (by simp [Arr.len])]
  simp only [Arr.rows, List.map_ofFn]
  rw [← List.map_ofFn, fancy_ofFn, fancy_ofFn]
  rfl

lemma sum_draw {K : Type*} [CommSemiring K] (h : Fin n → K) (k : Fin n) : ∑ f : Fin n → Fin n, h (f k) = (∑ i, h i) * (n : K) ^ (n - 1) := by
  have e := Finset.prod_univ_sum (fun _ : Fin n => (Finset.univ : Finset (Fin n))) (fun j i => if j = k then h i else (1 : K))
  rw [Fintype.piFinset_univ] at e
  have e1 : ∀ f : Fin n → Fin n, ∏ j, (if j = k then h (f j) else (1 : K)) = h (f k) := fun f => by
    rw [Finset.prod_ite_eq' Finset.univ k (fun j => h (f j)), if_pos (Finset.mem_univ k)]
  simp only [e1] at e
  rw [← e, ← Finset.mul_prod_erase Finset.univ _ (Finset.mem_univ k)]
  congr 1
  · simp
  · rw [Finset.prod_congr rfl (g := fun _ => (n : K)) (fun j hj => by simp [(Finset.mem_erase.1 hj).1])]
    simp

lemma sum_draws {K : Type*} [CommSemiring K] (h : Fin n → K) : ∑ f : Fin n → Fin n, ∑ k, h (f k) = (n : K) ^ n * ∑ i, h i := by
  rw [Finset.sum_comm]
  simp only [sum_draw]
  rw [Finset.sum_const, Finset.card_univ, Fintype.card_fin, nsmul_eq_mul]
  cases n with
  | zero => simp
  | succ n => rw [Nat.add_sub_cancel, pow_succ]; ring

/-- C300: the average, over all index arrays, of the total of any quantity `g` of sampled rows and labels is the total over the data: bootstrap estimates are
unbiased. `gen f` is a generator that returns the index array `f`. -/
theorem C300_unbiased {K : Type*} [CommSemiring K] (rows : Fin n → List α) (labels : Fin n → β) (seed : Option Nat)
    (gen : (Fin n → Fin n) → Option Nat → (n : Nat) → Fin n → Fin n) (hg : ∀ f, gen f seed n = f) :
    ∃ (xs : (Fin n → Fin n) → List (List α)) (ys : (Fin n → Fin n) → List (List β)),
      (∀ f, bootstrapSampling (gen f) (.d2 (List.ofFn rows)) (some (.d1 (List.ofFn labels))) seed = .ok (xs f, some (ys f))) ∧
      ∀ g : List α × List β → K, ∑ f, (((xs f).zip (ys f)).map g).sum = (n : K) ^ n * ∑ i, g (rows i, [labels i]) := by
  refine ⟨fun f => List.ofFn fun k => rows (f k), fun f => List.ofFn fun k => [labels (f k)], fun f => bootstrap_eq _ _ _ _ _ (hg f), fun g => ?_⟩
  rw [← sum_draws]
  refine Finset.sum_congr rfl fun f _ => ?_
  rw [zip_ofFn, List.map_ofFn, List.sum_ofFn]
  rfl

open Classical in
/-- C300: the number of index arrays whose sample contains none of the pairs with property `P` is `k ^ n`, where `k` pairs do not have the property. -/
theorem C300_left_out (rows : Fin n → List α) (labels : Fin n → β) (seed : Option Nat)
    (gen : (Fin n → Fin n) → Option Nat → (n : Nat) → Fin n → Fin n) (hg : ∀ f, gen f seed n = f) (P : List α → List β → Prop) :
    (Finset.univ.filter fun f => ∃ xs ys, bootstrapSampling (gen f) (.d2 (List.ofFn rows)) (some (.d1 (List.ofFn labels))) seed = .ok (xs, some ys) ∧
      ∀ p ∈ xs.zip ys, ¬ P p.1 p.2).card = (Finset.univ.filter fun i => ¬ P (rows i) [labels i]).card ^ n := by
  have e : (Finset.univ.filter fun f => ∃ xs ys, bootstrapSampling (gen f) (.d2 (List.ofFn rows)) (some (.d1 (List.ofFn labels))) seed = .ok (xs, some ys) ∧
      ∀ p ∈ xs.zip ys, ¬ P p.1 p.2) = Fintype.piFinset fun _ : Fin n => Finset.univ.filter fun i => ¬ P (rows i) [labels i] := by
    ext f
    rw [Finset.mem_filter, Fintype.mem_piFinset]
    simp only [Finset.mem_univ, true_and, Finset.mem_filter]
    rw [bootstrap_eq _ _ _ _ _ (hg f)]
    constructor
    · rintro ⟨xs, ys, h, hP⟩ k
      simp only [Except.ok.injEq, Prod.mk.injEq, Option.some.injEq] at h
      obtain ⟨rfl, rfl⟩ := h
      exact hP (rows (f k), [labels (f k)]) (by rw [zip_ofFn, List.mem_ofFn]; exact ⟨k, rfl⟩)
    · intro h
      refine ⟨_, _, rfl, fun p hp => ?_⟩
      rw [zip_ofFn, List.mem_ofFn] at hp
      obtain ⟨k, rfl⟩ := hp
      exact h k
  rw [e, Fintype.card_piFinset, Finset.prod_const, Finset.card_univ, Fintype.card_fin]

open Classical in
/-- C300: a row that occurs once is left out by a fraction `(1 - 1/n) ^ n` of the index arrays, at most `1/e`. -/
theorem C300_one_row (rows : Fin n → List α) (labels : Fin n → β) (seed : Option Nat) (i : Fin n) (hi : ∀ j, rows j = rows i → j = i)
    (gen : (Fin n → Fin n) → Option Nat → (n : Nat) → Fin n → Fin n) (hg : ∀ f, gen f seed n = f) :
    ((Finset.univ.filter fun f => ∃ xs ys, bootstrapSampling (gen f) (.d2 (List.ofFn rows)) (some (.d1 (List.ofFn labels))) seed = .ok (xs, some ys) ∧
      rows i ∉ xs).card : ℝ) / Fintype.card (Fin n → Fin n) = (1 - 1 / n) ^ n ∧ (1 - 1 / n : ℝ) ^ n ≤ Real.exp (-1) := by
  have hn : 0 < n := lt_of_le_of_lt (Nat.zero_le _) i.2
  have hn' : (0 : ℝ) < n := by exact_mod_cast hn
  have hn1 : (1 : ℝ) ≤ n := by exact_mod_cast hn
  constructor
  · have key := C300_left_out rows labels seed gen hg (fun x _ => x = rows i)
    have e : ∀ d : DecidablePred fun j => ¬ rows j = rows i, @Finset.filter _ (fun j => ¬ rows j = rows i) d Finset.univ = Finset.univ.erase i := by
      intro d
      ext j
      simp only [Finset.mem_filter, Finset.mem_univ, true_and, Finset.mem_erase, and_true]
      exact ⟨fun h e => h (e ▸ rfl), fun h e => h (hi j e)⟩
    rw [e _, Finset.card_erase_of_mem (Finset.mem_univ _), Finset.card_univ, Fintype.card_fin] at key
    have e2 : (Finset.univ.filter fun f => ∃ xs ys, bootstrapSampling (gen f) (.d2 (List.ofFn rows)) (some (.d1 (List.ofFn labels))) seed = .ok (xs, some ys) ∧
        rows i ∉ xs) = Finset.univ.filter fun f => ∃ xs ys, bootstrapSampling (gen f) (.d2 (List.ofFn rows)) (some (.d1 (List.ofFn labels))) seed = .ok (xs, some ys) ∧
        ∀ p ∈ xs.zip ys, ¬ p.1 = rows i := by
      refine Finset.filter_congr fun f _ => ?_
      rw [bootstrap_eq _ _ _ _ _ (hg f)]
      constructor <;> rintro ⟨xs, ys, h, hP⟩ <;> refine ⟨xs, ys, h, ?_⟩ <;> simp only [Except.ok.injEq, Prod.mk.injEq, Option.some.injEq] at h <;>
        obtain ⟨rfl, rfl⟩ := h
      · rintro p hp e; exact hP (e ▸ (List.of_mem_zip hp).1)
      · intro h
        obtain ⟨k, hk⟩ := List.mem_ofFn.1 h
        exact hP (rows (f k), [labels (f k)]) (by rw [zip_ofFn, List.mem_ofFn]; exact ⟨k, rfl⟩) hk
    rw [e2, key, Fintype.card_fun, Fintype.card_fin]
    push_cast [Nat.cast_sub hn]
    rw [← div_pow]
    congr 1
    field_simp
  · have h1 : (1 : ℝ) - 1 / n ≤ Real.exp (-(1 / n)) := by have := Real.add_one_le_exp (-(1 / n : ℝ)); linarith
    have h0 : (0 : ℝ) ≤ 1 - 1 / n := by rw [sub_nonneg, div_le_one hn']; exact hn1
    calc (1 - 1 / n : ℝ) ^ n ≤ Real.exp (-(1 / n)) ^ n := pow_le_pow_left₀ h0 h1 n
      _ = Real.exp (-1) := by rw [← Real.exp_nat_mul]; congr 1; field_simp

/-- C300: for large data sets that fraction tends to `1/e`. -/
theorem C300_limit : Filter.Tendsto (fun n : ℕ => (1 - 1 / n : ℝ) ^ n) Filter.atTop (nhds (Real.exp (-1))) := by
  have := Real.tendsto_one_add_div_pow_exp (-1)
  refine this.congr fun n => ?_
  rw [neg_div, sub_eq_add_neg]

/-- A generator for every index array. -/
example : ∃ gen : (Fin 3 → Fin 3) → Option Nat → (n : Nat) → Fin n → Fin n, ∀ f, gen f none 3 = f :=
  ⟨fun f _ n => if h : n = 3 then h ▸ f else id, fun f => rfl⟩

/-- Three rows, of which the second is left out by 8 of the 27 index arrays. -/
example : (Finset.univ.filter fun f : Fin 3 → Fin 3 => ∀ k, f k ≠ 1).card = 2 ^ 3 ∧ Fintype.card (Fin 3 → Fin 3) = 27 := by decide +kernel

end CML.Ops
