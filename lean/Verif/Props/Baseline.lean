import Verif.Props.Optima
import Verif.Props.GradSep
import Verif.Props.Metrics

set_option linter.unusedSectionVars false

/-! # Property C341: the best constant forecast

losses.py:36-77, 112-151, metrics.py:77-95, optimizers.py:540-600.
-/

namespace CML
open Finset

variable {n k : Nat}

/-- The loss of a constant forecast depends on the labels through their mean only. -/
lemma bce_const (y : Fin n → ℝ) (hn : 0 < n) (c : ℝ) :
    binaryCrossentropy (fun _ => c) y = binaryCrossentropy (n := 1) (fun _ => c) (fun _ => (∑ i, y i) / n) := by
  have hn' : (n : ℝ) ≠ 0 := by positivity
  simp only [binaryCrossentropy, univ_unique, ← sum_mul, sum_sub_distrib, sum_const, card_univ, Fintype.card_fin, nsmul_eq_mul, mul_one, Nat.cast_one, div_one, card_singleton]
  field_simp

/-- **C341** (binary cross-entropy): among all constant forecasts the mean of the labels - the frequency of class 1 - is the best, and the only best one. -/
theorem C341_binary (y : Fin n → ℝ) (h0 : 0 < ∑ i, y i) (h1 : ∑ i, y i < n) (c : ℝ) (hc : IsOpenProb c) :
    binaryCrossentropy (fun _ => (∑ i, y i) / n) y ≤ binaryCrossentropy (fun _ => c) y ∧
    (binaryCrossentropy (fun _ => c) y = binaryCrossentropy (fun _ => (∑ i, y i) / n) y ↔ c = (∑ i, y i) / n) := by
  have hn' : (0 : ℝ) < n := h0.trans h1
  have hn : 0 < n := by exact_mod_cast hn'
  have hm : IsOpenProb ((∑ i, y i) / n) := ⟨div_pos h0 hn', (div_lt_one hn').2 h1⟩
  rw [bce_const y hn, bce_const y hn]
  obtain ⟨a, b⟩ := C271_binary (n := 1) (fun _ => c) (fun _ => (∑ i, y i) / n) (by norm_num) (fun _ => hc) (fun _ => hm)
  exact ⟨a, b.trans ⟨fun h => congrFun h 0, fun h => by rw [h]⟩⟩

/-- **C341** (a single class): if all labels are 1 there is no best constant forecast; the closer to 1 the better, down to every positive loss. -/
theorem C341_one_class (hn : 0 < n) : (∀ c c' : ℝ, 0 < c → c < c' → binaryCrossentropy (fun _ : Fin n => c') (fun _ => 1) < binaryCrossentropy (fun _ : Fin n => c) (fun _ => 1)) ∧
    ∀ e > (0 : ℝ), ∃ c, IsOpenProb c ∧ 0 < binaryCrossentropy (fun _ : Fin n => c) (fun _ => 1) ∧ binaryCrossentropy (fun _ : Fin n => c) (fun _ => 1) = e := by
  have hn' : (n : ℝ) ≠ 0 := by positivity
  have e1 : ∀ c : ℝ, binaryCrossentropy (fun _ : Fin n => c) (fun _ => 1) = -Real.log c := by
    intro c
    rw [bce_const _ hn]
    simp [binaryCrossentropy, hn']
  refine ⟨fun c c' h0 h => by rw [e1, e1]; exact neg_lt_neg (Real.log_lt_log h0 h), fun e he => ⟨Real.exp (-e), ⟨Real.exp_pos _, Real.exp_lt_one_iff.2 (by linarith)⟩, ?_, ?_⟩⟩
  · rw [e1, Real.log_exp]; linarith
  · rw [e1, Real.log_exp]; ring

lemma cce_const (y : Fin n → Fin k → ℝ) (hn : 0 < n) (c : Fin k → ℝ) :
    categoricalCrossentropy (fun _ => c) y = categoricalCrossentropy (n := 1) (fun _ => c) (fun _ j => (∑ i, y i j) / n) := by
  have hn' : (n : ℝ) ≠ 0 := by positivity
  simp only [categoricalCrossentropy, univ_unique, sum_singleton, Nat.cast_one, div_one]
  rw [sum_comm, ← neg_div' , neg_inj, sum_div]
  exact sum_congr rfl fun j _ => by rw [← sum_mul]; field_simp

/-- **C341** (several classes): among all constant rows of probabilities the frequencies of the classes are the best, and the only best ones. -/
theorem C341_categorical (y : Fin n → Fin k → ℝ) (hn : 0 < n) (hy : ∀ i, ∑ j, y i j = 1) (h0 : ∀ j, 0 < ∑ i, y i j) (c : Fin k → ℝ) (hc : ∀ j, 0 < c j) (hc1 : ∑ j, c j = 1) :
    categoricalCrossentropy (fun _ j => (∑ i, y i j) / n) y ≤ categoricalCrossentropy (fun _ => c) y ∧
    (categoricalCrossentropy (fun _ => c) y = categoricalCrossentropy (fun _ j => (∑ i, y i j) / n) y ↔ c = fun j => (∑ i, y i j) / n) := by
  have hn' : (0 : ℝ) < n := by exact_mod_cast hn
  rw [cce_const y hn, cce_const y hn]
  have hs : ∑ j, (∑ i, y i j) / (n : ℝ) = 1 := by
    rw [← sum_div, sum_comm, sum_congr rfl fun i _ => hy i]
    simp [hn'.ne']
  obtain ⟨a, b⟩ := C271_categorical (n := 1) (fun _ => c) (fun _ j => (∑ i, y i j) / n) (by norm_num) (fun _ => hc) (fun _ => hc1) (fun _ j => div_pos (h0 j) hn') (fun _ => hs)
  exact ⟨a, b.trans ⟨fun h => congrFun h 0, fun h => by rw [h]⟩⟩

/-- **C341** (mean squared error): the loss of a constant forecast is `n/2` times its squared distance from the mean of the labels, so the mean is the only best constant; its loss is 0
whatever the spread of the labels (C59). -/
theorem C341_mean_squared_error (y : Fin n → ℝ) (hn : 0 < n) (c : ℝ) :
    meanSquaredError (fun _ => c) y = n / 2 * (c - (∑ i, y i) / n) ^ 2 ∧ (meanSquaredError (fun _ => c) y = 0 ↔ c = (∑ i, y i) / n) := by
  have hn' : (n : ℝ) ≠ 0 := by positivity
  have e : meanSquaredError (fun _ => c) y = n / 2 * (c - (∑ i, y i) / n) ^ 2 := by
    simp only [meanSquaredError, sum_sub_distrib, sum_const, card_univ, Fintype.card_fin, nsmul_eq_mul]
    field_simp
  refine ⟨e, ?_⟩
  rw [e, mul_eq_zero, or_iff_right (div_ne_zero hn' two_ne_zero), pow_eq_zero_iff two_ne_zero, sub_eq_zero]

/-- Non-vacuity of `C341_binary` and `C341_categorical`. -/
example : (0 : ℝ) < ∑ i, (![1, 0, 1] : Fin 3 → ℝ) i ∧ ∑ i, (![1, 0, 1] : Fin 3 → ℝ) i < (3 : ℕ) ∧
    (∀ i, ∑ j, (![![1, 0], ![0, 1]] : Fin 2 → Fin 2 → ℝ) i j = 1) ∧ ∀ j, 0 < ∑ i, (![![1, 0], ![0, 1]] : Fin 2 → Fin 2 → ℝ) i j := by
  refine ⟨by simp [Fin.sum_univ_succ], by simp [Fin.sum_univ_succ]; norm_num, fun i => ?_, fun j => ?_⟩
  · fin_cases i <;> norm_num [Fin.sum_univ_two]
  · fin_cases j <;> norm_num [Fin.sum_univ_two]

end CML

namespace CML.Metrics

variable {K : Type*} [Field K] [LinearOrder K] [IsStrictOrderedRing K]

/-- **C341** (accuracy): the accuracy of a constant forecast is the frequency of class 1 if it is at least 1/2, and of the other class otherwise; so the best constants are those on the side of
a most frequent class. -/
theorem C341_accuracy (y : List Int) (hne : y ≠ []) (hy : ∀ l ∈ y, l = 0 ∨ l = 1 ∨ l = -1) (c : K) :
    ∃ v, binaryAccuracy (List.replicate y.length c) y = .ok v ∧
      v = (if 1 / 2 ≤ c then (y.count 1 : K) / y.length else ((y.length - y.count 1 : Nat) : K) / y.length) := by
  obtain ⟨v, hv, hf⟩ := C56_fraction_partial (List.replicate y.length c) y (by simp) (by simpa using hne) hy
  refine ⟨v, hv, ?_⟩
  rw [hf]
  have hz : (List.replicate y.length c).zip y = y.map fun l => (c, l) := by
    clear hv hf hne hy
    induction y with
    | nil => rfl
    | cons a t ih => simp [List.replicate_succ, ih]
  rw [hz, List.length_map]
  have hl : ∀ p : K × Int → Bool, ((y.map fun l => (c, l)).filter p).length = y.countP fun l => p (c, l) := by
    intro p
    rw [← List.countP_eq_length_filter, List.countP_map]; rfl
  rw [hl]
  by_cases h : (1 : K) / 2 ≤ c
  · rw [if_pos h]
    congr 2
    exact List.countP_congr fun l _ => by simp only [h, true_iff, decide_eq_true_eq, beq_iff_eq]
  · rw [if_neg h]
    congr 2
    have : y.count 1 + y.countP (fun l => !(l == 1)) = y.length := by
      have := List.length_eq_countP_add_countP (fun l : Int => l == 1) (l := y)
      rw [List.count]
      simp only [Bool.not_eq_true] at this
      rw [this]
      congr 1
      exact List.countP_congr fun l _ => by simp
    have e2 : (y.countP fun l => decide (1 / 2 ≤ c ↔ l = 1)) = y.countP (fun l => !(l == 1)) :=
      List.countP_congr fun l _ => by simp only [h, false_iff, decide_eq_true_eq, Bool.not_eq_true', beq_eq_false_iff_ne, ne_eq]
    show (y.countP fun l => decide (1 / 2 ≤ c ↔ l = 1)) = _
    omega

example : binaryAccuracy (List.replicate 3 (1 / 5 : ℚ)) [0, 1, 0] = .ok (2 / 3) := by decide +kernel

end CML.Metrics

namespace CML.LogReg
open Finset

variable {n d : Nat}

/-- **C341** (logistic regression): whatever the features, gradient descent with a small learning rate gets at least as good as every constant forecast. -/
theorem C341_logistic_regression (x : Fin n → Fin d → ℝ) (y : Fin n → ℝ) (hy : Labels y) (lr : ℝ) (h0 : 0 < lr) (h1 : lr * ∑ i, (sqNorm (x i) + 1) ≤ 4) (beta : Fin (d + 1) → ℝ)
    (e : ℝ) (he : 0 < e) : ∃ E, ∀ t ≥ E, ∀ c, IsOpenProb c → negLogLikelihood x y (gdRun lr x y t beta) ≤ n * binaryCrossentropy (fun _ => c) y + e := by
  rcases Nat.eq_zero_or_pos n with hn | hn
  · subst hn
    exact ⟨0, fun t _ c _ => by simp [negLogLikelihood]; linarith⟩
  have hn' : (n : ℝ) ≠ 0 := by positivity
  have hlim := C238_small_rate_partial x y hy lr h0 h1 beta
  obtain ⟨E, hE⟩ := Filter.eventually_atTop.1 (hlim.eventually (gt_mem_nhds (lt_add_of_pos_right _ he)))
  refine ⟨E, fun t ht c hc => ((hE t ht).le.trans ?_)⟩
  have hbdd : BddBelow (Set.range fun b => negLogLikelihood x y b) := ⟨0, by
    rintro _ ⟨b, rfl⟩
    show 0 ≤ negLogLikelihood x y b
    rw [← C47_loss x y hy, loss_towards x y hy]; exact Finset.sum_nonneg fun i _ => (term_pos _).le⟩
  have hb := ciInf_le hbdd (Fin.snoc (fun _ => (0 : ℝ)) (Real.log (c / (1 - c))) : Fin (d + 1) → ℝ)
  have hc1 : 0 < 1 - c := by linarith [hc.2]
  have hp : ∀ i, prob (x i) (Fin.snoc (fun _ => (0 : ℝ)) (Real.log (c / (1 - c))) : Fin (d + 1) → ℝ) = c := by
    intro i
    simp only [prob, Fin.snoc_castSucc, Fin.snoc_last, mul_zero, sum_const_zero, zero_add]
    rw [Real.exp_neg, Real.exp_log (div_pos hc.1 hc1)]
    have := hc.1.ne'
    field_simp
    ring
  have he' : negLogLikelihood x y (Fin.snoc (fun _ => (0 : ℝ)) (Real.log (c / (1 - c))) : Fin (d + 1) → ℝ) = n * binaryCrossentropy (fun _ => c) y := by
    unfold negLogLikelihood binaryCrossentropy
    simp only [hp]
    rw [mul_div_cancel₀ _ hn', ← sum_add_distrib, neg_inj]
    refine sum_congr rfl fun i _ => ?_
    rcases hy i with h | h <;> simp [h]
  rw [← he']
  linarith

end CML.LogReg
