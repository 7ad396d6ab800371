import Verif.Spec.Losses
import Verif.Props.LogReg

set_option linter.unusedSectionVars false

/-! # Properties C50, C58, C59, C86, C87 (losses and activations) -/

namespace CML
open Finset

variable {n k : Nat}

/-! ## Softmax -/

theorem softmaxWith_exp (M : ℝ) (z : Fin n → Fin k → ℝ) (i : Fin n) (j : Fin k) :
    softmaxWith Real.exp M z i j = Real.exp (z i j) / ∑ l, Real.exp (z i l) := by
  unfold softmaxWith
  simp only [sub_eq_add_neg, Real.exp_add]
  rw [← Finset.sum_mul, mul_div_mul_right _ _ (Real.exp_ne_zero _)]

/-- C50: subtracting the maximum of the matrix has no effect: each entry is `exp z_ij / Σ_l exp z_il`, so that a row of the
result depends on that row of the argument only. -/
theorem C50_value (z : Fin (n + 1) → Fin (k + 1) → ℝ) (i : Fin (n + 1)) (j : Fin (k + 1)) :
    softmax z i j = Real.exp (z i j) / ∑ l, Real.exp (z i l) := softmaxWith_exp _ z i j

/-- C50: every row of the result is positive and sums to 1. -/
theorem C50_probability (z : Fin (n + 1) → Fin (k + 1) → ℝ) (i : Fin (n + 1)) :
    (∀ j, 0 < softmax z i j) ∧ ∑ j, softmax z i j = 1 := by
  have hpos : 0 < ∑ l, Real.exp (z i l) := Finset.sum_pos (fun l _ => Real.exp_pos _) ⟨0, Finset.mem_univ _⟩
  refine ⟨fun j => by rw [C50_value]; exact div_pos (Real.exp_pos _) hpos, ?_⟩
  simp only [C50_value]
  rw [← Finset.sum_div, div_self hpos.ne']

/-- C50: adding a constant to each row (a different one for each) changes nothing. -/
theorem C50_shift (z : Fin (n + 1) → Fin (k + 1) → ℝ) (c : Fin (n + 1) → ℝ) : softmax (fun i j => z i j + c i) = softmax z := by
  funext i j
  rw [C50_value, C50_value]
  simp only [Real.exp_add]
  rw [← Finset.sum_mul, mul_div_mul_right _ _ (Real.exp_ne_zero _)]

/-- C50: the order of the entries of a row is kept; with C57 the predicted class is the one of the largest logit. -/
theorem C50_order (z : Fin (n + 1) → Fin (k + 1) → ℝ) (i : Fin (n + 1)) (j l : Fin (k + 1)) :
    softmax z i j < softmax z i l ↔ z i j < z i l := by
  have hpos : 0 < ∑ l, Real.exp (z i l) := Finset.sum_pos (fun l _ => Real.exp_pos _) ⟨0, Finset.mem_univ _⟩
  rw [C50_value, C50_value, div_lt_div_iff_of_pos_right hpos, Real.exp_lt_exp]

theorem maxEntry_le (z : Fin (n + 1) → Fin (k + 1) → ℝ) (i : Fin (n + 1)) (j : Fin (k + 1)) : z i j ≤ maxEntry z :=
  Finset.le_sup' (fun p : Fin (n + 1) × Fin (k + 1) => z p.1 p.2) (Finset.mem_univ (i, j))

/-- C50: no exponential overflows: all arguments of `exp` are at most 0, one of them is 0. -/
theorem C50_no_overflow (z : Fin (n + 1) → Fin (k + 1) → ℝ) :
    (∀ i j, z i j - maxEntry z ≤ 0) ∧ ∃ i j, z i j - maxEntry z = 0 := by
  refine ⟨fun i j => by linarith [maxEntry_le z i j], ?_⟩
  obtain ⟨p, _, hp⟩ := Finset.exists_mem_eq_sup' (s := (Finset.univ : Finset (Fin (n + 1) × Fin (k + 1)))) ⟨(0, 0), Finset.mem_univ _⟩
    (fun p => z p.1 p.2)
  exact ⟨p.1, p.2, by unfold maxEntry; rw [hp]; ring⟩

/-- C86 is false: with an exponential that underflows to 0 below some bound `B` (every floating-point one does) there is a
matrix for which a whole row of exponentials is 0, so that the row of the result is `0/0 = NaN`, although each row on its own
is harmless: the maximum of the matrix is subtracted, not that of the row. -/
theorem C86_underflow (e : ℝ → ℝ) (B : ℝ) (he : ∀ t, t < B → e t = 0) :
    ∃ z : Fin 2 → Fin 2 → ℝ, (∑ l, e (z 1 l - maxEntry z) = 0) ∧
      ∀ i : Fin 2, maxEntry (fun (_ : Fin 1) j => z i j) = z i 0 ∧ z i 1 = z i 0 := by
  refine ⟨fun i _ => if i = 0 then 0 else min B 0 - 1, ?_, ?_⟩
  · refine Finset.sum_eq_zero fun l _ => he _ ?_
    have h := maxEntry_le (fun (i : Fin 2) (_ : Fin 2) => if i = 0 then (0 : ℝ) else min B 0 - 1) 0 0
    simp only [if_true] at h
    have : ((1 : Fin 2) = 0) = False := by simp
    simp only [this, if_false]
    have := min_le_left B 0
    linarith
  · intro i
    refine ⟨?_, rfl⟩
    obtain ⟨_, i', j', h⟩ := C50_no_overflow (fun (_ : Fin 1) (_ : Fin 2) => if i = 0 then (0 : ℝ) else min B 0 - 1)
    linarith

/-- C86, the part that holds: if the exponential is positive on [B, 0] and no entry lies more than `-B` below the largest one,
every row of the result is non-negative and sums to 1. -/
theorem C86_bounded_partial (e : ℝ → ℝ) (B : ℝ) (h0 : ∀ t, 0 ≤ e t) (he : ∀ t, B ≤ t → t ≤ 0 → 0 < e t)
    (z : Fin (n + 1) → Fin (k + 1) → ℝ) (hz : ∀ i j, maxEntry z + B ≤ z i j) (i : Fin (n + 1)) :
    (∀ j, 0 ≤ softmaxWith e (maxEntry z) z i j) ∧ ∑ j, softmaxWith e (maxEntry z) z i j = 1 := by
  have hpos : 0 < ∑ l, e (z i l - maxEntry z) :=
    Finset.sum_pos (fun l _ => he _ (by linarith [hz i l]) (by linarith [maxEntry_le z i l])) ⟨0, Finset.mem_univ _⟩
  refine ⟨fun j => div_nonneg (h0 _) hpos.le, ?_⟩
  unfold softmaxWith
  rw [← Finset.sum_div, div_self hpos.ne']

/-- The exact exponential meets the hypotheses of `C86_bounded_partial`. -/
example : (∀ t : ℝ, 0 ≤ Real.exp t) ∧ ∀ t : ℝ, -700 ≤ t → t ≤ 0 → 0 < Real.exp t := ⟨fun t => (Real.exp_pos t).le, fun t _ _ => Real.exp_pos t⟩

/-- C87 is false: calling `softmax` changes the caller's array, unless its largest entry is 0. -/
theorem C87_violated (z : Fin (n + 1) → Fin (k + 1) → ℝ) : (softmaxCall z).2 = z ↔ maxEntry z = 0 := by
  constructor
  · intro h
    have := congrFun (congrFun h 0) 0
    simp only [softmaxCall] at this
    linarith
  · intro h
    funext i j
    simp [softmaxCall, h]

/-- C87, the part that holds: a second call on the changed array gives the same result. -/
theorem C87_repeat_partial (z : Fin (n + 1) → Fin (k + 1) → ℝ) : (softmaxCall (softmaxCall z).2).1 = (softmaxCall z).1 := by
  have := C50_shift z (fun _ => -maxEntry z)
  simp only [← sub_eq_add_neg] at this
  exact this

/-- The largest entry of a matrix is not 0 in general. -/
example : maxEntry (fun (_ _ : Fin 1) => (1 : ℝ)) = 1 := by
  obtain ⟨_, i, j, h⟩ := C50_no_overflow (fun (_ _ : Fin 1) => (1 : ℝ))
  linarith

/-! ## Cross-entropy -/

theorem bce_eq (p y : Fin n → ℝ) :
    binaryCrossentropy p y = (∑ i, (-(y i * Real.log (p i)) - (1 - y i) * Real.log (1 - p i))) / n := by
  unfold binaryCrossentropy
  rw [Finset.sum_sub_distrib, Finset.sum_neg_distrib]
  ring

/-- C58: the binary cross-entropy of probabilities strictly between 0 and 1 and labels in [0, 1] is positive. -/
theorem C58_binary_positive (p y : Fin n → ℝ) (hn : 0 < n) (hp : ∀ i, IsOpenProb (p i)) (hy : ∀ i, 0 ≤ y i ∧ y i ≤ 1) :
    0 < binaryCrossentropy p y := by
  rw [bce_eq]
  refine div_pos ?_ (by exact_mod_cast hn)
  refine Finset.sum_pos (fun i _ => ?_) ⟨⟨0, hn⟩, Finset.mem_univ _⟩
  have h1 := Real.log_neg (hp i).1 (hp i).2
  have h2 := Real.log_neg (x := 1 - p i) (by linarith [(hp i).2]) (by linarith [(hp i).1])
  obtain ⟨a, b⟩ := hy i
  rcases lt_or_eq_of_le a with h | h
  · nlinarith [mul_pos h (neg_pos.2 h1), mul_nonneg (sub_nonneg.2 b) (neg_pos.2 h2).le]
  · rw [← h]; simp; exact h2

/-- C58: for labels 0 / 1 the binary cross-entropy is the mean of minus the logarithm of the probability of the true class. -/
theorem C58_binary_value (p y : Fin n → ℝ) (hy : ∀ i, y i = 0 ∨ y i = 1) :
    binaryCrossentropy p y = (∑ i, -Real.log (if y i = 1 then p i else 1 - p i)) / n := by
  rw [bce_eq]
  congr 1
  refine Finset.sum_congr rfl fun i _ => ?_
  rcases hy i with h | h <;> simp [h]

/-- C58: the categorical cross-entropy of one-hot labels is the mean of minus the logarithm of the probability of the true
class. -/
theorem C58_categorical_value (p y : Fin n → Fin k → ℝ) (c : Fin n → Fin k) (hc : ∀ i j, y i j = if j = c i then 1 else 0) :
    categoricalCrossentropy p y = (∑ i, -Real.log (p i (c i))) / n := by
  unfold categoricalCrossentropy
  rw [Finset.sum_neg_distrib]
  congr 2
  refine Finset.sum_congr rfl fun i _ => ?_
  simp [hc]

/-- C58: the categorical cross-entropy of probabilities in (0, 1] and one-hot labels is non-negative, and 0 exactly when every
row gives probability 1 to its class. -/
theorem C58_categorical_nonneg (p y : Fin n → Fin k → ℝ) (hn : 0 < n) (hp : ∀ i j, 0 < p i j ∧ p i j ≤ 1) (hy : ∀ i, IsOneHot (y i)) :
    0 ≤ categoricalCrossentropy p y ∧ (categoricalCrossentropy p y = 0 ↔ ∀ i j, y i j = 1 → p i j = 1) := by
  choose c hc1 hc0 using hy
  have hc : ∀ i j, y i j = if j = c i then 1 else 0 := by
    intro i j
    by_cases h : j = c i
    · simp [h, hc1]
    · simp [h, hc0 i j h]
  rw [C58_categorical_value p y c hc]
  have hnn : ∀ i ∈ (Finset.univ : Finset (Fin n)), 0 ≤ -Real.log (p i (c i)) :=
    fun i _ => neg_nonneg.2 (Real.log_nonpos (hp i _).1.le (hp i _).2)
  have hn' : (0 : ℝ) < n := by exact_mod_cast hn
  refine ⟨div_nonneg (Finset.sum_nonneg hnn) hn'.le, ?_⟩
  rw [div_eq_zero_iff, or_iff_left hn'.ne', Finset.sum_eq_zero_iff_of_nonneg hnn]
  constructor
  · intro h i j hj
    have hji : j = c i := by
      by_contra hne
      rw [hc0 i j hne] at hj
      norm_num at hj
    subst hji
    have := h i (Finset.mem_univ i)
    rw [neg_eq_zero] at this
    exact Real.eq_one_of_pos_of_log_eq_zero (hp i _).1 this
  · intro h i _
    rw [h i (c i) (hc1 i)]; simp

/-- C58: `Crossentropy` is the binary loss for one column and the categorical one otherwise. -/
theorem C58_dispatch (p y : Fin n → Fin 1 → ℝ) (p' y' : Fin n → Fin (k + 2) → ℝ) :
    crossentropy p y = binaryCrossentropy (fun i => p i 0) (fun i => y i 0) ∧ crossentropy p' y' = categoricalCrossentropy p' y' := by
  refine ⟨by simp [crossentropy], by simp [crossentropy]⟩

/-- C58: the log-likelihood loss is `n` times the binary cross-entropy of the sigmoid outputs. -/
theorem C58_log_likelihood (y z : Fin n → ℝ) (hn : 0 < n) : logLikelihoodOf y z = n * binaryCrossentropy (fun i => sigmoid (z i)) y := by
  rw [bce_eq, mul_div_cancel₀ _ (by exact_mod_cast hn.ne')]
  unfold logLikelihoodOf
  refine Finset.sum_congr rfl fun i _ => ?_
  rw [LogReg.one_sub_sigmoid]
  have h1 : Real.log (sigmoid (z i)) = z i - Real.log (1 + Real.exp (z i)) := by
    rw [LogReg.sigmoid_eq_exp, Real.log_div (Real.exp_ne_zero _) (by positivity), Real.log_exp]
  have h2 : Real.log (sigmoid (-z i)) = -Real.log (1 + Real.exp (z i)) := by
    unfold sigmoid
    rw [neg_neg, one_div, Real.log_inv]
  rw [h1, h2]; ring

/-- C58: the log-likelihood loss is positive for labels in [0, 1]. -/
theorem C58_log_likelihood_positive (y z : Fin n → ℝ) (hn : 0 < n) (hy : ∀ i, 0 ≤ y i ∧ y i ≤ 1) : 0 < logLikelihoodOf y z := by
  rw [C58_log_likelihood y z hn]
  exact mul_pos (by exact_mod_cast hn)
    (C58_binary_positive _ y hn (fun i => ⟨LogReg.sigmoid_pos _, LogReg.sigmoid_lt_one _⟩) hy)

example : 0 < 2 ∧ (∀ i : Fin 2, IsOpenProb (![1 / 4, 1 / 2] i)) ∧ ∀ i : Fin 2, (0 : ℝ) ≤ ![0, 1] i ∧ ![(0 : ℝ), 1] i ≤ 1 := by
  refine ⟨by norm_num, ?_, ?_⟩ <;> intro i <;> fin_cases i <;> simp [IsOpenProb] <;> norm_num

/-! ## Mean squared error -/

/-- C59 is false: the loss of these predictions, both wrong, is 0. -/
theorem C59_violated : meanSquaredError ![(1 : ℝ), 0] ![0, 1] = 0 ∧ (![1, 0] : Fin 2 → ℝ) ≠ ![0, 1] ∧
    halfMeanSquare ![(1 : ℝ), 0] ![0, 1] = 1 / 2 := by
  refine ⟨by norm_num [meanSquaredError], fun h => ?_, by norm_num [halfMeanSquare]⟩
  have := congrFun h 0
  norm_num at this

/-- C59 is false in general: the loss is zero exactly when the errors cancel. -/
theorem C59_zero_iff (p y : Fin n → ℝ) (hn : 0 < n) : meanSquaredError p y = 0 ↔ ∑ i, p i = ∑ i, y i := by
  unfold meanSquaredError
  have : (2 * (n : ℝ)) ≠ 0 := by positivity
  rw [div_eq_zero_iff, or_iff_left this, pow_eq_zero_iff two_ne_zero, Finset.sum_sub_distrib, sub_eq_zero]

/-- C59, the part that holds: the loss is non-negative, and it is half the squared error for a single sample. -/
theorem C59_single_sample_partial (p y : Fin n → ℝ) : 0 ≤ meanSquaredError p y ∧ (n = 1 → meanSquaredError p y = halfMeanSquare p y) := by
  refine ⟨by unfold meanSquaredError; positivity, ?_⟩
  rintro rfl
  simp [meanSquaredError, halfMeanSquare]

/-- C59: the loss exceeds the specified one at most by the factor `n` (Cauchy-Schwarz). -/
theorem C59_bound_partial (p y : Fin n → ℝ) : meanSquaredError p y ≤ n * halfMeanSquare p y := by
  unfold meanSquaredError halfMeanSquare
  rw [← mul_div_assoc]
  refine div_le_div_of_nonneg_right ?_ (by positivity)
  have := Finset.sum_mul_sq_le_sq_mul_sq (Finset.univ : Finset (Fin n)) (fun _ => (1 : ℝ)) (fun i => p i - y i)
  simpa using this

/-- C59: for predictions of shape (n, 1) and labels of shape (n,) numpy broadcasts to (n, n): the loss is `n²` times the one for
equal shapes. -/
theorem C59_broadcast (p y : Fin n → ℝ) : meanSquaredErrorBroadcast p y = n ^ 2 * meanSquaredError p y := by
  unfold meanSquaredErrorBroadcast meanSquaredError
  have : ∑ i, ∑ j, (p i - y j) = n * ∑ i, (p i - y i) := by
    simp only [Finset.sum_sub_distrib, Finset.sum_const, Finset.card_univ, Fintype.card_fin, nsmul_eq_mul]
    rw [← Finset.mul_sum]; ring
  rw [this]; ring

end CML
