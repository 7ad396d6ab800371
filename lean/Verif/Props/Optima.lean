import Verif.Props.LogReg
import Verif.Props.Losses

set_option linter.unusedSectionVars false

/-! # Properties C270, C271: optima of logistic regression, minima of the cross-entropies -/

namespace CML.LogReg
open Finset Matrix

variable {n d : Nat}

theorem sigmoid_lt_iff' (a b : ℝ) : sigmoid a < sigmoid b ↔ a < b := by
  unfold sigmoid
  rw [one_div_lt_one_div (by positivity) (by positivity), add_lt_add_iff_left, Real.exp_lt_exp, neg_lt_neg_iff]

/-- Stationary parameters give all training rows the same scores. -/
theorem stationary_scores (x : Fin n → Fin d → ℝ) (y : Fin n → ℝ) (b1 b2 : Fin (d + 1) → ℝ)
    (h1 : backward (forward x b1) y (hat x) = 0) (h2 : backward (forward x b2) y (hat x) = 0) : scores x b1 = scores x b2 := by
  have hz : ∑ i, (scores x b1 i - scores x b2 i) * (forward x b1 i - forward x b2 i) = 0 := by
    have e : ∑ j, (b1 j - b2 j) * (backward (forward x b1) y (hat x) j - backward (forward x b2) y (hat x) j) =
        ∑ i, (scores x b1 i - scores x b2 i) * (forward x b1 i - forward x b2 i) := by
      simp only [backward, scores, ← sum_sub_distrib, mul_sum, sum_mul]
      rw [sum_comm]
      exact sum_congr rfl fun i _ => sum_congr rfl fun j _ => by ring
    rw [← e, h1, h2]
    simp
  have hnn : ∀ i ∈ (univ : Finset (Fin n)), 0 ≤ (scores x b1 i - scores x b2 i) * (forward x b1 i - forward x b2 i) := by
    intro i _
    rcases lt_trichotomy (scores x b1 i) (scores x b2 i) with h | h | h
    · have := (sigmoid_lt_iff' _ _).2 h
      exact mul_nonneg_of_nonpos_of_nonpos (by linarith) (by unfold forward; linarith)
    · rw [h]; simp
    · have := (sigmoid_lt_iff' _ _).2 h
      exact mul_nonneg (by linarith) (by unfold forward; linarith)
  funext i
  have := (sum_eq_zero_iff_of_nonneg hnn).1 hz i (mem_univ i)
  rcases mul_eq_zero.1 this with h | h
  · linarith
  · by_contra hne
    rcases lt_or_gt_of_ne hne with hlt | hgt
    · have := (sigmoid_lt_iff' _ _).2 hlt; unfold forward at h; linarith
    · have := (sigmoid_lt_iff' _ _).2 hgt; unfold forward at h; linarith

theorem gd_stationary (x : Fin n → Fin d → ℝ) (y : Fin n → ℝ) (lr : ℝ) (hlr : lr ≠ 0) (beta : Fin (d + 1) → ℝ) (h : gdRun lr x y 1 beta = beta) :
    backward (forward x beta) y (hat x) = 0 := by
  funext j
  have := congrFun h j
  simp only [gdRun, gdStep] at this
  have : lr * backward (forward x beta) y (hat x) j = 0 := by linarith
  exact (mul_eq_zero.1 this).resolve_left hlr

theorem newton_stationary (x : Fin n → Fin d → ℝ) (y : Fin n → ℝ) (beta : Fin (d + 1) → ℝ) (h : newtonRun x y 1 beta = .ok beta) :
    backward (forward x beta) y (hat x) = 0 ∧ (hessian (forward x beta) (hat x)).det ≠ 0 := by
  simp only [newtonRun, newtonStep] at h
  split at h
  · simp at h
  · rename_i b' hb
    split at hb
    · simp at hb
    · rename_i hdet
      injection hb with hb
      injection h with h
      rw [h] at hb
      have hz : (hessian (forward x beta) (hat x))⁻¹ *ᵥ backward (forward x beta) y (hat x) = 0 := by
        have : beta - (hessian (forward x beta) (hat x))⁻¹ *ᵥ backward (forward x beta) y (hat x) = beta - 0 := by rw [hb, sub_zero]
        exact sub_right_injective this
      have := congrArg (fun v => hessian (forward x beta) (hat x) *ᵥ v) hz
      simp only [mulVec_zero] at this
      rw [mulVec_mulVec, mul_nonsing_inv _ (isUnit_iff_ne_zero.2 hdet), one_mulVec] at this
      exact ⟨this, hdet⟩

/-- C270: whatever the learning rates and the starts, two runs of gradient descent that came to rest answer every row of the training set with the same
probability. -/
theorem C270_gradient_descent (x : Fin n → Fin d → ℝ) (y : Fin n → ℝ) (lr lr' : ℝ) (hlr : lr ≠ 0) (hlr' : lr' ≠ 0) (b1 b2 : Fin (d + 1) → ℝ)
    (h1 : gdRun lr x y 1 b1 = b1) (h2 : gdRun lr' x y 1 b2 = b2) (i : Fin n) : forward x b1 i = forward x b2 i := by
  unfold forward
  rw [stationary_scores x y b1 b2 (gd_stationary x y lr hlr b1 h1) (gd_stationary x y lr' hlr' b2 h2)]

/-- C270: if both optimisers came to rest, they found the same parameters. -/
theorem C270_same_parameters (x : Fin n → Fin d → ℝ) (y : Fin n → ℝ) (lr : ℝ) (hlr : lr ≠ 0) (b1 b2 : Fin (d + 1) → ℝ)
    (h1 : gdRun lr x y 1 b1 = b1 ∨ newtonRun x y 1 b1 = .ok b1) (h2 : newtonRun x y 1 b2 = .ok b2) : b1 = b2 := by
  have hs1 : backward (forward x b1) y (hat x) = 0 := h1.elim (gd_stationary x y lr hlr b1) fun h => (newton_stationary x y b1 h).1
  obtain ⟨hs2, hdet⟩ := newton_stationary x y b2 h2
  have hs := stationary_scores x y b1 b2 hs1 hs2
  by_contra hne
  have hv : b1 - b2 ≠ 0 := sub_ne_zero.2 hne
  have := C84_newton_collinear x y b2 0 (b1 - b2) hv fun i => by
    have := congrFun hs i
    rw [scores_eq, scores_eq] at this
    simp only [Pi.sub_apply, mul_sub, sum_sub_distrib]
    linarith
  rw [h2] at this
  cases this

/-- Parameters at rest: two samples with the same features and different labels, one more with the mirrored features and different labels. -/
example : gdRun 1 ![![1], ![1], ![-1], ![-1]] ![0, 1, 0, 1] 1 (0 : Fin 2 → ℝ) = 0 := by
  funext j
  simp only [gdRun, gdStep, backward, forward, scores]
  fin_cases j <;> simp [Fin.sum_univ_succ, hat, sigmoid, Fin.snoc] <;> norm_num

/-- …and Newton's method rests there too: its hypothesis is met. -/
example : newtonRun ![![1], ![1], ![-1], ![-1]] ![0, 1, 0, 1] 1 (0 : Fin 2 → ℝ) = .ok 0 := by
  have hf : forward ![![1], ![1], ![-1], ![-1]] (0 : Fin 2 → ℝ) = fun _ => 1 / 2 := by
    funext i; simp [forward, scores, sigmoid]; norm_num
  have hb : backward (fun _ => 1 / 2) ![0, 1, 0, 1] (hat ![![1], ![1], ![-1], ![-1]]) = (0 : Fin 2 → ℝ) := by
    funext j
    fin_cases j <;> simp [backward, Fin.sum_univ_succ, hat, Fin.snoc] <;> norm_num
  have hd : (hessian (fun _ => 1 / 2) (hat ![![1], ![1], ![-1], ![-1]]) : Matrix (Fin 2) (Fin 2) ℝ).det ≠ 0 := by
    rw [Matrix.det_fin_two]
    simp [hessian, Matrix.mul_apply, Fin.sum_univ_succ, hat, Fin.snoc, Matrix.one_apply]
    norm_num
  simp only [newtonRun, newtonStep, hf, hb, if_neg hd, mulVec_zero, sub_zero]

end CML.LogReg

namespace CML
open Finset

variable {n k : Nat}

theorem gibbs_term (y p : ℝ) (hy : 0 < y) (hp : 0 < p) : y * Real.log p ≤ y * Real.log y + (p - y) ∧ (y * Real.log p = y * Real.log y + (p - y) → p = y) := by
  have hq : 0 < p / y := div_pos hp hy
  have hl : Real.log p = Real.log y + Real.log (p / y) := by rw [Real.log_div hp.ne' hy.ne']; ring
  have e : y * (p / y - 1) = p - y := by field_simp
  constructor
  · rw [hl, mul_add, ← e]
    exact add_le_add_right (mul_le_mul_of_nonneg_left (Real.log_le_sub_one_of_pos hq) hy.le) _
  · intro h
    by_contra hne
    have hq1 : p / y ≠ 1 := fun h => hne ((div_eq_one_iff_eq hy.ne').1 h)
    have := Real.log_lt_sub_one_of_pos hq hq1
    have := mul_lt_mul_of_pos_left this hy
    rw [e] at this
    rw [hl, mul_add] at h
    linarith

/-- C271 (binary): among all predictions, the true probabilities have the smallest loss, and only they have it. -/
theorem C271_binary (p y : Fin n → ℝ) (hn : 0 < n) (hp : ∀ i, IsOpenProb (p i)) (hy : ∀ i, IsOpenProb (y i)) :
    binaryCrossentropy y y ≤ binaryCrossentropy p y ∧ (binaryCrossentropy p y = binaryCrossentropy y y ↔ p = y) := by
  have hn' : (0 : ℝ) < n := by exact_mod_cast hn
  have ht : ∀ i ∈ (univ : Finset (Fin n)), y i * Real.log (p i) + (1 - y i) * Real.log (1 - p i) ≤ y i * Real.log (y i) + (1 - y i) * Real.log (1 - y i) := by
    intro i _
    have h1 := (gibbs_term (y i) (p i) (hy i).1 (hp i).1).1
    have h2 := (gibbs_term (1 - y i) (1 - p i) (by linarith [(hy i).2]) (by linarith [(hp i).2])).1
    linarith
  have e : ∀ q : Fin n → ℝ, binaryCrossentropy q y = -(∑ i, (y i * Real.log (q i) + (1 - y i) * Real.log (1 - q i))) / n := by
    intro q; unfold binaryCrossentropy; rw [sum_add_distrib]
  refine ⟨?_, ?_, fun h => by rw [h]⟩
  · rw [e, e]
    exact div_le_div_of_nonneg_right (neg_le_neg (sum_le_sum ht)) hn'.le
  · intro h
    rw [e, e, div_left_inj' hn'.ne', neg_inj] at h
    have := (sum_eq_sum_iff_of_le ht).1 h
    funext i
    have hi := this i (mem_univ i)
    have h1 := gibbs_term (y i) (p i) (hy i).1 (hp i).1
    have h2 := (gibbs_term (1 - y i) (1 - p i) (by linarith [(hy i).2]) (by linarith [(hp i).2])).1
    exact h1.2 (by linarith [h1.1])

/-- C271 (several classes): among all probability rows, the true class probabilities have the smallest loss, and only they have it. -/
theorem C271_categorical (p y : Fin n → Fin k → ℝ) (hn : 0 < n) (hp : ∀ i j, 0 < p i j) (hp1 : ∀ i, ∑ j, p i j = 1) (hy : ∀ i j, 0 < y i j)
    (hy1 : ∀ i, ∑ j, y i j = 1) :
    categoricalCrossentropy y y ≤ categoricalCrossentropy p y ∧ (categoricalCrossentropy p y = categoricalCrossentropy y y ↔ p = y) := by
  have hn' : (0 : ℝ) < n := by exact_mod_cast hn
  have hz : ∀ i, ∑ j, (p i j - y i j) = 0 := fun i => by rw [sum_sub_distrib, hp1, hy1, sub_self]
  have ht : ∀ i ∈ (univ : Finset (Fin n)), ∑ j, y i j * Real.log (p i j) ≤ ∑ j, y i j * Real.log (y i j) := by
    intro i _
    have := sum_le_sum fun (j : Fin k) (_ : j ∈ univ) => (gibbs_term (y i j) (p i j) (hy i j) (hp i j)).1
    rw [sum_add_distrib, hz, add_zero] at this
    exact this
  refine ⟨div_le_div_of_nonneg_right (neg_le_neg (sum_le_sum ht)) hn'.le, ?_, fun h => by rw [h]⟩
  intro h
  unfold categoricalCrossentropy at h
  rw [div_left_inj' hn'.ne', neg_inj] at h
  have := (sum_eq_sum_iff_of_le ht).1 h
  funext i j
  have hi := this i (mem_univ i)
  have hle := fun (j : Fin k) (_ : j ∈ univ) => (gibbs_term (y i j) (p i j) (hy i j) (hp i j)).1
  have hs : ∑ j, y i j * Real.log (p i j) = ∑ j, (y i j * Real.log (y i j) + (p i j - y i j)) := by rw [sum_add_distrib, hz, add_zero, hi]
  exact (gibbs_term _ _ (hy i j) (hp i j)).2 ((sum_eq_sum_iff_of_le hle).1 hs j (mem_univ j))

/-- Hard labels: the loss comes as close to 0 as the probability of the true class comes to 1, and smaller is exactly more probable. -/
theorem C271_hard_labels (p q y : Fin 1 → ℝ) (hp : IsOpenProb (p 0)) (hq : IsOpenProb (q 0)) :
    (y 0 = 1 → (binaryCrossentropy p y < binaryCrossentropy q y ↔ q 0 < p 0)) ∧ (y 0 = 0 → (binaryCrossentropy p y < binaryCrossentropy q y ↔ p 0 < q 0)) := by
  constructor
  · intro h
    simp only [binaryCrossentropy, univ_unique, Fin.default_eq_zero, sum_singleton, h]
    simp only [one_mul, sub_self, zero_mul, add_zero, Nat.cast_one, div_one, neg_lt_neg_iff]
    exact Real.log_lt_log_iff hq.1 hp.1
  · intro h
    simp only [binaryCrossentropy, univ_unique, Fin.default_eq_zero, sum_singleton, h]
    simp only [zero_mul, sub_zero, one_mul, zero_add, Nat.cast_one, div_one, neg_lt_neg_iff]
    rw [Real.log_lt_log_iff (by linarith [hq.2]) (by linarith [hp.2])]
    constructor <;> intro h <;> linarith

example : IsOpenProb (1 / 3) ∧ (∑ j, (![1 / 3, 2 / 3] : Fin 2 → ℝ) j = 1) := by
  refine ⟨⟨by norm_num, by norm_num⟩, ?_⟩
  simp [Fin.sum_univ_two]; norm_num

end CML
