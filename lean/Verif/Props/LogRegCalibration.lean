import Verif.Props.LogReg
import Mathlib.Topology.Algebra.InfiniteSum.Real
import Mathlib.Analysis.SpecificLimits.Basic

set_option linter.unusedSectionVars false

/-! # Property C252 (calibration of logistic regression) -/

namespace CML.LogReg
open Finset

variable {n d : Nat}

theorem grad_feature (x : Fin n → Fin d → ℝ) (y : Fin n → ℝ) (beta : Fin (d + 1) → ℝ) (j : Fin d) :
    backward (forward x beta) y (hat x) j.castSucc = ∑ i, x i j * prob (x i) beta - ∑ i, x i j * y i := by
  unfold backward
  rw [← sum_sub_distrib]
  refine sum_congr rfl fun i _ => ?_
  rw [forward_eq]
  simp only [hat, Fin.snoc_castSucc]
  ring

theorem grad_bias (x : Fin n → Fin d → ℝ) (y : Fin n → ℝ) (beta : Fin (d + 1) → ℝ) :
    backward (forward x beta) y (hat x) (Fin.last d) = ∑ i, prob (x i) beta - ∑ i, y i := by
  unfold backward
  rw [← sum_sub_distrib]
  refine sum_congr rfl fun i _ => ?_
  rw [forward_eq]
  simp only [hat, Fin.snoc_last]
  ring

theorem grad_zero_iff (x : Fin n → Fin d → ℝ) (y : Fin n → ℝ) (beta : Fin (d + 1) → ℝ) :
    backward (forward x beta) y (hat x) = 0 ↔ ∑ i, prob (x i) beta = ∑ i, y i ∧ ∀ j : Fin d, ∑ i, x i j * prob (x i) beta = ∑ i, x i j * y i := by
  constructor
  · intro h
    refine ⟨?_, fun j => ?_⟩
    · rw [← sub_eq_zero, ← grad_bias, h]; rfl
    · rw [← sub_eq_zero, ← grad_feature, h]; rfl
  · rintro ⟨h1, h2⟩
    funext j
    refine Fin.lastCases ?_ (fun j => ?_) j
    · rw [grad_bias, h1, sub_self]; rfl
    · rw [grad_feature, h2, sub_self]; rfl

/-- **C252**, gradient descent at rest: an epoch leaves the parameters unchanged exactly if the predicted probabilities add up to the number of positive samples, and for
every feature they add up, weighted by the feature, to the sum of the feature over the positive samples. -/
theorem C252_gd_at_rest (x : Fin n → Fin d → ℝ) (y : Fin n → ℝ) (lr : ℝ) (hlr : lr ≠ 0) (beta : Fin (d + 1) → ℝ) :
    gdRun lr x y 1 beta = beta ↔ ∑ i, prob (x i) beta = ∑ i, y i ∧ ∀ j : Fin d, ∑ i, x i j * prob (x i) beta = ∑ i, x i j * y i := by
  rw [← grad_zero_iff]
  constructor
  · intro h
    funext j
    have := congrFun h j
    simp only [gdRun, gdStep] at this
    have : lr * backward (forward x beta) y (hat x) j = 0 := by linarith
    exact (mul_eq_zero.1 this).resolve_left hlr
  · intro h
    funext j
    simp only [gdRun, gdStep, h, Pi.zero_apply, mul_zero, sub_zero]

/-- **C252**, Newton's method at rest. -/
theorem C252_newton_at_rest (x : Fin n → Fin d → ℝ) (y : Fin n → ℝ) (beta : Fin (d + 1) → ℝ) (h : newtonRun x y 1 beta = .ok beta) :
    ∑ i, prob (x i) beta = ∑ i, y i ∧ ∀ j : Fin d, ∑ i, x i j * prob (x i) beta = ∑ i, x i j * y i := by
  rw [← grad_zero_iff]
  simp only [newtonRun, newtonStep] at h
  split at h
  · simp at h
  · rename_i b' hb
    split at hb
    · simp at hb
    · rename_i hdet
      injection hb with hb
      injection h with h
      rw [h] at hb
      have hz : (hessian (forward x beta) (hat x))⁻¹.mulVec (backward (forward x beta) y (hat x)) = 0 := by
        have : beta - (hessian (forward x beta) (hat x))⁻¹.mulVec (backward (forward x beta) y (hat x)) = beta - 0 := by rw [hb, sub_zero]
        exact sub_right_injective this
      have := congrArg (fun v => (hessian (forward x beta) (hat x)).mulVec v) hz
      simp only [Matrix.mulVec_zero] at this
      rw [Matrix.mulVec_mulVec, Matrix.mul_nonsing_inv _ (isUnit_iff_ne_zero.2 hdet), Matrix.one_mulVec] at this
      exact this

/-- **C252**, on the way, for every learning rate: over `e` epochs the excess of the predicted probabilities over the number of positive samples adds up to the change of
the bias divided by the learning rate. -/
theorem C252_average (x : Fin n → Fin d → ℝ) (y : Fin n → ℝ) (lr : ℝ) (hlr : lr ≠ 0) (beta : Fin (d + 1) → ℝ) (e : Nat) :
    ∑ t ∈ range e, (∑ i, prob (x i) (gdRun lr x y t beta) - ∑ i, y i) = (beta (Fin.last d) - gdRun lr x y e beta (Fin.last d)) / lr := by
  induction e with
  | zero => simp [gdRun]
  | succ e ih =>
    rw [sum_range_succ, ih, gdRun_succ, ← grad_bias]
    simp only [gdStep]
    field_simp
    ring

theorem sum_grad (x : Fin n → Fin d → ℝ) (y : Fin n → ℝ) (lr : ℝ) (h0 : 0 < lr) (h1 : lr * ∑ i, (sqNorm (x i) + 1) ≤ 4) (beta : Fin (d + 1) → ℝ) (e : Nat) :
    lr / 2 * ∑ t ∈ range e, sqNorm (backward (forward x (gdRun lr x y t beta)) y (hat x)) ≤ loss x y beta - loss x y (gdRun lr x y e beta) := by
  induction e with
  | zero => simp [gdRun]
  | succ e ih =>
    rw [sum_range_succ, gdRun_succ, mul_add]
    have := descent x y lr h0.le h1 (gdRun lr x y e beta)
    linarith

theorem loss_nonneg (x : Fin n → Fin d → ℝ) (y : Fin n → ℝ) (hy : Labels y) (beta : Fin (d + 1) → ℝ) : 0 ≤ loss x y beta := by
  rw [C47_loss x y hy]
  unfold negLogLikelihood
  rw [neg_nonneg]
  refine sum_nonpos fun i _ => ?_
  have h1 : 0 < prob (x i) beta := by rw [← forward_eq]; exact sigmoid_pos _
  have h2 : prob (x i) beta < 1 := by rw [← forward_eq]; exact sigmoid_lt_one _
  split
  · exact Real.log_nonpos h1.le h2.le
  · exact Real.log_nonpos (by linarith) (by linarith)

/-- **C252**, quantitatively: the squared calibration errors of all epochs, of the probabilities and of every feature, add up to at most twice the initial loss divided by
the learning rate. -/
theorem C252_total_error (x : Fin n → Fin d → ℝ) (y : Fin n → ℝ) (hy : Labels y) (lr : ℝ) (h0 : 0 < lr) (h1 : lr * ∑ i, (sqNorm (x i) + 1) ≤ 4) (beta : Fin (d + 1) → ℝ) (e : Nat) :
    ∑ t ∈ range e, ((∑ i, prob (x i) (gdRun lr x y t beta) - ∑ i, y i) ^ 2 +
      ∑ j : Fin d, (∑ i, x i j * prob (x i) (gdRun lr x y t beta) - ∑ i, x i j * y i) ^ 2) ≤ 2 * negLogLikelihood x y beta / lr := by
  have h := sum_grad x y lr h0 h1 beta e
  have hl := loss_nonneg x y hy (gdRun lr x y e beta)
  have heq : ∀ t, sqNorm (backward (forward x (gdRun lr x y t beta)) y (hat x)) = (∑ i, prob (x i) (gdRun lr x y t beta) - ∑ i, y i) ^ 2 +
      ∑ j : Fin d, (∑ i, x i j * prob (x i) (gdRun lr x y t beta) - ∑ i, x i j * y i) ^ 2 := by
    intro t
    rw [sqNorm, Fin.sum_univ_castSucc, grad_bias, add_comm]
    congr 1
    exact sum_congr rfl fun j _ => by rw [grad_feature]
  simp only [heq] at h
  rw [C47_loss x y hy] at h
  rw [le_div_iff₀ h0]
  linarith

/-- **C252**, in the limit: with a small learning rate the predicted probabilities become calibrated, in sum and for every feature, on every training set (separable ones
included, where the parameters do not converge). -/
theorem C252_calibrated (x : Fin n → Fin d → ℝ) (y : Fin n → ℝ) (hy : Labels y) (lr : ℝ) (h0 : 0 < lr) (h1 : lr * ∑ i, (sqNorm (x i) + 1) ≤ 4) (beta : Fin (d + 1) → ℝ) :
    Filter.Tendsto (fun e => ∑ i, prob (x i) (gdRun lr x y e beta)) Filter.atTop (nhds (∑ i, y i)) ∧
    ∀ j : Fin d, Filter.Tendsto (fun e => ∑ i, x i j * prob (x i) (gdRun lr x y e beta)) Filter.atTop (nhds (∑ i, x i j * y i)) := by
  have hs : Summable fun t => ((∑ i, prob (x i) (gdRun lr x y t beta) - ∑ i, y i) ^ 2 +
      ∑ j : Fin d, (∑ i, x i j * prob (x i) (gdRun lr x y t beta) - ∑ i, x i j * y i) ^ 2) :=
    summable_of_sum_range_le (fun t => add_nonneg (sq_nonneg _) (sum_nonneg fun j _ => sq_nonneg _)) (C252_total_error x y hy lr h0 h1 beta)
  have ht := hs.tendsto_atTop_zero
  have key : ∀ (f : ℕ → ℝ) (a : ℝ), (∀ t, (f t - a) ^ 2 ≤ ((∑ i, prob (x i) (gdRun lr x y t beta) - ∑ i, y i) ^ 2 +
      ∑ j : Fin d, (∑ i, x i j * prob (x i) (gdRun lr x y t beta) - ∑ i, x i j * y i) ^ 2)) → Filter.Tendsto f Filter.atTop (nhds a) := by
    intro f a hf
    have h2 : Filter.Tendsto (fun t => (f t - a) ^ 2) Filter.atTop (nhds 0) := squeeze_zero (fun t => sq_nonneg _) hf ht
    have h3 : Filter.Tendsto (fun t => f t - a) Filter.atTop (nhds 0) := by
      rw [tendsto_zero_iff_abs_tendsto_zero]
      have := h2.sqrt
      simpa [Real.sqrt_sq_eq_abs, Function.comp_def] using this
    simpa using h3.add_const a
  refine ⟨key _ _ fun t => le_add_of_nonneg_right (sum_nonneg fun j _ => sq_nonneg _), fun j => key _ _ fun t => ?_⟩
  exact le_add_of_nonneg_of_le (sq_nonneg _) (single_le_sum (f := fun j : Fin d => (∑ i, x i j * prob (x i) (gdRun lr x y t beta) - ∑ i, x i j * y i) ^ 2) (fun j _ => sq_nonneg _) (mem_univ j))

/-- Two equal rows with different labels: parameters 0 are calibrated, hence at rest. -/
example : gdRun 1 (fun (_ : Fin 2) (_ : Fin 1) => (3 : ℝ)) ![0, 1] 1 0 = 0 := by
  rw [C252_gd_at_rest _ _ _ one_ne_zero]
  norm_num [prob, Fin.sum_univ_two]

end CML.LogReg
