import Verif.Props.Losses
import Mathlib.Analysis.SpecialFunctions.Log.Deriv
import Mathlib.Analysis.SpecialFunctions.ExpDeriv
import Mathlib.Analysis.Calculus.Deriv.Inv

set_option linter.unusedSectionVars false

/-! # Property C130 (derivatives of the activation functions), more of C87 -/

namespace CML
open Finset

variable {n k : Nat}

/-- C130, ReLU: away from the kink, `diff(output, a)` with `a = relu(z)` is `output` times the derivative at `z`; at the kink it
is 0, and it never depends on the size of a positive `a`. -/
theorem C130_relu (output z : ℝ) :
    (z ≠ 0 → ∃ r, HasDerivAt relu r z ∧ reluDiff output (relu z) = output * r) ∧ (z = 0 → reluDiff output (relu z) = 0) := by
  constructor
  · intro hz
    rcases lt_or_gt_of_ne hz with h | h
    · refine ⟨0, ?_, ?_⟩
      · refine (hasDerivAt_const z (0 : ℝ)).congr_of_eventuallyEq ?_
        filter_upwards [Iio_mem_nhds h] with t ht
        exact max_eq_left (le_of_lt ht)
      · simp [reluDiff, relu, max_eq_left h.le]
    · refine ⟨1, ?_, ?_⟩
      · refine (hasDerivAt_id z).congr_of_eventuallyEq ?_
        filter_upwards [Ioi_mem_nhds h] with t ht
        exact max_eq_right (le_of_lt ht)
      · simp [reluDiff, relu, max_eq_right h.le, not_le.2 h]
  · rintro rfl
    simp [reluDiff, relu]

/-- C130, sigmoid: `diff(output, a, y)` with `a = sigmoid(z)` is the derivative at `z` times the error `y - output`. -/
theorem C130_sigmoid (output z y : ℝ) :
    ∃ r, HasDerivAt sigmoid r z ∧ 0 < r ∧ sigmoidDiff output (sigmoid z) y = r * (y - output) := by
  have h1 : HasDerivAt (fun t => 1 + Real.exp (-t)) (-Real.exp (-z)) z := by
    have := ((Real.hasDerivAt_exp (-z)).comp z (hasDerivAt_neg z)).const_add 1
    simpa using this
  have hpos : 0 < 1 + Real.exp (-z) := by positivity
  have h2 := h1.inv hpos.ne'
  refine ⟨sigmoid z * (1 - sigmoid z), ?_, ?_, rfl⟩
  · have e : (fun t => (1 + Real.exp (-t)))⁻¹ = sigmoid := by
      funext t
      simp [sigmoid]
    rw [e] at h2
    refine h2.congr_deriv ?_
    unfold sigmoid
    field_simp
    ring
  · have e : sigmoid z * (1 - sigmoid z) = Real.exp (-z) / (1 + Real.exp (-z)) ^ 2 := by
      unfold sigmoid
      field_simp
      ring
    rw [e]
    positivity

/-- C130, sigmoid as output layer: `diff(a, a, y)` is minus the derivative of the squared error `(y - sigmoid(z))² / 2`. -/
theorem C130_sigmoid_output (z y : ℝ) :
    HasDerivAt (fun t => (y - sigmoid t) ^ 2 / 2) (-sigmoidDiff (sigmoid z) (sigmoid z) y) z := by
  obtain ⟨r, hr, _, e⟩ := C130_sigmoid (sigmoid z) z y
  rw [e]
  refine (((hr.const_sub y).pow 2).div_const 2).congr_deriv ?_
  norm_num
  ring

/-- C130, softmax: for a row of logits `z` and targets `y` with sum 1, the entry `j` of `diff(y, softmax(z))` is the derivative of the
cross-entropy `-∑ y log softmax(z)` with respect to the logit `j`. -/
theorem C130_softmax (z : Fin (k + 1) → ℝ) (y : Fin (k + 1) → ℝ) (hy : ∑ l, y l = 1) (j : Fin (k + 1)) :
    HasDerivAt (fun t => -∑ l, y l * Real.log (softmax (fun _ : Fin 1 => Function.update z j t) 0 l))
      (softmaxDiff (y j) (softmax (fun _ : Fin 1 => z) 0 j)) (z j) := by
  have hS : ∀ v : Fin (k + 1) → ℝ, 0 < ∑ l, Real.exp (v l) := fun v =>
    Finset.sum_pos (fun l _ => Real.exp_pos _) ⟨0, mem_univ _⟩
  have hval : ∀ t, (-∑ l, y l * Real.log (softmax (fun _ : Fin 1 => Function.update z j t) 0 l)) =
      Real.log (∑ l, Real.exp (Function.update z j t l)) - ∑ l, y l * Function.update z j t l := by
    intro t
    have : ∀ l, y l * Real.log (softmax (fun _ : Fin 1 => Function.update z j t) 0 l) =
        y l * Function.update z j t l - y l * Real.log (∑ l, Real.exp (Function.update z j t l)) := by
      intro l
      rw [C50_value, Real.log_div (Real.exp_ne_zero _) (hS _).ne', Real.log_exp]
      ring
    simp only [this, Finset.sum_sub_distrib, ← Finset.sum_mul, hy]
    ring
  have hcoord : ∀ l, HasDerivAt (fun t => Function.update z j t l) (if l = j then 1 else 0) (z j) := by
    intro l
    by_cases h : l = j
    · subst h
      simpa using hasDerivAt_id' (z l)
    · simpa [h] using hasDerivAt_const (z j) (z l)
  have hz : Function.update z j (z j) = z := Function.update_eq_self j z
  have hsum : HasDerivAt (fun t => ∑ l, Real.exp (Function.update z j t l)) (Real.exp (z j)) (z j) := by
    have := HasDerivAt.fun_sum (u := univ) (A := fun l t => Real.exp (Function.update z j t l)) fun l _ => (hcoord l).exp
    refine this.congr_deriv ?_
    rw [hz]
    simp
  have hlin : HasDerivAt (fun t => ∑ l, y l * Function.update z j t l) (y j) (z j) := by
    have := HasDerivAt.fun_sum (u := univ) (A := fun l t => y l * Function.update z j t l) fun l _ => (hcoord l).const_mul (y l)
    refine this.congr_deriv ?_
    simp
  have hlog := hsum.log (by rw [hz]; exact (hS z).ne')
  have := hlog.sub hlin
  refine (this.congr_deriv ?_).congr_of_eventuallyEq (Filter.Eventually.of_forall hval)
  rw [hz, softmaxDiff, C50_value]

/-- Non-vacuity: a one-hot row of targets. -/
example : ∑ l : Fin 3, (![0, 1, 0] : Fin 3 → ℝ) l = 1 := by simp [Fin.sum_univ_three]

/-- C87 is false for `Relu.diff` too: the caller's `output` array is overwritten, unless it is 0 wherever `a` is not positive. -/
theorem C87_relu_diff_violated (output a : Fin n → Fin k → ℝ) :
    (reluDiffCall output a).2 = output ↔ ∀ i j, a i j ≤ 0 → output i j = 0 := by
  constructor
  · intro h i j ha
    have := congrFun (congrFun h i) j
    simpa [reluDiffCall, reluDiff, ha, eq_comm] using this
  · intro h
    funext i j
    simp only [reluDiffCall, reluDiff]
    split
    · rename_i ha
      exact (h i j ha).symm
    · rfl

/-- C87: a second call of `Relu.diff` on the changed array gives the same result. -/
theorem C87_relu_diff_repeat_partial (output a : Fin n → Fin k → ℝ) :
    (reluDiffCall (reluDiffCall output a).2 a).1 = (reluDiffCall output a).1 := by
  funext i j
  simp only [reluDiffCall, reluDiff]
  split <;> rfl

end CML
