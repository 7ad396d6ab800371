import Verif.Spec.LogReg
import Mathlib.Analysis.SpecialFunctions.Log.Deriv
import Mathlib.Analysis.SpecialFunctions.ExpDeriv
import Mathlib.Analysis.Convex.Deriv
import Mathlib.Analysis.Calculus.Deriv.MeanValue
import Mathlib.Algebra.Order.BigOperators.Ring.Finset
import Mathlib.Tactic.Ring
import Mathlib.Tactic.Linarith
import Mathlib.Tactic.FieldSimp
import Mathlib.Tactic.Positivity
import Mathlib.Tactic.LinearCombination
import Mathlib.Tactic.FinCases
import Mathlib.Algebra.BigOperators.Field
import Mathlib.Data.Fin.VecNotation
import Mathlib.Algebra.BigOperators.Fin

set_option linter.unusedSectionVars false

/-! # Properties C47, C48, C83 - C85 (logistic regression) -/

namespace CML.LogReg
open Finset Matrix

variable {n d m : Nat}

/-! ## The logistic function -/

theorem sigmoid_pos (z : ℝ) : 0 < sigmoid z := by unfold sigmoid; positivity

theorem one_sub_sigmoid (z : ℝ) : 1 - sigmoid z = sigmoid (-z) := by
  unfold sigmoid
  rw [neg_neg]
  have h : Real.exp z * Real.exp (-z) = 1 := by rw [← Real.exp_add]; simp
  have h1 : (1 + Real.exp (-z)) ≠ 0 := by positivity
  have h2 : (1 + Real.exp z) ≠ 0 := by positivity
  field_simp
  linear_combination h

theorem sigmoid_lt_one (z : ℝ) : sigmoid z < 1 := by
  have := one_sub_sigmoid z
  have := sigmoid_pos (-z)
  linarith

theorem sigmoid_eq_exp (z : ℝ) : sigmoid z = Real.exp z / (1 + Real.exp z) := by
  unfold sigmoid
  have h : Real.exp z * Real.exp (-z) = 1 := by rw [← Real.exp_add]; simp
  have h1 : (1 + Real.exp (-z)) ≠ 0 := by positivity
  have h2 : (1 + Real.exp z) ≠ 0 := by positivity
  field_simp
  linear_combination -h

/-- softplus(z) = log(1 + e^z). -/
noncomputable def softplus (z : ℝ) : ℝ := Real.log (1 + Real.exp z)

theorem softplus_deriv (z : ℝ) : HasDerivAt softplus (sigmoid z) z := by
  have h := ((Real.hasDerivAt_exp z).const_add 1).log (by positivity)
  rw [sigmoid_eq_exp]
  exact h

theorem sigmoid_deriv (z : ℝ) : HasDerivAt sigmoid (sigmoid z * (1 - sigmoid z)) z := by
  have h1 : HasDerivAt (fun z : ℝ => 1 + Real.exp (-z)) (-Real.exp (-z)) z := by
    have := ((hasDerivAt_neg z).exp).const_add 1
    simpa using this
  have h2 := h1.inv (by positivity)
  have e : sigmoid = fun z => (1 + Real.exp (-z))⁻¹ := by funext z; simp [sigmoid]
  have e2 : sigmoid z * (1 - sigmoid z) = - -Real.exp (-z) / (1 + Real.exp (-z)) ^ 2 := by
    unfold sigmoid
    have : (1 + Real.exp (-z)) ≠ 0 := by positivity
    field_simp
    ring
  rw [e2]
  rw [e]
  exact h2

theorem softplus_convex : ConvexOn ℝ Set.univ softplus := by
  have hd : deriv softplus = sigmoid := funext fun z => (softplus_deriv z).deriv
  refine convexOn_univ_of_deriv2_nonneg (fun z => (softplus_deriv z).differentiableAt) ?_ ?_
  · rw [hd]; exact fun z => (sigmoid_deriv z).differentiableAt
  · intro z
    simp only [Function.iterate_succ, Function.iterate_zero, Function.comp, id]
    rw [hd, (sigmoid_deriv z).deriv]
    exact mul_nonneg (sigmoid_pos z).le (by linarith [sigmoid_lt_one z])

/-! ## Model and specification -/

theorem scores_eq (x : Fin n → Fin d → ℝ) (beta : Fin (d + 1) → ℝ) (i : Fin n) :
    scores x beta i = (∑ j : Fin d, x i j * beta j.castSucc) + beta (Fin.last d) := by
  unfold scores hat
  rw [Fin.sum_univ_castSucc]
  simp

theorem forward_eq (x : Fin n → Fin d → ℝ) (beta : Fin (d + 1) → ℝ) (i : Fin n) : forward x beta i = prob (x i) beta := by
  unfold forward prob sigmoid
  rw [scores_eq]

/-- The loss of the code is the negative log-likelihood. -/
theorem C47_loss (x : Fin n → Fin d → ℝ) (y : Fin n → ℝ) (hy : Labels y) (beta : Fin (d + 1) → ℝ) :
    loss x y beta = negLogLikelihood x y beta := by
  unfold loss logLikelihoodOf negLogLikelihood
  rw [← Finset.sum_neg_distrib]
  refine Finset.sum_congr rfl fun i _ => ?_
  rw [← forward_eq]
  unfold forward
  generalize scores x beta i = z
  rcases hy i with h | h
  · rw [h, if_neg (by norm_num), one_sub_sigmoid]
    unfold sigmoid
    rw [neg_neg, one_div, Real.log_inv]
    ring
  · rw [h, if_pos rfl, sigmoid_eq_exp, Real.log_div (Real.exp_ne_zero _) (by positivity), Real.log_exp]
    ring

/-- The linear form of row `i`. -/
noncomputable def form (x : Fin n → Fin d → ℝ) (i : Fin n) : (Fin (d + 1) → ℝ) →L[ℝ] ℝ :=
  ∑ j, hat x i j • (ContinuousLinearMap.proj j : (Fin (d + 1) → ℝ) →L[ℝ] ℝ)

theorem form_apply (x : Fin n → Fin d → ℝ) (i : Fin n) (v : Fin (d + 1) → ℝ) : form x i v = scores x v i := by
  simp [form, scores]

/-- C47: `backward` is the gradient of the loss. -/
theorem C47_gradient_loss (x : Fin n → Fin d → ℝ) (y : Fin n → ℝ) (beta : Fin (d + 1) → ℝ) :
    IsGradient (loss x y) (backward (forward x beta) y (hat x)) beta := by
  have h : ∀ i ∈ (Finset.univ : Finset (Fin n)), HasFDerivAt (fun b => -y i * scores x b i + softplus (scores x b i))
      ((-y i + forward x beta i) • form x i) beta := by
    intro i _
    have hz : HasFDerivAt (fun b => scores x b i) (form x i) beta := by
      have := (form x i).hasFDerivAt (x := beta)
      have e : (fun b => scores x b i) = form x i := by funext b; rw [form_apply]
      rw [e]; exact this
    have h1 := hz.const_mul (-y i)
    have h2 := (softplus_deriv (scores x beta i)).comp_hasFDerivAt beta hz
    have := h1.add h2
    rw [add_smul]
    exact this
  have hs := HasFDerivAt.fun_sum h
  unfold IsGradient
  refine hs.congr_fderiv ?_
  ext v
  simp only [ContinuousLinearMap.sum_apply, ContinuousLinearMap.smul_apply, ContinuousLinearMap.proj_apply, smul_eq_mul,
    form_apply, backward, scores, Finset.sum_mul, Finset.mul_sum]
  rw [Finset.sum_comm]
  refine Finset.sum_congr rfl fun i _ => Finset.sum_congr rfl fun j _ => by ring

/-- C47: for labels 0 / 1, what the optimisers subtract is the gradient of the negative log-likelihood. -/
theorem C47_gradient (x : Fin n → Fin d → ℝ) (y : Fin n → ℝ) (hy : Labels y) (beta : Fin (d + 1) → ℝ) :
    IsGradient (negLogLikelihood x y) (backward (forward x beta) y (hat x)) beta := by
  have : negLogLikelihood x y = loss x y := funext fun b => (C47_loss x y hy b).symm
  rw [this]
  exact C47_gradient_loss x y beta

theorem hessian_apply (p : Fin n → ℝ) (xh : Fin n → Fin (d + 1) → ℝ) (j k : Fin (d + 1)) :
    hessian p xh j k = ∑ i, p i * (1 - p i) * xh i j * xh i k := by
  unfold hessian
  simp only [Matrix.mul_apply, Matrix.transpose_apply, Matrix.of_apply, Matrix.one_apply]
  refine Finset.sum_congr rfl fun i _ => ?_
  have : ∑ l, xh l j * ((if l = i then (1 : ℝ) else 0) * p l * (1 - p l)) = xh i j * (p i * (1 - p i)) := by
    rw [Finset.sum_eq_single i]
    · simp
    · intro l _ hl; simp [hl]
    · simp
  rw [this]; ring

/-- C47: the Hessian of the Newton optimiser is the matrix of second derivatives: row `j` is the gradient of the `j`-th
component of the gradient. -/
theorem C47_hessian (x : Fin n → Fin d → ℝ) (y : Fin n → ℝ) (beta : Fin (d + 1) → ℝ) (j : Fin (d + 1)) :
    IsGradient (fun b => backward (forward x b) y (hat x) j) (hessian (forward x beta) (hat x) j) beta := by
  have h : ∀ i ∈ (Finset.univ : Finset (Fin n)), HasFDerivAt (fun b => -hat x i j * (y i - forward x b i))
      ((hat x i j * (forward x beta i * (1 - forward x beta i))) • form x i) beta := by
    intro i _
    have hz : HasFDerivAt (fun b => scores x b i) (form x i) beta := by
      have := (form x i).hasFDerivAt (x := beta)
      have e : (fun b => scores x b i) = form x i := by funext b; rw [form_apply]
      rw [e]; exact this
    have h1 := ((sigmoid_deriv (scores x beta i)).comp_hasFDerivAt beta hz).const_sub (y i)
    have h2 := h1.const_mul (-hat x i j)
    refine h2.congr_fderiv ?_
    ext v
    simp [forward]
    ring
  have hs := HasFDerivAt.fun_sum h
  unfold IsGradient
  refine hs.congr_fderiv ?_
  ext v
  simp only [ContinuousLinearMap.sum_apply, ContinuousLinearMap.smul_apply, ContinuousLinearMap.proj_apply, smul_eq_mul,
    form_apply, hessian_apply, scores, Finset.sum_mul, Finset.mul_sum]
  rw [Finset.sum_comm]
  refine Finset.sum_congr rfl fun i _ => Finset.sum_congr rfl fun j _ => by ring

/-- C48: the Hessian is symmetric and positive semidefinite. -/
theorem C48_hessian_psd (x : Fin n → Fin d → ℝ) (beta : Fin (d + 1) → ℝ) :
    (hessian (forward x beta) (hat x))ᵀ = hessian (forward x beta) (hat x) ∧
    ∀ v, 0 ≤ v ⬝ᵥ (hessian (forward x beta) (hat x) *ᵥ v) := by
  refine ⟨?_, fun v => ?_⟩
  · ext j k
    rw [Matrix.transpose_apply, hessian_apply, hessian_apply]
    exact Finset.sum_congr rfl fun i _ => by ring
  · have : v ⬝ᵥ (hessian (forward x beta) (hat x) *ᵥ v) =
        ∑ i, forward x beta i * (1 - forward x beta i) * (scores x v i) ^ 2 := by
      simp only [dotProduct, mulVec, hessian_apply, scores, Finset.mul_sum, Finset.sum_mul, pow_two]
      calc _ = ∑ j, ∑ i, ∑ k, v j * (forward x beta i * (1 - forward x beta i) * hat x i j * hat x i k * v k) :=
            Finset.sum_congr rfl fun j _ => by rw [Finset.sum_comm]
        _ = ∑ i, ∑ j, ∑ k, v j * (forward x beta i * (1 - forward x beta i) * hat x i j * hat x i k * v k) := Finset.sum_comm
        _ = _ := by
          refine Finset.sum_congr rfl fun i _ => ?_
          rw [Finset.sum_comm]
          exact Finset.sum_congr rfl fun k _ => Finset.sum_congr rfl fun j _ => by ring
    rw [this]
    refine Finset.sum_nonneg fun i _ => mul_nonneg (mul_nonneg (sigmoid_pos _).le ?_) (sq_nonneg _)
    have := sigmoid_lt_one (scores x beta i)
    unfold forward; linarith

/-- C48: the loss is convex. -/
theorem C48_convex (x : Fin n → Fin d → ℝ) (y : Fin n → ℝ) : ConvexOn ℝ Set.univ (loss x y) := by
  have h : ∀ i, ConvexOn ℝ Set.univ (fun b => -y i * scores x b i + softplus (scores x b i)) := by
    intro i
    have hl : ∀ b, scores x b i = (form x i).toLinearMap b := fun b => by rw [← form_apply]; rfl
    have h1 := softplus_convex.comp_linearMap (form x i).toLinearMap
    have h2 : ConvexOn ℝ Set.univ (fun b => -y i * (form x i).toLinearMap b) :=
      ((-y i) • (form x i).toLinearMap).convexOn convex_univ
    have h3 := h2.add (by simpa using h1)
    simp only [hl]
    exact h3
  have key : ∀ s : Finset (Fin n), ConvexOn ℝ Set.univ (fun b => ∑ i ∈ s, (-y i * scores x b i + softplus (scores x b i))) := by
    intro s
    induction s using Finset.induction_on with
    | empty => simpa using convexOn_const (0 : ℝ) convex_univ
    | insert i s hi ih =>
      simp only [Finset.sum_insert hi]
      exact (h i).add ih
  exact key Finset.univ

/-! ## Descent -/

/-- A convex function lies above its tangents. -/
theorem convex_tangent {f : ℝ → ℝ} (hf : ConvexOn ℝ Set.univ f) {a g : ℝ} (h : HasDerivAt f g a) (b : ℝ) :
    f a + g * (b - a) ≤ f b := by
  rcases lt_trichotomy a b with hab | hab | hab
  · have := hf.le_slope_of_hasDerivAt (Set.mem_univ a) (Set.mem_univ b) hab h
    rw [slope_def_field, le_div_iff₀ (by linarith)] at this
    linarith
  · subst hab; simp
  · have := hf.slope_le_of_hasDerivAt (Set.mem_univ b) (Set.mem_univ a) hab h
    rw [slope_def_field, div_le_iff₀ (by linarith)] at this
    linarith

/-- The quadratic upper bound of softplus. -/
theorem softplus_upper (z h : ℝ) : softplus (z + h) ≤ softplus z + sigmoid z * h + h ^ 2 / 8 := by
  let f : ℝ → ℝ := fun t => softplus z + sigmoid z * t + t ^ 2 / 8 - softplus (z + t)
  have hf : ∀ t, HasDerivAt f (sigmoid z + t / 4 - sigmoid (z + t)) t := by
    intro t
    have h1 : HasDerivAt (fun t : ℝ => sigmoid z * t) (sigmoid z) t := by simpa using (hasDerivAt_id t).const_mul (sigmoid z)
    have h2 : HasDerivAt (fun t : ℝ => t ^ 2 / 8) (t / 4) t := by
      have := ((hasDerivAt_id t).pow 2).div_const 8
      refine this.congr_deriv ?_
      simp; ring
    have h3 : HasDerivAt (fun t : ℝ => softplus (z + t)) (sigmoid (z + t)) t := by
      have := (softplus_deriv (z + t)).comp t ((hasDerivAt_id t).const_add z)
      simpa [Function.comp_def] using this
    have := ((h1.const_add (softplus z)).add h2).sub h3
    exact this
  have hf' : deriv f = fun t => sigmoid z + t / 4 - sigmoid (z + t) := funext fun t => (hf t).deriv
  have hf2 : ∀ t, HasDerivAt (fun t => sigmoid z + t / 4 - sigmoid (z + t)) (1 / 4 - sigmoid (z + t) * (1 - sigmoid (z + t))) t := by
    intro t
    have h1 : HasDerivAt (fun t : ℝ => t / 4) (1 / 4) t := (hasDerivAt_id t).div_const 4
    have h3 : HasDerivAt (fun t : ℝ => sigmoid (z + t)) (sigmoid (z + t) * (1 - sigmoid (z + t))) t := by
      have := (sigmoid_deriv (z + t)).comp t ((hasDerivAt_id t).const_add z)
      simpa [Function.comp_def] using this
    exact (h1.const_add (sigmoid z)).sub h3
  have hc : ConvexOn ℝ Set.univ f := by
    refine convexOn_univ_of_deriv2_nonneg (fun t => (hf t).differentiableAt) ?_ ?_
    · rw [hf']; exact fun t => (hf2 t).differentiableAt
    · intro t
      simp only [Function.iterate_succ, Function.iterate_zero, Function.comp, id]
      rw [hf', (hf2 t).deriv]
      nlinarith [sq_nonneg (sigmoid (z + t) - 1 / 2)]
  have := convex_tangent hc (hf 0) h
  simp [f] at this
  linarith

theorem sum_scores (x : Fin n → Fin d → ℝ) (c : Fin n → ℝ) (v : Fin (d + 1) → ℝ) :
    ∑ i, c i * scores x v i = ∑ j, (∑ i, c i * hat x i j) * v j := by
  simp only [scores, Finset.mul_sum, Finset.sum_mul]
  rw [Finset.sum_comm]
  exact Finset.sum_congr rfl fun j _ => Finset.sum_congr rfl fun i _ => by ring

theorem backward_dot (x : Fin n → Fin d → ℝ) (y : Fin n → ℝ) (beta v : Fin (d + 1) → ℝ) :
    ∑ j, backward (forward x beta) y (hat x) j * v j = ∑ i, (forward x beta i - y i) * scores x v i := by
  rw [sum_scores]
  refine Finset.sum_congr rfl fun j _ => ?_
  congr 1
  exact Finset.sum_congr rfl fun i _ => by ring

theorem scores_add (x : Fin n → Fin d → ℝ) (b v : Fin (d + 1) → ℝ) (i : Fin n) :
    scores x (fun j => b j + v j) i = scores x b i + scores x v i := by
  simp [scores, mul_add, Finset.sum_add_distrib]

/-- The loss lies above its tangent planes. -/
theorem loss_tangent (x : Fin n → Fin d → ℝ) (y : Fin n → ℝ) (beta v : Fin (d + 1) → ℝ) :
    loss x y beta + ∑ j, backward (forward x beta) y (hat x) j * v j ≤ loss x y (fun j => beta j + v j) := by
  rw [backward_dot]
  unfold loss logLikelihoodOf
  rw [← Finset.sum_add_distrib]
  refine Finset.sum_le_sum fun i _ => ?_
  rw [scores_add]
  have := convex_tangent softplus_convex (softplus_deriv (scores x beta i)) (scores x beta i + scores x v i)
  unfold softplus at this
  unfold forward
  linarith

/-- The quadratic upper bound of the loss. -/
theorem loss_upper (x : Fin n → Fin d → ℝ) (y : Fin n → ℝ) (beta v : Fin (d + 1) → ℝ) :
    loss x y (fun j => beta j + v j) ≤ loss x y beta + ∑ j, backward (forward x beta) y (hat x) j * v j +
      (∑ i, sqNorm (hat x i)) * sqNorm v / 8 := by
  have hcs : ∀ i, scores x v i ^ 2 ≤ sqNorm (hat x i) * sqNorm v := fun i => Finset.sum_mul_sq_le_sq_mul_sq _ _ _
  rw [backward_dot]
  unfold loss logLikelihoodOf
  rw [← Finset.sum_add_distrib, Finset.sum_mul, Finset.sum_div, ← Finset.sum_add_distrib]
  refine Finset.sum_le_sum fun i _ => ?_
  rw [scores_add]
  have h1 := softplus_upper (scores x beta i) (scores x v i)
  have h2 := hcs i
  unfold softplus at h1
  unfold forward
  linarith

theorem sqNorm_hat (x : Fin n → Fin d → ℝ) (i : Fin n) : sqNorm (hat x i) = sqNorm (x i) + 1 := by
  unfold sqNorm hat
  rw [Fin.sum_univ_castSucc]
  simp

/-- One epoch with a small enough learning rate lowers the loss by at least half the learning rate times the squared length
of the gradient. -/
theorem descent (x : Fin n → Fin d → ℝ) (y : Fin n → ℝ) (lr : ℝ) (h0 : 0 ≤ lr) (h1 : lr * ∑ i, (sqNorm (x i) + 1) ≤ 4)
    (beta : Fin (d + 1) → ℝ) :
    loss x y (gdStep lr x y beta) ≤ loss x y beta - lr / 2 * sqNorm (backward (forward x beta) y (hat x)) := by
  have h := loss_upper x y beta (fun j => -lr * backward (forward x beta) y (hat x) j)
  have e1 : (fun j => beta j + -lr * backward (forward x beta) y (hat x) j) = gdStep lr x y beta := by
    funext j; unfold gdStep; ring
  rw [e1] at h
  set g := backward (forward x beta) y (hat x) with hg
  have e2 : ∑ j, g j * (-lr * g j) = -lr * sqNorm g := by
    rw [sqNorm, Finset.mul_sum]; exact Finset.sum_congr rfl fun j _ => by ring
  have e3 : sqNorm (fun j => -lr * g j) = lr ^ 2 * sqNorm g := by
    rw [sqNorm, sqNorm, Finset.mul_sum]; exact Finset.sum_congr rfl fun j _ => by ring
  have e4 : ∑ i, sqNorm (hat x i) = ∑ i, (sqNorm (x i) + 1) := Finset.sum_congr rfl fun i _ => sqNorm_hat x i
  rw [e2, e3, e4] at h
  have hn : 0 ≤ sqNorm g := Finset.sum_nonneg fun j _ => sq_nonneg _
  have : (∑ i, (sqNorm (x i) + 1)) * (lr ^ 2 * sqNorm g) ≤ 4 * (lr * sqNorm g) := by
    have := mul_le_mul_of_nonneg_right h1 (mul_nonneg h0 hn)
    nlinarith
  linarith

/-- C83: with a learning rate of at most 4 / Σ(|x_i|² + 1) no epoch of gradient descent increases the loss, and an epoch that
does not decrease it was started at a stationary point. -/
theorem C83_descent (x : Fin n → Fin d → ℝ) (y : Fin n → ℝ) (lr : ℝ) (h0 : 0 < lr) (h1 : lr * ∑ i, (sqNorm (x i) + 1) ≤ 4)
    (beta : Fin (d + 1) → ℝ) :
    loss x y (gdRun lr x y 1 beta) ≤ loss x y beta ∧
    (loss x y (gdRun lr x y 1 beta) = loss x y beta → IsGradient (loss x y) 0 beta) := by
  have h := descent x y lr h0.le h1 beta
  have hn : 0 ≤ sqNorm (backward (forward x beta) y (hat x)) := Finset.sum_nonneg fun j _ => sq_nonneg _
  show loss x y (gdStep lr x y beta) ≤ _ ∧ (loss x y (gdStep lr x y beta) = _ → _)
  refine ⟨by nlinarith, fun he => ?_⟩
  have hz : sqNorm (backward (forward x beta) y (hat x)) = 0 := by
    rw [he] at h
    have : lr / 2 * sqNorm (backward (forward x beta) y (hat x)) ≤ 0 := by linarith
    have hp : 0 < lr / 2 := by linarith
    exact le_antisymm (by by_contra hc; push Not at hc; nlinarith [mul_pos hp hc]) hn
  have : backward (forward x beta) y (hat x) = 0 := by
    funext j
    have := (Finset.sum_eq_zero_iff_of_nonneg (fun j _ => sq_nonneg _)).1 hz j (Finset.mem_univ j)
    exact pow_eq_zero_iff (two_ne_zero) |>.1 this
  rw [← this]
  exact C47_gradient_loss x y beta

theorem gdRun_succ (lr : ℝ) (x : Fin n → Fin d → ℝ) (y : Fin n → ℝ) (e : Nat) :
    ∀ beta, gdRun lr x y (e + 1) beta = gdStep lr x y (gdRun lr x y e beta) := by
  induction e with
  | zero => intro beta; rfl
  | succ e ih => intro beta; rw [gdRun, ih]; rfl

/-- C83: the loss never increases during training. -/
theorem C83_monotone (x : Fin n → Fin d → ℝ) (y : Fin n → ℝ) (lr : ℝ) (h0 : 0 < lr) (h1 : lr * ∑ i, (sqNorm (x i) + 1) ≤ 4)
    (beta : Fin (d + 1) → ℝ) (e e' : Nat) (he : e ≤ e') : loss x y (gdRun lr x y e' beta) ≤ loss x y (gdRun lr x y e beta) := by
  induction e', he using Nat.le_induction with
  | base => exact le_refl _
  | succ k _ ih =>
    rw [gdRun_succ]
    exact le_trans (C83_descent x y lr h0 h1 _).1 ih

/-- C83: after `e` epochs the loss exceeds that of ANY parameter vector by at most the squared distance of the initial
parameters from it divided by `2 * lr * e`. -/
theorem C83_convergence (x : Fin n → Fin d → ℝ) (y : Fin n → ℝ) (lr : ℝ) (h0 : 0 < lr) (h1 : lr * ∑ i, (sqNorm (x i) + 1) ≤ 4)
    (beta best : Fin (d + 1) → ℝ) (e : Nat) (he : 0 < e) :
    loss x y (gdRun lr x y e beta) - loss x y best ≤ sqNorm (beta - best) / (2 * lr * e) := by
  have step : ∀ b, sqNorm (gdStep lr x y b - best) ≤ sqNorm (b - best) - 2 * lr * (loss x y (gdStep lr x y b) - loss x y best) := by
    intro b
    have hd := descent x y lr h0.le h1 b
    have ht := loss_tangent x y b (fun j => best j - b j)
    have e1 : (fun j => b j + (best j - b j)) = best := by funext j; ring
    rw [e1] at ht
    have e2 : sqNorm (gdStep lr x y b - best) = sqNorm (b - best) +
        2 * lr * (∑ j, backward (forward x b) y (hat x) j * (best j - b j)) + lr ^ 2 * sqNorm (backward (forward x b) y (hat x)) := by
      unfold sqNorm gdStep
      rw [Finset.mul_sum, Finset.mul_sum, ← Finset.sum_add_distrib, ← Finset.sum_add_distrib]
      refine Finset.sum_congr rfl fun j _ => ?_
      simp only [Pi.sub_apply]
      ring
    rw [e2]
    nlinarith
  have tele : ∀ k, sqNorm (gdRun lr x y k beta - best) + 2 * lr * (k * (loss x y (gdRun lr x y k beta) - loss x y best)) ≤
      sqNorm (beta - best) := by
    intro k
    induction k with
    | zero => simp [gdRun]
    | succ k ih =>
      have hs := step (gdRun lr x y k beta)
      have hm := (C83_descent x y lr h0 h1 (gdRun lr x y k beta)).1
      have hm' : loss x y (gdStep lr x y (gdRun lr x y k beta)) ≤ loss x y (gdRun lr x y k beta) := hm
      rw [gdRun_succ]
      push_cast
      have hk : (0 : ℝ) ≤ k := Nat.cast_nonneg k
      nlinarith [mul_nonneg (mul_nonneg h0.le hk) (sub_nonneg.2 hm')]
  have ht := tele e
  have hn : 0 ≤ sqNorm (gdRun lr x y e beta - best) := Finset.sum_nonneg fun j _ => sq_nonneg _
  have hep : (0 : ℝ) < e := by exact_mod_cast he
  rw [le_div_iff₀ (by positivity)]
  linarith

/-- A learning rate and data that meet the hypotheses of the three theorems above. -/
example : (0 : ℝ) < 1 / 100 ∧ (1 / 100 : ℝ) * ∑ i : Fin 2, (sqNorm ((fun i j => if i = j then 3 else 1 : Fin 2 → Fin 2 → ℝ) i) + 1) ≤ 4 := by
  norm_num [sqNorm, Fin.sum_univ_two]

/-! ## Fixed points -/

theorem stationary_min (x : Fin n → Fin d → ℝ) (y : Fin n → ℝ) (beta : Fin (d + 1) → ℝ)
    (h : backward (forward x beta) y (hat x) = 0) (b : Fin (d + 1) → ℝ) : loss x y beta ≤ loss x y b := by
  have := loss_tangent x y beta (fun j => b j - beta j)
  rw [h] at this
  simpa using this

/-- C84: parameters that an epoch of gradient descent leaves unchanged minimise the negative log-likelihood globally. -/
theorem C84_gd_fixed_point (x : Fin n → Fin d → ℝ) (y : Fin n → ℝ) (hy : Labels y) (lr : ℝ) (hlr : lr ≠ 0) (beta : Fin (d + 1) → ℝ)
    (h : gdRun lr x y 1 beta = beta) (b : Fin (d + 1) → ℝ) : negLogLikelihood x y beta ≤ negLogLikelihood x y b := by
  rw [← C47_loss x y hy, ← C47_loss x y hy]
  refine stationary_min x y beta (funext fun j => ?_) b
  have := congrFun h j
  simp only [gdRun, gdStep] at this
  have : lr * backward (forward x beta) y (hat x) j = 0 := by linarith
  exact (mul_eq_zero.1 this).resolve_left hlr

/-- C84: parameters that an epoch of Newton's method leaves unchanged minimise the negative log-likelihood globally. -/
theorem C84_newton_fixed_point (x : Fin n → Fin d → ℝ) (y : Fin n → ℝ) (hy : Labels y) (beta : Fin (d + 1) → ℝ)
    (h : newtonRun x y 1 beta = .ok beta) (b : Fin (d + 1) → ℝ) : negLogLikelihood x y beta ≤ negLogLikelihood x y b := by
  rw [← C47_loss x y hy, ← C47_loss x y hy]
  refine stationary_min x y beta ?_ b
  simp only [newtonRun, newtonStep] at h
  split at h
  · simp at h
  · rename_i b' hb
    split at hb
    · simp at hb
    · rename_i hdet
      injection hb with hb
      injection h with h
      rw [h] at hb
      have hz : (hessian (forward x beta) (hat x))⁻¹ *ᵥ backward (forward x beta) y (hat x) = 0 := by
        have : beta - (hessian (forward x beta) (hat x))⁻¹ *ᵥ backward (forward x beta) y (hat x) = beta - 0 := by rw [hb, sub_zero]
        exact sub_right_injective this
      have := congrArg (fun v => hessian (forward x beta) (hat x) *ᵥ v) hz
      simp only [mulVec_zero] at this
      rw [mulVec_mulVec, mul_nonsing_inv _ (isUnit_iff_ne_zero.2 hdet), one_mulVec] at this
      exact this

/-- C84, conversely: at parameters that minimise the loss, neither optimiser moves (Newton's method, when it does not fail). -/
theorem C84_minimum_is_fixed (x : Fin n → Fin d → ℝ) (y : Fin n → ℝ) (lr : ℝ) (beta : Fin (d + 1) → ℝ)
    (h : ∀ b, loss x y beta ≤ loss x y b) (e : Nat) :
    gdRun lr x y e beta = beta ∧ (∀ b, newtonRun x y e beta = .ok b → b = beta) := by
  have hg : backward (forward x beta) y (hat x) = 0 := by
    by_contra hne
    have hpos : 0 < sqNorm (backward (forward x beta) y (hat x)) := by
      refine lt_of_le_of_ne (Finset.sum_nonneg fun j _ => sq_nonneg _) fun h0 => hne (funext fun j => ?_)
      have := (Finset.sum_eq_zero_iff_of_nonneg (fun j _ => sq_nonneg _)).1 h0.symm j (Finset.mem_univ j)
      exact pow_eq_zero_iff (two_ne_zero) |>.1 this
    have hM : 0 ≤ ∑ i, (sqNorm (x i) + 1) := Finset.sum_nonneg fun i _ =>
      add_nonneg (Finset.sum_nonneg fun j _ => sq_nonneg _) zero_le_one
    set M := ∑ i, (sqNorm (x i) + 1) with hMdef
    have hl : (0 : ℝ) < 4 / (M + 1) := by positivity
    have hl2 : 4 / (M + 1) * M ≤ 4 := by
      rw [div_mul_eq_mul_div, div_le_iff₀ (by positivity)]; linarith
    have hd := descent x y (4 / (M + 1)) hl.le hl2 beta
    have := h (gdStep (4 / (M + 1)) x y beta)
    have : 0 < 4 / (M + 1) / 2 * sqNorm (backward (forward x beta) y (hat x)) := by positivity
    linarith
  have hs : gdStep lr x y beta = beta := by
    funext j; simp [gdStep, hg]
  constructor
  · induction e with
    | zero => rfl
    | succ e ih => rw [gdRun, hs, ih]
  · induction e with
    | zero => intro b hb; simp only [newtonRun] at hb; injection hb with hb; exact hb.symm
    | succ e ih =>
      intro b hb
      simp only [newtonRun] at hb
      split at hb
      · simp at hb
      · rename_i b' hb'
        simp only [newtonStep] at hb'
        split at hb'
        · simp at hb'
        · injection hb' with hb'
          rw [hg, mulVec_zero, sub_zero] at hb'
          rw [← hb'] at hb
          exact ih b hb

/-- A fixed point: without any sample every parameter vector is one (for the general case see `C84_minimum_is_fixed`); with
the sample (0) in both classes the zero vector is one. -/
example (lr : ℝ) : gdRun lr (fun _ _ => 0 : Fin 2 → Fin 1 → ℝ) ![0, 1] 1 0 = 0 := by
  funext j
  simp only [gdRun, gdStep, backward, Fin.sum_univ_two, forward, scores]
  fin_cases j <;> (simp [hat, sigmoid, Fin.snoc]; try norm_num)

/-! ## Prediction -/

/-- C85: `predict` gives a probability strictly between 0 and 1, above one half exactly on the positive side of the hyperplane
`w·x + b = 0`, and greater for rows with greater `w·x + b`. -/
theorem C85_predict (x : Fin n → Fin d → ℝ) (beta : Fin (d + 1) → ℝ) (i i' : Fin n) :
    0 < forward x beta i ∧ forward x beta i < 1 ∧
    (1 / 2 < forward x beta i ↔ 0 < (∑ j : Fin d, x i j * beta j.castSucc) + beta (Fin.last d)) ∧
    (forward x beta i < forward x beta i' ↔
      (∑ j : Fin d, x i j * beta j.castSucc) + beta (Fin.last d) < (∑ j : Fin d, x i' j * beta j.castSucc) + beta (Fin.last d)) := by
  rw [← scores_eq, ← scores_eq]
  unfold forward
  have mono : ∀ a b, sigmoid a < sigmoid b ↔ a < b := by
    intro a b
    unfold sigmoid
    rw [one_div_lt_one_div (by positivity) (by positivity)]
    simp
  refine ⟨sigmoid_pos _, sigmoid_lt_one _, ?_, mono _ _⟩
  have : (1 / 2 : ℝ) = sigmoid 0 := by norm_num [sigmoid]
  rw [this, mono]

/-- C84: if some combination of the features (with the constant) vanishes on all samples, Newton's method raises `LinAlgError` in its first epoch,
whatever the parameters. -/
theorem C84_newton_collinear (x : Fin n → Fin d → ℝ) (y : Fin n → ℝ) (beta : Fin (d + 1) → ℝ) (e : Nat) (v : Fin (d + 1) → ℝ) (hv : v ≠ 0)
    (h : ∀ i, (∑ j : Fin d, x i j * v j.castSucc) + v (Fin.last d) = 0) : newtonRun x y (e + 1) beta = .error .valueError := by
  have h0 : (hessian (forward x beta) (hat x)).det = 0 := by
    rw [← Matrix.exists_mulVec_eq_zero_iff]
    refine ⟨v, hv, funext fun j => ?_⟩
    simp only [Matrix.mulVec, dotProduct, hessian_apply, Pi.zero_apply, Finset.sum_mul]
    rw [Finset.sum_comm]
    refine Finset.sum_eq_zero fun i _ => ?_
    have hs : scores x v i = 0 := by rw [scores_eq]; exact h i
    have : ∑ k, forward x beta i * (1 - forward x beta i) * hat x i j * hat x i k * v k =
        forward x beta i * (1 - forward x beta i) * hat x i j * scores x v i := by
      unfold scores
      rw [Finset.mul_sum]
      exact Finset.sum_congr rfl fun k _ => by ring
    rw [this, hs, mul_zero]
  simp only [newtonRun, newtonStep, h0, if_true]

/-- C84: with no more samples than features Newton's method always raises `LinAlgError` (in exact arithmetic). -/
theorem C84_newton_few_samples (x : Fin n → Fin d → ℝ) (y : Fin n → ℝ) (beta : Fin (d + 1) → ℝ) (e : Nat) (hn : n ≤ d) :
    newtonRun x y (e + 1) beta = .error .valueError := by
  let f : (Fin (d + 1) → ℝ) →ₗ[ℝ] (Fin n → ℝ) := LinearMap.pi fun i => (form x i).toLinearMap
  have hker := LinearMap.ker_ne_bot_of_finrank_lt (f := f) (by simp; omega)
  obtain ⟨v, hv, h0⟩ := (Submodule.ne_bot_iff _).1 hker
  refine C84_newton_collinear x y beta e v h0 fun i => ?_
  rw [← scores_eq, ← form_apply]
  exact congrFun (LinearMap.mem_ker.1 hv) i

end CML.LogReg
