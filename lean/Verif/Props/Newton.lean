import Verif.Spec.Newton
import Verif.Props.LogReg
import Mathlib.Analysis.Complex.ExponentialBounds
import Mathlib.Analysis.SpecialFunctions.Trigonometric.DerivHyp
import Mathlib.Analysis.Calculus.MeanValue
import Mathlib.Analysis.Normed.Module.FiniteDimension
import Mathlib.Topology.Algebra.Module.FiniteDimension
import Mathlib.Analysis.SpecificLimits.Basic

set_option linter.unusedSectionVars false

/-! # Newton's method for logistic regression (C233, C234, C235) -/

namespace CML.LogReg
open Finset Matrix

variable {n d : Nat}

theorem scores_score (x : Fin n → Fin d → ℝ) (v : Fin (d + 1) → ℝ) (i : Fin n) : scores x v i = score (x i) v := scores_eq x v i

/-- The quadratic form of the Hessian. -/
theorem hessian_quad (x : Fin n → Fin d → ℝ) (beta v : Fin (d + 1) → ℝ) :
    v ⬝ᵥ (hessian (forward x beta) (hat x) *ᵥ v) = curvature x beta v := by
  unfold curvature
  simp only [← forward_eq, ← scores_score]
  simp only [dotProduct, mulVec, hessian_apply, scores, Finset.mul_sum, Finset.sum_mul, pow_two]
  calc _ = ∑ j, ∑ i, ∑ k, v j * (forward x beta i * (1 - forward x beta i) * hat x i j * hat x i k * v k) :=
        Finset.sum_congr rfl fun j _ => by rw [Finset.sum_comm]
    _ = ∑ i, ∑ j, ∑ k, v j * (forward x beta i * (1 - forward x beta i) * hat x i j * hat x i k * v k) := Finset.sum_comm
    _ = _ := by
      refine Finset.sum_congr rfl fun i _ => ?_
      rw [Finset.sum_comm]
      exact Finset.sum_congr rfl fun k _ => Finset.sum_congr rfl fun j _ => by ring

theorem weight_pos (x : Fin n → Fin d → ℝ) (beta : Fin (d + 1) → ℝ) (i : Fin n) : 0 < forward x beta i * (1 - forward x beta i) := by
  have h1 := sigmoid_pos (scores x beta i)
  have h2 := sigmoid_lt_one (scores x beta i)
  unfold forward
  exact mul_pos h1 (by linarith)

/-- `H v` in terms of the scores. -/
theorem hessian_mulVec (x : Fin n → Fin d → ℝ) (beta v : Fin (d + 1) → ℝ) (j : Fin (d + 1)) :
    (hessian (forward x beta) (hat x) *ᵥ v) j = ∑ i, forward x beta i * (1 - forward x beta i) * scores x v i * hat x i j := by
  simp only [mulVec, dotProduct, hessian_apply, scores, Finset.mul_sum, Finset.sum_mul]
  rw [Finset.sum_comm]
  exact Finset.sum_congr rfl fun i _ => Finset.sum_congr rfl fun k _ => by ring

/-- The Hessian is singular exactly if the attributes are linearly dependent. -/
theorem det_ne_zero_iff (x : Fin n → Fin d → ℝ) (beta : Fin (d + 1) → ℝ) :
    (hessian (forward x beta) (hat x)).det ≠ 0 ↔ FullRank x := by
  constructor
  · intro hdet v hv
    apply Matrix.eq_zero_of_mulVec_eq_zero hdet
    funext j
    rw [hessian_mulVec]
    refine Finset.sum_eq_zero fun i _ => ?_
    rw [scores_score, hv i]; ring
  · intro hr hdet
    obtain ⟨v, hv, h0⟩ := Matrix.exists_mulVec_eq_zero_iff.2 hdet
    apply hv
    apply hr
    have hq : curvature x beta v = 0 := by rw [← hessian_quad, h0, dotProduct_zero]
    intro i
    have hnn : ∀ i ∈ Finset.univ, 0 ≤ prob (x i) beta * (1 - prob (x i) beta) * score (x i) v ^ 2 := fun i _ => by
      rw [← forward_eq]; exact mul_nonneg (weight_pos x beta i).le (sq_nonneg _)
    have := (Finset.sum_eq_zero_iff_of_nonneg hnn).1 hq i (Finset.mem_univ i)
    rw [← forward_eq] at this
    have := (mul_eq_zero.1 this).resolve_left (weight_pos x beta i).ne'
    exact pow_eq_zero_iff (two_ne_zero) |>.1 this

/-- C234, exactly: an epoch of Newton's method succeeds, from whatever parameters and labels, if and only if the attributes with the
constant are linearly independent on the training rows. -/
theorem C234_newton_succeeds_iff (x : Fin n → Fin d → ℝ) (y : Fin n → ℝ) (beta : Fin (d + 1) → ℝ) :
    (∃ b, newtonRun x y 1 beta = .ok b) ↔ FullRank x := by
  rw [← det_ne_zero_iff x beta]
  simp only [newtonRun, newtonStep]
  by_cases h : (hessian (forward x beta) (hat x)).det = 0
  · rw [if_pos h]; simp [h]
  · rw [if_neg h]; simp [h]

theorem newtonStep_ok (x : Fin n → Fin d → ℝ) (y : Fin n → ℝ) (hr : FullRank x) (beta delta : Fin (d + 1) → ℝ)
    (h : hessian (forward x beta) (hat x) *ᵥ delta = backward (forward x beta) y (hat x)) :
    newtonStep x y beta = .ok (beta - delta) := by
  have hdet := (det_ne_zero_iff x beta).2 hr
  simp only [newtonStep]
  rw [if_neg hdet, ← h, Matrix.mulVec_mulVec, Matrix.nonsing_inv_mul _ (isUnit_iff_ne_zero.2 hdet), Matrix.one_mulVec]

/-- The equation a Newton step solves. -/
theorem newtonStep_spec {x : Fin n → Fin d → ℝ} {y : Fin n → ℝ} {beta b : Fin (d + 1) → ℝ} (h : newtonStep x y beta = .ok b) :
    FullRank x ∧ hessian (forward x beta) (hat x) *ᵥ (b - beta) = -backward (forward x beta) y (hat x) := by
  simp only [newtonStep] at h
  split at h
  · simp at h
  · rename_i hdet
    injection h with h
    refine ⟨(det_ne_zero_iff x beta).1 hdet, ?_⟩
    rw [← h]
    have : beta - (hessian (forward x beta) (hat x))⁻¹ *ᵥ backward (forward x beta) y (hat x) - beta =
        -((hessian (forward x beta) (hat x))⁻¹ *ᵥ backward (forward x beta) y (hat x)) := by
      funext j; simp
    rw [this, Matrix.mulVec_neg, Matrix.mulVec_mulVec, Matrix.mul_nonsing_inv _ (isUnit_iff_ne_zero.2 hdet), Matrix.one_mulVec]

theorem newtonRun_all (x : Fin n → Fin d → ℝ) (y : Fin n → ℝ) (hr : FullRank x) (e : Nat) :
    ∀ beta, ∃ b, newtonRun x y e beta = .ok b := by
  induction e with
  | zero => exact fun beta => ⟨beta, rfl⟩
  | succ e ih =>
    intro beta
    obtain ⟨b, hb⟩ := (C234_newton_succeeds_iff x y beta).2 hr
    simp only [newtonRun] at hb ⊢
    cases hs : newtonStep x y beta with
    | error err => rw [hs] at hb; simp at hb
    | ok b' => exact ih b'

/-- C234: with linearly independent attributes Newton's method never fails. -/
theorem C234_newton_never_fails_partial (x : Fin n → Fin d → ℝ) (y : Fin n → ℝ) (hr : FullRank x) (e : Nat) (beta : Fin (d + 1) → ℝ) :
    ∃ b, newtonRun x y e beta = .ok b := newtonRun_all x y hr e beta

/-- C234 is false for linearly dependent attributes: for every labelling, every initial parameters and any positive number of
epochs `LinAlgError` is raised. -/
theorem C234_violated (x : Fin n → Fin d → ℝ) (hx : ¬ FullRank x) (y : Fin n → ℝ) (e : Nat) (beta : Fin (d + 1) → ℝ) :
    newtonRun x y (e + 1) beta = .error .valueError := by
  have h : (hessian (forward x beta) (hat x)).det = 0 := by
    by_contra hc; exact hx ((det_ne_zero_iff x beta).1 hc)
  have hs : newtonStep x y beta = .error .valueError := by
    simp only [newtonStep]; rw [if_pos h]
  rw [newtonRun, hs]

/-- Fewer samples than parameters, a constant attribute, and a repeated attribute are all linearly dependent. -/
theorem C234_dependent (x : Fin n → Fin d → ℝ) :
    (n ≤ d → ¬ FullRank x) ∧ (∀ k c, (∀ i, x i k = c) → ¬ FullRank x) ∧
    (∀ k l, k ≠ l → (∀ i, x i k = x i l) → ¬ FullRank x) := by
  refine ⟨fun hn hr => ?_, fun k c hk hr => ?_, fun k l hkl h hr => ?_⟩
  · let M : Matrix (Fin n) (Fin (d + 1)) ℝ := Matrix.of (hat x)
    have hk : LinearMap.ker M.mulVecLin ≠ ⊥ := LinearMap.ker_ne_bot_of_finrank_lt (by simp; omega)
    obtain ⟨v, h0, hv⟩ := (Submodule.ne_bot_iff _).1 hk
    rw [LinearMap.mem_ker, Matrix.mulVecLin_apply] at h0
    apply hv; apply hr
    intro i
    rw [← scores_score]
    exact congrFun h0 i
  · have := hr (Fin.snoc (fun j => if j = k then 1 else 0) (-c)) (fun i => by simp [score, hk i])
    have := congrFun this k.castSucc
    simp at this
  · have := hr (Fin.snoc (fun j => if j = k then 1 else if j = l then -1 else 0) 0) (fun i => by
      simp only [score, Fin.snoc_castSucc, Fin.snoc_last, add_zero]
      have : ∀ j, x i j * (if j = k then (1 : ℝ) else if j = l then -1 else 0) =
          (if j = k then x i k else 0) - (if j = l then x i l else 0) := by
        intro j
        by_cases h1 : j = k
        · subst h1; simp [hkl]
        · by_cases h2 : j = l
          · subst h2; simp [h1]
          · simp [h1, h2]
      simp only [this, Finset.sum_sub_distrib, Finset.sum_ite_eq', Finset.mem_univ, if_true]
      rw [h i]; ring)
    have := congrFun this k.castSucc
    simp at this

/-! ## The logistic function on a short interval -/

theorem exp_near {s : ℝ} (hs : |s| ≤ 1) : |Real.exp s - 1 - s| ≤ 3 / 4 * s ^ 2 := by
  have h := Real.exp_bound hs (n := 2) (by norm_num)
  have e : ∑ m ∈ Finset.range 2, s ^ m / (m.factorial : ℝ) = 1 + s := by simp [Finset.sum_range_succ]
  rw [e] at h
  have e2 : Real.exp s - 1 - s = Real.exp s - (1 + s) := by ring
  rw [e2]
  refine le_trans h (le_of_eq ?_)
  rw [sq_abs]
  norm_num [Nat.factorial]
  ring

/-- The increment of the logistic function. -/
theorem sigmoid_step (u s : ℝ) : ∃ D : ℝ, 0 < D ∧ D = 1 + sigmoid u * (Real.exp s - 1) ∧
    sigmoid (u + s) - sigmoid u = sigmoid u * (1 - sigmoid u) * ((Real.exp s - 1) / D) ∧
    sigmoid (u + s) * (1 - sigmoid (u + s)) = sigmoid u * (1 - sigmoid u) * (Real.exp s / D ^ 2) := by
  have hu := Real.exp_pos u
  have hs := Real.exp_pos s
  have h1 : (1 + Real.exp u) ≠ 0 := by positivity
  have h2 : (1 + Real.exp u * Real.exp s) ≠ 0 := by positivity
  have hD : 1 + sigmoid u * (Real.exp s - 1) = (1 + Real.exp u * Real.exp s) / (1 + Real.exp u) := by
    rw [sigmoid_eq_exp]; field_simp; ring
  refine ⟨1 + sigmoid u * (Real.exp s - 1), by rw [hD]; positivity, rfl, ?_, ?_⟩
  · rw [hD, sigmoid_eq_exp, sigmoid_eq_exp, Real.exp_add]
    field_simp; ring
  · rw [hD, sigmoid_eq_exp, sigmoid_eq_exp, Real.exp_add]
    field_simp; ring

theorem sigmoid_ratio (u s : ℝ) : ∃ ρ : ℝ, sigmoid (u + s) - sigmoid u = sigmoid u * (1 - sigmoid u) * ρ ∧
    1 - Real.exp (-s) ≤ ρ ∧ ρ ≤ Real.exp s - 1 := by
  obtain ⟨D, hD, hDe, h, -⟩ := sigmoid_step u s
  refine ⟨_, h, ?_, ?_⟩
  · rw [le_div_iff₀ hD, hDe, Real.exp_neg]
    have hs := Real.exp_pos s
    have h1 := sigmoid_pos u
    have h2 := sigmoid_lt_one u
    have : 1 - (Real.exp s)⁻¹ = (Real.exp s - 1) / Real.exp s := by field_simp
    rw [this, div_mul_eq_mul_div, div_le_iff₀ hs]
    nlinarith [mul_nonneg (sub_nonneg.2 h2.le) (sq_nonneg (Real.exp s - 1))]
  · rw [div_le_iff₀ hD, hDe]
    have h1 := sigmoid_pos u
    nlinarith [mul_nonneg h1.le (sq_nonneg (Real.exp s - 1))]

theorem sigmoid_near (u : ℝ) {s : ℝ} (hs : |s| ≤ 1) :
    |sigmoid (u + s) - sigmoid u - sigmoid u * (1 - sigmoid u) * s| ≤ 3 / 4 * (sigmoid u * (1 - sigmoid u) * s ^ 2) := by
  obtain ⟨ρ, h, h1, h2⟩ := sigmoid_ratio u s
  have hw : 0 < sigmoid u * (1 - sigmoid u) := mul_pos (sigmoid_pos u) (by linarith [sigmoid_lt_one u])
  have e1 := abs_le.1 (exp_near hs)
  have e2 := abs_le.1 (exp_near (s := -s) (by rwa [abs_neg]))
  have : |ρ - s| ≤ 3 / 4 * s ^ 2 := by
    rw [abs_le]; constructor <;> nlinarith [e1.1, e1.2, e2.1, e2.2]
  have e3 : sigmoid (u + s) - sigmoid u - sigmoid u * (1 - sigmoid u) * s = sigmoid u * (1 - sigmoid u) * (ρ - s) := by
    rw [h]; ring
  rw [e3, abs_mul, abs_of_pos hw]
  calc _ ≤ sigmoid u * (1 - sigmoid u) * (3 / 4 * s ^ 2) := mul_le_mul_of_nonneg_left this hw.le
    _ = _ := by ring

theorem weight_near (u s : ℝ) :
    Real.exp (-|s|) * (sigmoid u * (1 - sigmoid u)) ≤ sigmoid (u + s) * (1 - sigmoid (u + s)) := by
  obtain ⟨D, hD, hDe, -, h⟩ := sigmoid_step u s
  have hw : 0 < sigmoid u * (1 - sigmoid u) := mul_pos (sigmoid_pos u) (by linarith [sigmoid_lt_one u])
  rw [h, mul_comm]
  refine mul_le_mul_of_nonneg_left ?_ hw.le
  have h1 := sigmoid_pos u
  have h2 := sigmoid_lt_one u
  have hs := Real.exp_pos s
  rw [le_div_iff₀ (by positivity)]
  rcases le_total 0 s with h0 | h0
  · rw [abs_of_nonneg h0, Real.exp_neg]
    have hE : 1 ≤ Real.exp s := Real.one_le_exp h0
    have hDE : D ≤ Real.exp s := by rw [hDe]; nlinarith
    rw [inv_mul_le_iff₀ hs]
    nlinarith
  · rw [abs_of_nonpos h0, neg_neg]
    have hE : Real.exp s ≤ 1 := Real.exp_le_one_iff.2 h0
    have hDE : D ≤ 1 := by rw [hDe]; nlinarith
    have hD2 : D ^ 2 ≤ 1 := pow_le_one₀ hD.le hDE
    nlinarith

theorem softplus_near (u : ℝ) {s : ℝ} (hs : |s| ≤ 1) :
    softplus (u + s) ≤ softplus u + sigmoid u * s + 7 / 8 * (sigmoid u * (1 - sigmoid u) * s ^ 2) := by
  set w := sigmoid u * (1 - sigmoid u) with hwdef
  have hw : 0 < w := mul_pos (sigmoid_pos u) (by linarith [sigmoid_lt_one u])
  let f : ℝ → ℝ := fun t => softplus u + sigmoid u * t + 7 / 8 * (w * t ^ 2) - softplus (u + t)
  have hf : ∀ t, HasDerivAt f (sigmoid u + 7 / 4 * (w * t) - sigmoid (u + t)) t := by
    intro t
    have h1 : HasDerivAt (fun t : ℝ => sigmoid u * t) (sigmoid u) t := by simpa using (hasDerivAt_id t).const_mul (sigmoid u)
    have h2 : HasDerivAt (fun t : ℝ => 7 / 8 * (w * t ^ 2)) (7 / 4 * (w * t)) t := by
      have := (((hasDerivAt_id t).pow 2).const_mul w).const_mul (7 / 8)
      refine this.congr_deriv ?_
      simp; ring
    have h3 : HasDerivAt (fun t : ℝ => softplus (u + t)) (sigmoid (u + t)) t := by
      have := (softplus_deriv (u + t)).comp t ((hasDerivAt_id t).const_add u)
      simpa [Function.comp_def] using this
    exact ((h1.const_add (softplus u)).add h2).sub h3
  have hc : ∀ S, ContinuousOn f S := fun S t _ => (hf t).continuousAt.continuousWithinAt
  have hsign : ∀ t, |t| ≤ 1 → (0 ≤ t → 0 ≤ sigmoid u + 7 / 4 * (w * t) - sigmoid (u + t)) ∧
      (t ≤ 0 → sigmoid u + 7 / 4 * (w * t) - sigmoid (u + t) ≤ 0) := by
    intro t ht
    have h := abs_le.1 (sigmoid_near u ht)
    rw [← hwdef] at h
    have ht' := abs_le.1 ht
    constructor
    · intro h0
      have : w * t ^ 2 ≤ w * t := by
        refine mul_le_mul_of_nonneg_left ?_ hw.le
        nlinarith
      linarith [h.2]
    · intro h0
      have : w * t ^ 2 ≤ w * (-t) := by
        refine mul_le_mul_of_nonneg_left ?_ hw.le
        nlinarith
      linarith [h.1]
  have h0 : f 0 = 0 := by simp [f]
  have key : 0 ≤ f s := by
    have hs' := abs_le.1 hs
    rcases le_total 0 s with h | h
    · rw [← h0]
      refine monotoneOn_of_deriv_nonneg (convex_Icc 0 1) (hc _) (fun t _ => (hf t).differentiableAt.differentiableWithinAt) ?_
        (Set.left_mem_Icc.2 zero_le_one) ⟨h, hs'.2⟩ h
      intro t ht
      rw [interior_Icc] at ht
      rw [(hf t).deriv]
      exact (hsign t (abs_le.2 ⟨by linarith [ht.1], ht.2.le⟩)).1 ht.1.le
    · rw [← h0]
      refine antitoneOn_of_deriv_nonpos (convex_Icc (-1) 0) (hc _) (fun t _ => (hf t).differentiableAt.differentiableWithinAt) ?_
        ⟨hs'.1, h⟩ (Set.right_mem_Icc.2 (by norm_num)) h
      intro t ht
      rw [interior_Icc] at ht
      rw [(hf t).deriv]
      exact (hsign t (abs_le.2 ⟨ht.1.le, by linarith [ht.2]⟩)).2 ht.2.le
  simp only [f] at key
  linarith

/-! ## One Newton step -/

theorem curvature_eq (x : Fin n → Fin d → ℝ) (beta v : Fin (d + 1) → ℝ) :
    curvature x beta v = ∑ i, forward x beta i * (1 - forward x beta i) * scores x v i ^ 2 := by
  unfold curvature; simp only [← forward_eq, ← scores_score]

theorem curvature_nonneg (x : Fin n → Fin d → ℝ) (beta v : Fin (d + 1) → ℝ) : 0 ≤ curvature x beta v := by
  rw [curvature_eq]
  exact Finset.sum_nonneg fun i _ => mul_nonneg (weight_pos x beta i).le (sq_nonneg _)

theorem newton_inner {x : Fin n → Fin d → ℝ} {y : Fin n → ℝ} {beta b : Fin (d + 1) → ℝ} (h : newtonStep x y beta = .ok b)
    (v : Fin (d + 1) → ℝ) :
    ∑ i, forward x beta i * (1 - forward x beta i) * scores x (b - beta) i * scores x v i =
      -∑ i, (forward x beta i - y i) * scores x v i := by
  have hH := (newtonStep_spec h).2
  rw [← backward_dot, sum_scores, ← Finset.sum_neg_distrib]
  refine Finset.sum_congr rfl fun j _ => ?_
  have := congrFun hH j
  rw [hessian_mulVec] at this
  rw [this]
  simp

theorem scores_sub (x : Fin n → Fin d → ℝ) (b c : Fin (d + 1) → ℝ) (i : Fin n) : scores x (b - c) i = scores x b i - scores x c i := by
  simp [scores, mul_sub, Finset.sum_sub_distrib]

/-- A Newton step that changes no score by more than 1 lowers the loss. -/
theorem newton_descent {x : Fin n → Fin d → ℝ} {y : Fin n → ℝ} {beta b : Fin (d + 1) → ℝ} (h : newtonStep x y beta = .ok b)
    (hs : ∀ i, |scores x (b - beta) i| ≤ 1) : loss x y b ≤ loss x y beta - 1 / 8 * curvature x beta (b - beta) := by
  have hin := newton_inner h (b - beta)
  have hq : curvature x beta (b - beta) = -∑ i, (forward x beta i - y i) * scores x (b - beta) i := by
    rw [← hin, curvature_eq]
    exact Finset.sum_congr rfl fun i _ => by ring
  have hl : loss x y b ≤ loss x y beta + ∑ i, (forward x beta i - y i) * scores x (b - beta) i +
      7 / 8 * curvature x beta (b - beta) := by
    rw [curvature_eq, Finset.mul_sum]
    unfold loss logLikelihoodOf
    rw [← Finset.sum_add_distrib, ← Finset.sum_add_distrib]
    refine Finset.sum_le_sum fun i _ => ?_
    have e : scores x b i = scores x beta i + scores x (b - beta) i := by rw [scores_sub]; ring
    have h1 := softplus_near (scores x beta i) (hs i)
    unfold softplus at h1
    rw [e]
    unfold forward
    linarith
  linarith

theorem curvature_pos {x : Fin n → Fin d → ℝ} (hr : FullRank x) (beta v : Fin (d + 1) → ℝ) (hv : v ≠ 0) : 0 < curvature x beta v := by
  refine lt_of_le_of_ne (curvature_nonneg x beta v) fun h0 => hv (hr v fun i => ?_)
  have hnn : ∀ i ∈ Finset.univ, 0 ≤ prob (x i) beta * (1 - prob (x i) beta) * score (x i) v ^ 2 := fun i _ => by
    rw [← forward_eq]; exact mul_nonneg (weight_pos x beta i).le (sq_nonneg _)
  have := (Finset.sum_eq_zero_iff_of_nonneg hnn).1 h0.symm i (Finset.mem_univ i)
  rw [← forward_eq] at this
  have := (mul_eq_zero.1 this).resolve_left (weight_pos x beta i).ne'
  exact pow_eq_zero_iff (two_ne_zero) |>.1 this

theorem run_one {x : Fin n → Fin d → ℝ} {y : Fin n → ℝ} {beta b : Fin (d + 1) → ℝ} (h : newtonRun x y 1 beta = .ok b) :
    newtonStep x y beta = .ok b := by
  simp only [newtonRun] at h
  cases hs : newtonStep x y beta with
  | error e => rw [hs] at h; simp at h
  | ok b' => rw [hs] at h; simpa using h

/-- C233, what can be proved: an epoch of Newton's method that changes the score of no training row by more than 1 lowers the negative
log-likelihood, unless it changes nothing. -/
theorem C233_descent_partial (x : Fin n → Fin d → ℝ) (y : Fin n → ℝ) (hy : Labels y) (beta b : Fin (d + 1) → ℝ)
    (h : newtonRun x y 1 beta = .ok b) (hs : ∀ i, |score (x i) b - score (x i) beta| ≤ 1) :
    negLogLikelihood x y b ≤ negLogLikelihood x y beta ∧ (b ≠ beta → negLogLikelihood x y b < negLogLikelihood x y beta) := by
  have h' := run_one h
  rw [← C47_loss x y hy, ← C47_loss x y hy]
  have hd := newton_descent h' (fun i => by rw [scores_sub, scores_score, scores_score]; exact hs i)
  refine ⟨by linarith [curvature_nonneg x beta (b - beta)], fun hne => ?_⟩
  have := curvature_pos (newtonStep_spec h').1 beta (b - beta) (sub_ne_zero.2 hne)
  linarith

/-! ## Divergence -/

theorem noisy_scores (a : ℝ) (beta : Fin 2 → ℝ) : scores (noisyRows a) beta =
    ![a * beta 0 + beta 1, a * beta 0 + beta 1, -a * beta 0 + beta 1, -a * beta 0 + beta 1] := by
  funext i
  rw [scores_score]
  fin_cases i <;> simp [score, noisyRows, Fin.last]

theorem noisy_full (a : ℝ) (ha : a ≠ 0) : FullRank (noisyRows a) := by
  intro v hv
  have h0 := hv 0
  have h2 := hv 2
  simp [score, noisyRows, Fin.last] at h0 h2
  have h1 : v 1 = 0 := by linarith
  have h3 : a * v 0 = 0 := by linarith
  funext j
  fin_cases j
  · exact (mul_eq_zero.1 h3).resolve_left ha
  · exact h1

theorem sinh_identity (u : ℝ) : sigmoid u * (1 - sigmoid u) * Real.sinh u * 2 = 2 * sigmoid u - 1 := by
  rw [sigmoid_eq_exp, Real.sinh_eq, Real.exp_neg]
  have hu := Real.exp_pos u
  have h1 : (1 + Real.exp u) ≠ 0 := by positivity
  field_simp
  ring

theorem noisy_step (a : ℝ) (ha : a ≠ 0) (beta : Fin 2 → ℝ) : ∃ b, newtonStep (noisyRows a) noisyLabels beta = .ok b ∧
    a * b 0 + b 1 = (a * beta 0 + beta 1) - Real.sinh (a * beta 0 + beta 1) ∧
    -a * b 0 + b 1 = (-a * beta 0 + beta 1) - Real.sinh (-a * beta 0 + beta 1) := by
  set u := a * beta 0 + beta 1 with hu
  set v := -a * beta 0 + beta 1 with hv
  let delta : Fin 2 → ℝ := ![(Real.sinh u - Real.sinh v) / (2 * a), (Real.sinh u + Real.sinh v) / 2]
  have hd1 : a * delta 0 + delta 1 = Real.sinh u := by simp [delta]; field_simp; ring
  have hd2 : -a * delta 0 + delta 1 = Real.sinh v := by simp [delta]; field_simp; ring
  have hsu := sinh_identity u
  have hsv := sinh_identity v
  refine ⟨beta - delta, newtonStep_ok _ _ (noisy_full a ha) beta delta ?_, ?_, ?_⟩
  · funext j
    rw [hessian_mulVec]
    simp only [backward, forward, noisy_scores, hd1, hd2, ← hu, ← hv]
    rw [Fin.sum_univ_four, Fin.sum_univ_four]
    have hh0 : hat (noisyRows a) 0 = ![a, 1] := by funext k; fin_cases k <;> rfl
    have hh1 : hat (noisyRows a) 1 = ![a, 1] := by funext k; fin_cases k <;> rfl
    have hh2 : hat (noisyRows a) 2 = ![-a, 1] := by funext k; fin_cases k <;> rfl
    have hh3 : hat (noisyRows a) 3 = ![-a, 1] := by funext k; fin_cases k <;> rfl
    rw [hh0, hh1, hh2, hh3]
    fin_cases j <;> simp [noisyLabels]
    · linear_combination a * hsu - a * hsv
    · linear_combination hsu + hsv
  · simp only [Pi.sub_apply]; linarith
  · simp only [Pi.sub_apply]; linarith

theorem sinh_large {u : ℝ} (hu : 4 ≤ |u|) : 3 / 2 * |u| ≤ |u - Real.sinh u| := by
  have key : ∀ z : ℝ, 4 ≤ z → 5 / 2 * z ≤ Real.sinh z := by
    intro z hz
    have h1 := Real.sum_le_exp_of_nonneg (x := z) (by linarith) 4
    simp only [Finset.sum_range_succ, Finset.sum_range_zero, Nat.factorial] at h1
    norm_num at h1
    have h2 : Real.exp (-z) ≤ 1 := Real.exp_le_one_iff.2 (by linarith)
    rw [Real.sinh_eq]
    nlinarith [mul_nonneg (sub_nonneg.2 hz) (sub_nonneg.2 hz), mul_nonneg (mul_nonneg (sub_nonneg.2 hz) (sub_nonneg.2 hz)) (by linarith : (0:ℝ) ≤ z)]
  rcases le_total 0 u with h | h
  · rw [abs_of_nonneg h] at hu ⊢
    have := key u hu
    rw [abs_of_nonpos (by linarith)]
    linarith
  · rw [abs_of_nonpos h] at hu ⊢
    have := key (-u) hu
    rw [Real.sinh_neg] at this
    rw [abs_of_nonneg (by linarith)]
    linarith

theorem pair_loss (u : ℝ) : softplus u + (-u + softplus u) = Real.log (2 + 2 * Real.cosh u) := by
  unfold softplus
  have h1 : (0 : ℝ) < 1 + Real.exp u := by positivity
  have : 2 + 2 * Real.cosh u = (1 + Real.exp u) * (1 + Real.exp u) * Real.exp (-u) := by
    rw [Real.cosh_eq]
    have : Real.exp u * Real.exp (-u) = 1 := by rw [← Real.exp_add]; simp
    linear_combination -2 * this - Real.exp u * this
  rw [this, Real.log_mul (by positivity) (by positivity), Real.log_mul h1.ne' h1.ne', Real.log_exp]
  ring

theorem noisy_loss (a : ℝ) (beta : Fin 2 → ℝ) : loss (noisyRows a) noisyLabels beta =
    Real.log (2 + 2 * Real.cosh (a * beta 0 + beta 1)) + Real.log (2 + 2 * Real.cosh (-a * beta 0 + beta 1)) := by
  rw [← pair_loss, ← pair_loss]
  unfold loss logLikelihoodOf
  rw [Fin.sum_univ_four, noisy_scores]
  simp [noisyLabels, softplus]
  ring

theorem log_cosh_lt {u v : ℝ} (h : |u| < |v|) : Real.log (2 + 2 * Real.cosh u) < Real.log (2 + 2 * Real.cosh v) := by
  have := Real.cosh_lt_cosh.2 h
  have := Real.cosh_pos u
  exact Real.log_lt_log (by linarith) (by linarith)

theorem log_cosh_ge (u : ℝ) : |u| ≤ Real.log (2 + 2 * Real.cosh u) := by
  have h := Real.cosh_pos u
  rw [Real.le_log_iff_exp_le (by linarith), ← Real.cosh_abs, Real.cosh_eq]
  have := Real.exp_pos (-|u|)
  linarith

theorem noisy_labels : Labels noisyLabels := by
  intro i; fin_cases i <;> simp [noisyLabels]

/-- C233 is false: on four noisy rows of one feature, from every initial parameters that give both kinds of rows a score of absolute
value at least 4, Newton's method never fails and increases the negative log-likelihood in every epoch, beyond every bound; the best
parameters are zero. -/
theorem C233_violated (a : ℝ) (ha : a ≠ 0) (beta : Fin 2 → ℝ)
    (h : ∀ i, 4 ≤ |score (noisyRows a i) beta|) :
    (∀ e, ∃ b b', newtonRun (noisyRows a) noisyLabels e beta = .ok b ∧ newtonRun (noisyRows a) noisyLabels (e + 1) beta = .ok b' ∧
      negLogLikelihood (noisyRows a) noisyLabels b < negLogLikelihood (noisyRows a) noisyLabels b' ∧
      8 * (3 / 2) ^ e ≤ negLogLikelihood (noisyRows a) noisyLabels b) ∧
    ∀ b, negLogLikelihood (noisyRows a) noisyLabels 0 ≤ negLogLikelihood (noisyRows a) noisyLabels b := by
  constructor
  · have hu : 4 ≤ |a * beta 0 + beta 1| := by
      have := h 0; rw [← scores_score, noisy_scores] at this; simpa using this
    have hv : 4 ≤ |-a * beta 0 + beta 1| := by
      have := h 2; rw [← scores_score, noisy_scores] at this; simpa using this
    clear h
    have main : ∀ (e : ℕ) (beta : Fin 2 → ℝ) (c : ℝ), 4 ≤ c → c ≤ |a * beta 0 + beta 1| → c ≤ |-a * beta 0 + beta 1| →
        ∃ b b', newtonRun (noisyRows a) noisyLabels e beta = .ok b ∧ newtonRun (noisyRows a) noisyLabels (e + 1) beta = .ok b' ∧
        loss (noisyRows a) noisyLabels b < loss (noisyRows a) noisyLabels b' ∧
        2 * (c * (3 / 2) ^ e) ≤ loss (noisyRows a) noisyLabels b := by
      intro e
      induction e with
      | zero =>
        intro beta c hc hu hv
        obtain ⟨b, hb, h1, h2⟩ := noisy_step a ha beta
        refine ⟨beta, b, rfl, by rw [newtonRun, hb]; rfl, ?_, ?_⟩
        · rw [noisy_loss, noisy_loss, h1, h2]
          have e1 := sinh_large (le_trans hc hu)
          have e2 := sinh_large (le_trans hc hv)
          exact add_lt_add (log_cosh_lt (by linarith)) (log_cosh_lt (by linarith))
        · rw [noisy_loss]
          have := log_cosh_ge (a * beta 0 + beta 1)
          have := log_cosh_ge (-a * beta 0 + beta 1)
          simp only [pow_zero]; linarith
      | succ e ih =>
        intro beta c hc hu hv
        obtain ⟨b, hb, h1, h2⟩ := noisy_step a ha beta
        obtain ⟨b1, b2, hb1, hb2, h3, h4⟩ := ih b (3 / 2 * c) (by linarith)
          (by rw [h1]; linarith [sinh_large (le_trans hc hu)]) (by rw [h2]; linarith [sinh_large (le_trans hc hv)])
        refine ⟨b1, b2, by rw [newtonRun, hb]; exact hb1, by rw [newtonRun, hb]; exact hb2, h3, ?_⟩
        rw [pow_succ]; linarith
    intro e
    obtain ⟨b, b', h1, h2, h3, h4⟩ := main e beta 4 (le_refl _) hu hv
    refine ⟨b, b', h1, h2, ?_, ?_⟩
    · rw [← C47_loss _ _ noisy_labels, ← C47_loss _ _ noisy_labels]; exact h3
    · rw [← C47_loss _ _ noisy_labels]; linarith
  · intro b
    rw [← C47_loss _ _ noisy_labels, ← C47_loss _ _ noisy_labels, noisy_loss, noisy_loss]
    have mono : ∀ u : ℝ, Real.log (2 + 2 * Real.cosh 0) ≤ Real.log (2 + 2 * Real.cosh u) := fun u => by
      have := Real.cosh_le_cosh.2 (show |(0 : ℝ)| ≤ |u| by simp)
      exact Real.log_le_log (by rw [Real.cosh_zero]; norm_num) (by linarith)
    have := mono (a * b 0 + b 1)
    have := mono (-a * b 0 + b 1)
    simp only [Pi.zero_apply, mul_zero, add_zero]
    linarith

/-- Such parameters: slope 1, no bias, rows 4 and -4. -/
example : ∀ i, 4 ≤ |score (noisyRows 4 i) ![1, 0]| := by
  intro i; rw [← scores_score, noisy_scores]; fin_cases i <;> simp

theorem exp_half_le : Real.exp (1 / 2) ≤ 5 / 3 := by
  have h : Real.exp (1 / 2) ^ 2 = Real.exp 1 := by rw [← Real.exp_nat_mul]; norm_num
  have h1 := Real.exp_one_lt_d9
  have h2 := Real.exp_pos (1 / 2)
  nlinarith

/-- The hypotheses of `C233_descent_partial` are met, by an epoch that changes the parameters. -/
example : ∃ b, newtonRun (noisyRows 1) noisyLabels 1 ![1 / 2, 0] = .ok b ∧ b ≠ ![1 / 2, 0] ∧
    ∀ i, |score (noisyRows 1 i) b - score (noisyRows 1 i) ![1 / 2, 0]| ≤ 1 := by
  obtain ⟨b, hb, h1, h2⟩ := noisy_step 1 one_ne_zero ![1 / 2, 0]
  have hs0 : 0 < Real.sinh (1 / 2) := Real.sinh_pos_iff.2 (by norm_num)
  have hs1 : Real.sinh (1 / 2) ≤ 1 := by
    rw [Real.sinh_eq]
    have := exp_half_le
    have := Real.exp_pos (-(1 / 2))
    linarith
  have h2' : -1 * b 0 + b 1 = -(1 / 2) + Real.sinh (1 / 2) := by
    have := h2; simp at this
    norm_num at this ⊢
    linarith
  have h1' : 1 * b 0 + b 1 = 1 / 2 - Real.sinh (1 / 2) := by
    have := h1; simp at this; norm_num at this ⊢; linarith
  refine ⟨b, by rw [newtonRun, hb]; rfl, ?_, ?_⟩
  · rintro rfl
    simp at h1'
    linarith
  · intro i
    rw [← scores_score, ← scores_score, noisy_scores, noisy_scores]
    fin_cases i <;> simp <;> rw [abs_le] <;> constructor <;> linarith

/-! ## C235: quadratic convergence -/

/-- Scores that change little keep most of the curvature. -/
theorem curvature_near (x : Fin n → Fin d → ℝ) (beta b v : Fin (d + 1) → ℝ) (q : ℝ)
    (hs : ∀ i, |scores x (b - beta) i| ≤ q) : Real.exp (-q) * curvature x beta v ≤ curvature x b v := by
  rw [curvature_eq, curvature_eq, Finset.mul_sum]
  refine Finset.sum_le_sum fun i _ => ?_
  have e : scores x b i = scores x beta i + scores x (b - beta) i := by rw [scores_sub]; ring
  have h1 := weight_near (scores x beta i) (scores x (b - beta) i)
  rw [← e] at h1
  have h2 : Real.exp (-q) ≤ Real.exp (-|scores x (b - beta) i|) := Real.exp_le_exp.2 (by linarith [hs i])
  have hw := weight_pos x beta i
  unfold forward at hw ⊢
  rw [← mul_assoc]
  refine mul_le_mul_of_nonneg_right (le_trans ?_ h1) (sq_nonneg _)
  exact mul_le_mul_of_nonneg_right h2 hw.le

/-- The next Newton step is quadratically smaller. -/
theorem newton_next {x : Fin n → Fin d → ℝ} {y : Fin n → ℝ} {beta b c : Fin (d + 1) → ℝ} (h : newtonStep x y beta = .ok b)
    (h' : newtonStep x y b = .ok c) (q : ℝ) (hq : q ≤ 1) (hs : ∀ i, |scores x (b - beta) i| ≤ q) :
    curvature x b (c - b) ≤ 9 / 16 * q ^ 2 * Real.exp q * curvature x beta (b - beta) := by
  set D := b - beta
  set v := c - b
  have hin := newton_inner h v
  have hin' := newton_inner h' v
  have hq' : curvature x b v = -∑ i, (forward x b i - y i) * scores x v i := by
    rw [← hin', curvature_eq]
    exact Finset.sum_congr rfl fun i _ => by ring
  set w : Fin n → ℝ := fun i => forward x beta i * (1 - forward x beta i) with hw
  have hwp : ∀ i, 0 < w i := weight_pos x beta
  have hbound : curvature x b v ≤ ∑ i, (w i * |scores x D i|) * |scores x v i| * (3 / 4 * q) := by
    have e : curvature x b v = -∑ i, (forward x b i - forward x beta i - w i * scores x D i) * scores x v i := by
      rw [hq']
      have : ∑ i, (forward x b i - forward x beta i - w i * scores x D i) * scores x v i =
          ∑ i, (forward x b i - y i) * scores x v i - ∑ i, (forward x beta i - y i) * scores x v i -
          ∑ i, w i * scores x D i * scores x v i := by
        rw [← Finset.sum_sub_distrib, ← Finset.sum_sub_distrib]
        exact Finset.sum_congr rfl fun i _ => by ring
      rw [this, hin]; ring
    rw [e, ← Finset.sum_neg_distrib]
    refine Finset.sum_le_sum fun i _ => ?_
    have e2 : scores x b i = scores x beta i + scores x D i := by rw [scores_sub]; ring
    have h1 := sigmoid_near (scores x beta i) (le_trans (hs i) hq)
    rw [← e2] at h1
    have h2 : |forward x b i - forward x beta i - w i * scores x D i| ≤ 3 / 4 * (w i * scores x D i ^ 2) := h1
    have h3 : 3 / 4 * (w i * scores x D i ^ 2) ≤ (w i * |scores x D i|) * (3 / 4 * q) := by
      rw [← sq_abs]
      have := hs i
      have hp : 0 ≤ w i * |scores x D i| := mul_nonneg (hwp i).le (abs_nonneg _)
      nlinarith [mul_le_mul_of_nonneg_left this hp]
    calc _ ≤ |(forward x b i - forward x beta i - w i * scores x D i) * scores x v i| := neg_le_abs _
      _ = |forward x b i - forward x beta i - w i * scores x D i| * |scores x v i| := abs_mul _ _
      _ ≤ ((w i * |scores x D i|) * (3 / 4 * q)) * |scores x v i| :=
        mul_le_mul_of_nonneg_right (le_trans h2 h3) (abs_nonneg _)
      _ = _ := by ring
  rw [← Finset.sum_mul] at hbound
  have hcs : (∑ i, (w i * |scores x D i|) * |scores x v i|) ^ 2 ≤ curvature x beta D * curvature x beta v := by
    have := Finset.sum_mul_sq_le_sq_mul_sq Finset.univ (fun i => Real.sqrt (w i) * |scores x D i|) (fun i => Real.sqrt (w i) * |scores x v i|)
    have e1 : ∀ i, Real.sqrt (w i) * |scores x D i| * (Real.sqrt (w i) * |scores x v i|) = (w i * |scores x D i|) * |scores x v i| := by
      intro i
      have := Real.mul_self_sqrt (hwp i).le
      linear_combination |scores x D i| * |scores x v i| * this
    have e2 : ∀ (u : Fin (d + 1) → ℝ) i, (Real.sqrt (w i) * |scores x u i|) ^ 2 = w i * scores x u i ^ 2 := by
      intro u i
      rw [mul_pow, Real.sq_sqrt (hwp i).le, sq_abs]
    simp only [e1, e2] at this
    rw [curvature_eq, curvature_eq]
    exact this
  have hnear := curvature_near x beta b v q hs
  have hC := curvature_nonneg x b v
  have hA := curvature_nonneg x beta D
  have hB := curvature_nonneg x beta v
  have hB' : curvature x beta v ≤ Real.exp q * curvature x b v := by
    rw [Real.exp_neg] at hnear
    rwa [inv_mul_le_iff₀ (Real.exp_pos q)] at hnear
  set S := ∑ i, (w i * |scores x D i|) * |scores x v i|
  have hsq : curvature x b v ^ 2 ≤ S ^ 2 * (3 / 4 * q) ^ 2 := by
    rw [← mul_pow]
    exact pow_le_pow_left₀ hC hbound 2
  have h4 : curvature x b v ^ 2 ≤ (9 / 16 * q ^ 2 * Real.exp q * curvature x beta D) * curvature x b v := by
    have hq2 : 0 ≤ (3 / 4 * q) ^ 2 := sq_nonneg _
    calc _ ≤ S ^ 2 * (3 / 4 * q) ^ 2 := hsq
      _ ≤ (curvature x beta D * curvature x beta v) * (3 / 4 * q) ^ 2 := mul_le_mul_of_nonneg_right hcs hq2
      _ ≤ (curvature x beta D * (Real.exp q * curvature x b v)) * (3 / 4 * q) ^ 2 :=
        mul_le_mul_of_nonneg_right (mul_le_mul_of_nonneg_left hB' hA) hq2
      _ = _ := by ring
  rcases eq_or_lt_of_le hC with h0 | h0
  · rw [← h0]; positivity
  · rw [pow_two] at h4
    exact le_of_mul_le_mul_right h4 h0

/-- The parameters after `e` epochs, when no epoch fails. -/
noncomputable def iter (x : Fin n → Fin d → ℝ) (y : Fin n → ℝ) (beta : Fin (d + 1) → ℝ) : Nat → (Fin (d + 1) → ℝ)
  | 0 => beta
  | e + 1 => match newtonStep x y (iter x y beta e) with
    | .ok b => b
    | .error _ => iter x y beta e

theorem iter_step (x : Fin n → Fin d → ℝ) (y : Fin n → ℝ) (hr : FullRank x) (beta : Fin (d + 1) → ℝ) (e : Nat) :
    newtonStep x y (iter x y beta e) = .ok (iter x y beta (e + 1)) := by
  obtain ⟨b, hb⟩ := (C234_newton_succeeds_iff x y (iter x y beta e)).2 hr
  rw [iter, run_one hb]

theorem iter_shift (x : Fin n → Fin d → ℝ) (y : Fin n → ℝ) (beta b : Fin (d + 1) → ℝ) (h : newtonStep x y beta = .ok b) (e : Nat) :
    iter x y beta (e + 1) = iter x y b e := by
  induction e with
  | zero => simp [iter, h]
  | succ e ih => rw [iter, ih]; rfl

theorem run_iter (x : Fin n → Fin d → ℝ) (y : Fin n → ℝ) (hr : FullRank x) (e : Nat) : ∀ beta,
    newtonRun x y e beta = .ok (iter x y beta e) := by
  induction e with
  | zero => intro beta; rfl
  | succ e ih =>
    intro beta
    have h : newtonStep x y beta = .ok (iter x y beta 1) := iter_step x y hr beta 0
    rw [newtonRun, h, iter_shift x y beta _ h e]
    exact ih _

theorem quad_rate (q : ℝ) (h1 : q ≤ 1 / 4) : 9 / 16 * Real.exp (2 * q) ≤ 1 := by
  have : Real.exp (2 * q) ≤ Real.exp (1 / 2) := Real.exp_le_exp.2 (by linarith)
  have := exp_half_le
  linarith

theorem newton_rate {x : Fin n → Fin d → ℝ} {y : Fin n → ℝ} (hr : FullRank x) (beta : Fin (d + 1) → ℝ) (k : ℝ)
    (hk : ∀ v i, scores x v i ^ 2 ≤ k * curvature x beta v)
    (h0 : k * curvature x beta (iter x y beta 1 - beta) ≤ (1 / 4) ^ 2) (hk0 : 0 ≤ k) (e : Nat) :
    ∃ k', 0 ≤ k' ∧ (∀ v i, scores x v i ^ 2 ≤ k' * curvature x (iter x y beta e) v) ∧
      k' * curvature x (iter x y beta e) (iter x y beta (e + 1) - iter x y beta e) ≤ ((1 / 4) ^ 2 ^ e) ^ 2 := by
  induction e with
  | zero => exact ⟨k, hk0, hk, by simpa [iter] using h0⟩
  | succ e ih =>
    obtain ⟨k', hk', hall, hsm⟩ := ih
    set b0 := iter x y beta e
    set b1 := iter x y beta (e + 1)
    set b2 := iter x y beta (e + 1 + 1)
    set q : ℝ := (1 / 4) ^ 2 ^ e with hqd
    have hq0 : 0 ≤ q := by positivity
    have hq1 : q ≤ 1 / 4 := by
      have : (1 / 4 : ℝ) ^ 2 ^ e ≤ (1 / 4) ^ 1 := pow_le_pow_of_le_one (by norm_num) (by norm_num) (Nat.one_le_two_pow)
      rw [pow_one] at this
      exact this
    have hs1 : newtonStep x y b0 = .ok b1 := iter_step x y hr beta e
    have hs2 : newtonStep x y b1 = .ok b2 := iter_step x y hr beta (e + 1)
    have hs : ∀ i, |scores x (b1 - b0) i| ≤ q := fun i => abs_le_of_sq_le_sq (le_trans (hall _ i) hsm) hq0
    refine ⟨k' * Real.exp q, by positivity, fun v i => ?_, ?_⟩
    · have := curvature_near x b0 b1 v q hs
      rw [Real.exp_neg, inv_mul_le_iff₀ (Real.exp_pos q)] at this
      calc _ ≤ k' * curvature x b0 v := hall v i
        _ ≤ k' * (Real.exp q * curvature x b1 v) := mul_le_mul_of_nonneg_left this hk'
        _ = _ := by ring
    · have hn := newton_next hs1 hs2 q (by linarith) hs
      have hr' := quad_rate q hq1
      have he : Real.exp (2 * q) = Real.exp q * Real.exp q := by rw [← Real.exp_add]; ring_nf
      have hpow : (1 / 4 : ℝ) ^ 2 ^ (e + 1) = q ^ 2 := by rw [hqd, ← pow_mul, pow_succ]
      rw [hpow]
      calc k' * Real.exp q * curvature x b1 (b2 - b1)
          ≤ k' * Real.exp q * (9 / 16 * q ^ 2 * Real.exp q * curvature x b0 (b1 - b0)) :=
            mul_le_mul_of_nonneg_left hn (by positivity)
        _ = (9 / 16 * Real.exp (2 * q)) * q ^ 2 * (k' * curvature x b0 (b1 - b0)) := by rw [he]; ring
        _ ≤ 1 * q ^ 2 * q ^ 2 := by
            refine mul_le_mul (mul_le_mul_of_nonneg_right hr' (sq_nonneg _)) hsm
              (mul_nonneg hk' (curvature_nonneg _ _ _)) (by positivity)
        _ = (q ^ 2) ^ 2 := by ring

theorem quarter_decay (e : Nat) : (1 / 4 : ℝ) ^ 2 ^ (e + 1) ≤ 1 / 4 * (1 / 4) ^ 2 ^ e := by
  have h : (1 / 4 : ℝ) ^ 2 ^ (e + 1) = (1 / 4) ^ 2 ^ e * (1 / 4) ^ 2 ^ e := by rw [← pow_add, pow_succ]; ring_nf
  have hle : (1 / 4 : ℝ) ^ 2 ^ e ≤ 1 / 4 := by
    have : (1 / 4 : ℝ) ^ 2 ^ e ≤ (1 / 4) ^ 1 := pow_le_pow_of_le_one (by norm_num) (by norm_num) (Nat.one_le_two_pow)
    simpa using this
  rw [h]
  exact mul_le_mul_of_nonneg_right hle (by positivity)

/-- The distance to any later iterate. -/
theorem iter_dist (f : ℕ → Fin n → ℝ) (h : ∀ e i, |f (e + 1) i - f e i| ≤ (1 / 4) ^ 2 ^ e) (k : Nat) :
    ∀ e i, |f (e + k) i - f e i| ≤ 4 / 3 * (1 / 4) ^ 2 ^ e := by
  induction k with
  | zero => intro e i; simp
  | succ k ih =>
    intro e i
    have h1 := ih (e + 1) i
    have h2 := h e i
    have h3 := quarter_decay e
    have e1 : f (e + (k + 1)) i - f e i = (f (e + 1 + k) i - f (e + 1) i) + (f (e + 1) i - f e i) := by
      rw [show e + (k + 1) = e + 1 + k by ring]; ring
    rw [e1]
    calc _ ≤ |f (e + 1 + k) i - f (e + 1) i| + |f (e + 1) i - f e i| := abs_add_le _ _
      _ ≤ 4 / 3 * (1 / 4) ^ 2 ^ (e + 1) + (1 / 4) ^ 2 ^ e := add_le_add h1 h2
      _ ≤ _ := by linarith

theorem tendsto_quarter : Filter.Tendsto (fun e : ℕ => (1 / 4 : ℝ) ^ 2 ^ e) Filter.atTop (nhds 0) :=
  (tendsto_pow_atTop_nhds_zero_of_lt_one (by norm_num) (by norm_num)).comp (tendsto_pow_atTop_atTop_of_one_lt (by norm_num))

/-- C235: Newton's method converges quadratically once it is near the optimum. If the squared score of any direction is at most `k`
times the curvature, and `k` times the curvature of the first step is at most 1/16, then no epoch fails, there is a best parameter
vector, and after `e` epochs the score of every row differs from the best one by at most `(4/3) * (1/4)^(2^e)`. -/
theorem C235_quadratic (x : Fin n → Fin d → ℝ) (y : Fin n → ℝ) (hy : Labels y) (beta b1 : Fin (d + 1) → ℝ) (k : ℝ) (hk0 : 0 ≤ k)
    (hk : ∀ v i, score (x i) v ^ 2 ≤ k * curvature x beta v) (h1 : newtonRun x y 1 beta = .ok b1)
    (h0 : k * curvature x beta (b1 - beta) ≤ 1 / 16) :
    ∃ best, (∀ b, negLogLikelihood x y best ≤ negLogLikelihood x y b) ∧
      ∀ e, ∃ b, newtonRun x y e beta = .ok b ∧ ∀ i, |score (x i) b - score (x i) best| ≤ 4 / 3 * (1 / 4) ^ 2 ^ e := by
  have hr : FullRank x := (C234_newton_succeeds_iff x y beta).1 ⟨b1, h1⟩
  have hb1 : iter x y beta 1 = b1 := by
    have := run_iter x y hr 1 beta
    rw [h1] at this; injection this with this; exact this.symm
  have hsteps : ∀ e i, |scores x (iter x y beta (e + 1)) i - scores x (iter x y beta e) i| ≤ (1 / 4) ^ 2 ^ e := by
    intro e i
    obtain ⟨k', hk', hall, hsm⟩ := newton_rate (y := y) hr beta k (fun v i => by rw [scores_score]; exact hk v i)
      (by rw [hb1]; norm_num; linarith) hk0 e
    rw [← scores_sub]
    exact abs_le_of_sq_le_sq (le_trans (hall _ i) hsm) (by positivity)
  have hdist := fun m => iter_dist (fun e i => scores x (iter x y beta e) i) hsteps m
  have hlim : ∀ i, ∃ l, Filter.Tendsto (fun e => scores x (iter x y beta e) i) Filter.atTop (nhds l) := by
    intro i
    refine cauchySeq_tendsto_of_complete (cauchySeq_of_le_tendsto_0 (fun N => 2 * (4 / 3 * (1 / 4 : ℝ) ^ 2 ^ N)) ?_ ?_)
    · intro p r N hp hr'
      obtain ⟨p', rfl⟩ := Nat.exists_eq_add_of_le hp
      obtain ⟨r', rfl⟩ := Nat.exists_eq_add_of_le hr'
      have a1 := hdist p' N i
      have a2 := hdist r' N i
      rw [Real.dist_eq]
      calc _ = |(scores x (iter x y beta (N + p')) i - scores x (iter x y beta N) i) -
            (scores x (iter x y beta (N + r')) i - scores x (iter x y beta N) i)| := by ring_nf
        _ ≤ |scores x (iter x y beta (N + p')) i - scores x (iter x y beta N) i| +
            |scores x (iter x y beta (N + r')) i - scores x (iter x y beta N) i| := abs_sub _ _
        _ ≤ _ := by linarith
    · have := (tendsto_quarter.const_mul (4 / 3)).const_mul 2
      simpa using this
  choose s hs' using hlim
  have hs : Filter.Tendsto (fun e => scores x (iter x y beta e)) Filter.atTop (nhds s) := tendsto_pi_nhds.2 hs'
  let L : (Fin (d + 1) → ℝ) →ₗ[ℝ] (Fin n → ℝ) := Matrix.mulVecLin (Matrix.of (hat x))
  have hL : ∀ v, L v = scores x v := fun v => rfl
  have hclosed : IsClosed (LinearMap.range L : Set (Fin n → ℝ)) := Submodule.closed_of_finiteDimensional _
  have hmem : s ∈ (LinearMap.range L : Set (Fin n → ℝ)) :=
    hclosed.mem_of_tendsto hs (Filter.Eventually.of_forall fun e => ⟨iter x y beta e, rfl⟩)
  obtain ⟨best, hbest⟩ := hmem
  rw [hL] at hbest
  refine ⟨best, ?_, fun e => ⟨iter x y beta e, run_iter x y hr e beta, fun i => ?_⟩⟩
  · intro b
    rw [← C47_loss x y hy, ← C47_loss x y hy]
    refine stationary_min x y best (funext fun j => ?_) b
    have hg : ∀ e, backward (forward x (iter x y beta e)) y (hat x) j =
        -∑ i, forward x (iter x y beta e) i * (1 - forward x (iter x y beta e) i) *
          (scores x (iter x y beta (e + 1)) i - scores x (iter x y beta e) i) * hat x i j := by
      intro e
      have := congrFun (newtonStep_spec (iter_step x y hr beta e)).2 j
      rw [hessian_mulVec] at this
      simp only [Pi.neg_apply, scores_sub] at this
      linarith
    have hlim0 : Filter.Tendsto (fun e => backward (forward x (iter x y beta e)) y (hat x) j) Filter.atTop (nhds 0) := by
      refine squeeze_zero_norm (a := fun e => (1 / 4 : ℝ) ^ 2 ^ e * ∑ i, |hat x i j|) (fun e => ?_) ?_
      · rw [hg, norm_neg, Real.norm_eq_abs]
        refine le_trans (Finset.abs_sum_le_sum_abs _ _) ?_
        rw [Finset.mul_sum]
        refine Finset.sum_le_sum fun i _ => ?_
        have hwp := weight_pos x (iter x y beta e) i
        have hw1 : forward x (iter x y beta e) i * (1 - forward x (iter x y beta e) i) ≤ 1 := by
          nlinarith [sq_nonneg (forward x (iter x y beta e) i - 1 / 2)]
        rw [abs_mul, abs_mul, abs_of_pos hwp]
        refine mul_le_mul_of_nonneg_right ?_ (abs_nonneg _)
        calc _ ≤ 1 * |scores x (iter x y beta (e + 1)) i - scores x (iter x y beta e) i| :=
              mul_le_mul_of_nonneg_right hw1 (abs_nonneg _)
          _ ≤ _ := by rw [one_mul]; exact hsteps e i
      · simpa using tendsto_quarter.mul_const (∑ i, |hat x i j|)
    have hlim1 : Filter.Tendsto (fun e => backward (forward x (iter x y beta e)) y (hat x) j) Filter.atTop
        (nhds (backward (forward x best) y (hat x) j)) := by
      unfold backward
      refine tendsto_finsetSum _ fun i _ => ?_
      refine Filter.Tendsto.const_mul _ (Filter.Tendsto.const_sub _ ?_)
      have hsi := (tendsto_pi_nhds.1 hs) i
      rw [← hbest] at hsi
      exact ((sigmoid_deriv _).continuousAt.tendsto).comp hsi
    exact tendsto_nhds_unique hlim1 hlim0
  · rw [← scores_score, ← scores_score, abs_sub_comm]
    have hsi := (tendsto_pi_nhds.1 hs) i
    rw [← hbest] at hsi
    have : Filter.Tendsto (fun p => |scores x (iter x y beta (e + p)) i - scores x (iter x y beta e) i|) Filter.atTop
        (nhds |scores x best i - scores x (iter x y beta e) i|) := by
      have h2 : Filter.Tendsto (fun p => scores x (iter x y beta (e + p)) i) Filter.atTop (nhds (scores x best i)) := by
        have := hsi.comp (Filter.tendsto_add_atTop_nat e)
        refine this.congr fun p => ?_
        simp [Nat.add_comm]
      exact (h2.sub_const _).abs
    exact le_of_tendsto this (Filter.Eventually.of_forall fun p => hdist p e i)

/-- The hypotheses of `C235_quadratic` are met by parameters that are not optimal. -/
example : ∃ b1, newtonRun (noisyRows 1) noisyLabels 1 ![1 / 8, 0] = .ok b1 ∧ b1 ≠ ![1 / 8, 0] ∧
    (∀ v i, score (noisyRows 1 i) v ^ 2 ≤ 5 / 2 * curvature (noisyRows 1) ![1 / 8, 0] v) ∧
    5 / 2 * curvature (noisyRows 1) ![1 / 8, 0] (b1 - ![1 / 8, 0]) ≤ 1 / 16 := by
  obtain ⟨b, hb, h1, h2⟩ := noisy_step 1 one_ne_zero ![1 / 8, 0]
  have h1' : 1 * b 0 + b 1 = 1 / 8 - Real.sinh (1 / 8) := by
    have := h1; simp at this; norm_num at this ⊢; linarith
  have h2' : -1 * b 0 + b 1 = -(1 / 8) + Real.sinh (1 / 8) := by
    have := h2; simp at this; norm_num at this ⊢; linarith
  have hs0 : 0 < Real.sinh (1 / 8) := Real.sinh_pos_iff.2 (by norm_num)
  have hs1 : Real.sinh (1 / 8) ≤ 3 / 20 := by
    rw [Real.sinh_eq]
    have e1 := (abs_le.1 (exp_near (s := 1 / 8) (by rw [abs_of_pos] <;> norm_num))).2
    have e2 := Real.add_one_le_exp (-(1 / 8) : ℝ)
    norm_num at e1 e2 ⊢
    linarith
  have hw : ∀ s : ℝ, |s| = 1 / 8 → 1 / 5 ≤ sigmoid s * (1 - sigmoid s) := by
    intro s hs
    have h := weight_near 0 s
    rw [hs, zero_add] at h
    have e2 := Real.add_one_le_exp (-(1 / 8) : ℝ)
    have e0 : sigmoid 0 = 1 / 2 := by norm_num [sigmoid]
    rw [e0] at h
    norm_num at h e2 ⊢
    linarith
  have hw' : ∀ s : ℝ, sigmoid s * (1 - sigmoid s) ≤ 1 / 4 := fun s => by nlinarith [sq_nonneg (sigmoid s - 1 / 2)]
  have hc : ∀ v, curvature (noisyRows 1) ![1 / 8, 0] v = 2 * (sigmoid (1 / 8) * (1 - sigmoid (1 / 8)) * (1 * v 0 + v 1) ^ 2) +
      2 * (sigmoid (-(1 / 8)) * (1 - sigmoid (-(1 / 8))) * (-1 * v 0 + v 1) ^ 2) := by
    intro v
    rw [curvature_eq, Fin.sum_univ_four, noisy_scores]
    simp only [forward, noisy_scores]
    simp
    ring
  have hwa := hw (1 / 8) (by rw [abs_of_pos]; norm_num)
  have hwb := hw (-(1 / 8)) (by rw [abs_neg, abs_of_pos]; norm_num)
  refine ⟨b, by rw [newtonRun, hb]; rfl, ?_, ?_, ?_⟩
  · rintro rfl
    simp at h1'
    linarith
  · intro v i
    have hA := mul_le_mul_of_nonneg_right hwa (sq_nonneg (1 * v 0 + v 1))
    have hB := mul_le_mul_of_nonneg_right hwb (sq_nonneg (-1 * v 0 + v 1))
    have hA0 := sq_nonneg (1 * v 0 + v 1)
    have hB0 := sq_nonneg (-1 * v 0 + v 1)
    rw [hc, ← scores_score, noisy_scores]
    have hi : ∀ i : Fin 4, (![1 * v 0 + v 1, 1 * v 0 + v 1, -1 * v 0 + v 1, -1 * v 0 + v 1] i) ^ 2 ≤
        (1 * v 0 + v 1) ^ 2 + (-1 * v 0 + v 1) ^ 2 := by
      intro i; fin_cases i
      · show (1 * v 0 + v 1) ^ 2 ≤ _; linarith
      · show (1 * v 0 + v 1) ^ 2 ≤ _; linarith
      · show (-1 * v 0 + v 1) ^ 2 ≤ _; linarith
      · show (-1 * v 0 + v 1) ^ 2 ≤ _; linarith
    have := hi i
    linarith
  · rw [hc]
    have e1 : 1 * (b - (![1 / 8, 0] : Fin 2 → ℝ)) 0 + (b - (![1 / 8, 0] : Fin 2 → ℝ)) 1 = -Real.sinh (1 / 8) := by
      simp only [Pi.sub_apply]; simp; linarith
    have e2 : -1 * (b - (![1 / 8, 0] : Fin 2 → ℝ)) 0 + (b - (![1 / 8, 0] : Fin 2 → ℝ)) 1 = Real.sinh (1 / 8) := by
      simp only [Pi.sub_apply]; simp; linarith
    rw [e1, e2, neg_sq]
    have hsq : Real.sinh (1 / 8) ^ 2 ≤ (3 / 20) ^ 2 := pow_le_pow_left₀ hs0.le hs1 2
    have hA := mul_le_mul (hw' (1 / 8)) hsq (sq_nonneg _) (by norm_num)
    have hB := mul_le_mul (hw' (-(1 / 8))) hsq (sq_nonneg _) (by norm_num)
    norm_num at hA hB ⊢
    linarith

/-- A data set with full rank and one without. -/
example : FullRank (noisyRows 1) ∧ ¬ FullRank (fun (_ : Fin 3) (_ : Fin 1) => (5 : ℝ)) :=
  ⟨noisy_full 1 one_ne_zero, (C234_dependent _).2.1 0 5 fun _ => rfl⟩

end CML.LogReg
