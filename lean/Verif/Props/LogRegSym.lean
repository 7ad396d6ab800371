import Verif.Props.LogReg

set_option linter.unusedSectionVars false

/-! # Properties C184, C185: symmetries of logistic regression -/

namespace CML.LogReg
open Finset Matrix

variable {n d : Nat}

theorem sigmoid_neg (z : ℝ) : sigmoid (-z) = 1 - sigmoid z := by
  unfold sigmoid
  have h1 : (0 : ℝ) < 1 + Real.exp (-z) := by positivity
  have h2 : (0 : ℝ) < 1 + Real.exp z := by positivity
  have h3 : Real.exp z * Real.exp (-z) = 1 := by rw [← Real.exp_add]; simp
  rw [neg_neg]
  field_simp
  linear_combination -h3

theorem scores_neg (x : Fin n → Fin d → ℝ) (beta : Fin (d + 1) → ℝ) (i : Fin n) : scores x (-beta) i = -scores x beta i := by
  unfold scores
  rw [← sum_neg_distrib]
  exact sum_congr rfl fun j _ => by rw [Pi.neg_apply]; ring

theorem forward_neg (x : Fin n → Fin d → ℝ) (beta : Fin (d + 1) → ℝ) : forward x (-beta) = fun i => 1 - forward x beta i := by
  funext i
  unfold forward
  rw [scores_neg, sigmoid_neg]

theorem backward_swap (x : Fin n → Fin d → ℝ) (y : Fin n → ℝ) (beta : Fin (d + 1) → ℝ) :
    backward (forward x (-beta)) (fun i => 1 - y i) (hat x) = -backward (forward x beta) y (hat x) := by
  funext j
  unfold backward
  rw [Pi.neg_apply, ← sum_neg_distrib, forward_neg]
  exact sum_congr rfl fun i _ => by ring

theorem hessian_swap (x : Fin n → Fin d → ℝ) (beta : Fin (d + 1) → ℝ) : hessian (forward x (-beta)) (hat x) = hessian (forward x beta) (hat x) := by
  ext j k
  rw [hessian_apply, hessian_apply, forward_neg]
  exact sum_congr rfl fun i _ => by ring

/-- **C184.** Swapping the two classes: gradient descent started from the opposite parameters ends with the opposite parameters, for every learning rate and number of
epochs; every predicted probability `p` becomes `1 - p`, on every row. -/
theorem C184_gradient_descent (lr : ℝ) (x : Fin n → Fin d → ℝ) (y : Fin n → ℝ) (e : Nat) (beta : Fin (d + 1) → ℝ) :
    gdRun lr x (fun i => 1 - y i) e (-beta) = -gdRun lr x y e beta ∧
    ∀ r : Fin d → ℝ, prob r (gdRun lr x (fun i => 1 - y i) e (-beta)) = 1 - prob r (gdRun lr x y e beta) := by
  have key : ∀ (e : Nat) (beta : Fin (d + 1) → ℝ), gdRun lr x (fun i => 1 - y i) e (-beta) = -gdRun lr x y e beta := by
    intro e
    induction e with
    | zero => intro beta; rfl
    | succ e ih =>
      intro beta
      simp only [gdRun]
      have : gdStep lr x (fun i => 1 - y i) (-beta) = -gdStep lr x y beta := by
        funext j
        simp only [gdStep, backward_swap, Pi.neg_apply]
        ring
      rw [this, ih]
  refine ⟨key e beta, fun r => ?_⟩
  have h := congrFun (forward_neg (fun _ : Fin 1 => r) (gdRun lr x y e beta)) 0
  rw [key, ← forward_eq (fun _ : Fin 1 => r) _ 0, ← forward_eq (fun _ : Fin 1 => r) _ 0]
  exact h

/-- …and the same for Newton's method, which raises in the same cases. -/
theorem C184_newton (x : Fin n → Fin d → ℝ) (y : Fin n → ℝ) (e : Nat) (beta : Fin (d + 1) → ℝ) :
    newtonRun x (fun i => 1 - y i) e (-beta) = (newtonRun x y e beta).map fun b => -b := by
  induction e generalizing beta with
  | zero => rfl
  | succ e ih =>
    simp only [newtonRun]
    have hs : newtonStep x (fun i => 1 - y i) (-beta) = (newtonStep x y beta).map fun b => -b := by
      unfold newtonStep
      dsimp only
      rw [hessian_swap, backward_swap]
      by_cases h : (hessian (forward x beta) (hat x)).det = 0
      · rw [if_pos h, if_pos h]; rfl
      · rw [if_neg h, if_neg h]
        simp only [Except.map, Except.ok.injEq]
        rw [mulVec_neg]
        abel
    rw [hs]
    cases newtonStep x y beta with
    | error er => rfl
    | ok b => exact ih b

/-- **C184.** The order of the samples does not matter: both optimisers end with the same parameters. -/
theorem C184_sample_order (lr : ℝ) (x : Fin n → Fin d → ℝ) (y : Fin n → ℝ) (σ : Equiv.Perm (Fin n)) (e : Nat) (beta : Fin (d + 1) → ℝ) :
    gdRun lr (x ∘ σ) (y ∘ σ) e beta = gdRun lr x y e beta ∧ newtonRun (x ∘ σ) (y ∘ σ) e beta = newtonRun x y e beta := by
  have hf : ∀ b : Fin (d + 1) → ℝ, forward (x ∘ σ) b = forward x b ∘ σ := fun b => rfl
  have hb : ∀ b : Fin (d + 1) → ℝ, backward (forward (x ∘ σ) b) (y ∘ σ) (hat (x ∘ σ)) = backward (forward x b) y (hat x) := by
    intro b
    funext j
    exact Equiv.sum_comp σ fun i => -hat x i j * (y i - forward x b i)
  have hh : ∀ b : Fin (d + 1) → ℝ, hessian (forward (x ∘ σ) b) (hat (x ∘ σ)) = hessian (forward x b) (hat x) := by
    intro b
    ext j k
    rw [hessian_apply, hessian_apply]
    exact Equiv.sum_comp σ fun i => forward x b i * (1 - forward x b i) * hat x i j * hat x i k
  constructor
  · induction e generalizing beta with
    | zero => rfl
    | succ e ih =>
      simp only [gdRun]
      have : gdStep lr (x ∘ σ) (y ∘ σ) beta = gdStep lr x y beta := by
        funext j; simp only [gdStep, hb]
      rw [this, ih]
  · induction e generalizing beta with
    | zero => rfl
    | succ e ih =>
      simp only [newtonRun]
      have : newtonStep (x ∘ σ) (y ∘ σ) beta = newtonStep x y beta := by
        unfold newtonStep; dsimp only; rw [hb, hh]
      rw [this]
      cases newtonStep x y beta with
      | error er => rfl
      | ok b => exact ih b

/-! ## C185: Newton's method in other coordinates -/

/-- The matrix that acts on the rows with the constant feature appended. -/
def recodeHat (A : Matrix (Fin d) (Fin d) ℝ) (t : Fin d → ℝ) : Matrix (Fin (d + 1)) (Fin (d + 1)) ℝ :=
  Matrix.of fun j k => Fin.lastCases (motive := fun _ => ℝ) (Fin.lastCases (motive := fun _ => ℝ) 1 (fun _ => 0) j)
    (fun k => Fin.lastCases (motive := fun _ => ℝ) (t k) (fun j => A j k) j) k

theorem hat_recode (A : Matrix (Fin d) (Fin d) ℝ) (t : Fin d → ℝ) (x : Fin n → Fin d → ℝ) (i : Fin n) :
    hat (fun i => recode A t (x i)) i = hat x i ᵥ* recodeHat A t := by
  funext k
  unfold hat vecMul dotProduct
  rw [Fin.sum_univ_castSucc]
  refine Fin.lastCases ?_ (fun k => ?_) k
  · simp [recodeHat]
  · simp [recodeHat, recode]

theorem recodeHat_mul (A B : Matrix (Fin d) (Fin d) ℝ) (h : A * B = 1) (t : Fin d → ℝ) :
    recodeHat A t * recodeHat B (fun k => -∑ j, t j * B j k) = 1 := by
  ext j k
  rw [mul_apply, Fin.sum_univ_castSucc]
  refine Fin.lastCases ?_ (fun k => ?_) k <;> refine Fin.lastCases ?_ (fun j => ?_) j
  · simp [recodeHat]
  · simp [recodeHat, one_apply, Fin.ext_iff, Nat.ne_of_lt]
  · have : (Fin.last d) ≠ k.castSucc := (Fin.castSucc_lt_last k).ne'
    simp [recodeHat, one_apply, this]
  · have := congrFun (congrFun h j) k
    rw [mul_apply] at this
    simp [recodeHat, this, one_apply]

section newton
variable {A : Matrix (Fin d) (Fin d) ℝ} {t : Fin d → ℝ}

theorem det_recodeHat (hA : A.det ≠ 0) : (recodeHat A t).det ≠ 0 := by
  have h1 : A * A⁻¹ = 1 := mul_nonsing_inv A (isUnit_iff_ne_zero.2 hA)
  have := congrArg det (recodeHat_mul A A⁻¹ h1 t)
  rw [det_mul, det_one] at this
  intro h0
  rw [h0, zero_mul] at this
  exact zero_ne_one this

theorem scores_recode (x : Fin n → Fin d → ℝ) (b : Fin (d + 1) → ℝ) (i : Fin n) :
    scores (fun i => recode A t (x i)) b i = scores x (recodeHat A t *ᵥ b) i := by
  show hat (fun i => recode A t (x i)) i ⬝ᵥ b = hat x i ⬝ᵥ (recodeHat A t *ᵥ b)
  rw [hat_recode, dotProduct_mulVec]

theorem forward_recode (x : Fin n → Fin d → ℝ) (b : Fin (d + 1) → ℝ) :
    forward (fun i => recode A t (x i)) b = forward x (recodeHat A t *ᵥ b) := by
  funext i
  unfold forward
  rw [scores_recode]

theorem backward_recode (x : Fin n → Fin d → ℝ) (p y : Fin n → ℝ) :
    backward p y (hat fun i => recode A t (x i)) = (recodeHat A t)ᵀ *ᵥ backward p y (hat x) := by
  funext k
  unfold backward
  simp only [mulVec, dotProduct, hat_recode, vecMul, transpose_apply, mul_sum]
  rw [sum_comm]
  refine sum_congr rfl fun i _ => ?_
  rw [neg_mul, sum_mul, ← sum_neg_distrib]
  exact sum_congr rfl fun j _ => by ring

theorem hessian_recode (x : Fin n → Fin d → ℝ) (p : Fin n → ℝ) :
    hessian p (hat fun i => recode A t (x i)) = (recodeHat A t)ᵀ * hessian p (hat x) * recodeHat A t := by
  have h : (Matrix.of (hat fun i => recode A t (x i)) : Matrix (Fin n) (Fin (d + 1)) ℝ) = Matrix.of (hat x) * recodeHat A t := by
    ext i k
    rw [of_apply, hat_recode]
    rfl
  unfold hessian
  dsimp only
  rw [h, transpose_mul]
  simp only [Matrix.mul_assoc]

theorem newtonStep_recode (hA : A.det ≠ 0) (x : Fin n → Fin d → ℝ) (y : Fin n → ℝ) (b : Fin (d + 1) → ℝ) :
    newtonStep x y (recodeHat A t *ᵥ b) = (newtonStep (fun i => recode A t (x i)) y b).map fun c => recodeHat A t *ᵥ c := by
  unfold newtonStep
  dsimp only
  rw [forward_recode, hessian_recode, backward_recode]
  set M := recodeHat A t with hM
  set H := hessian (forward x (M *ᵥ b)) (hat x) with hH
  set g := backward (forward x (M *ᵥ b)) y (hat x)
  have hMd : M.det ≠ 0 := det_recodeHat hA
  have hdet : (Mᵀ * H * M).det = M.det * H.det * M.det := by rw [det_mul, det_mul, det_transpose]
  by_cases h : H.det = 0
  · rw [if_pos h, if_pos (by rw [hdet, h]; simp)]; rfl
  · have hu : (Mᵀ * H * M).det ≠ 0 := by rw [hdet]; exact mul_ne_zero (mul_ne_zero hMd h) hMd
    rw [if_neg h, if_neg hu]
    simp only [Except.map, Except.ok.injEq]
    rw [mulVec_sub]
    congr 1
    -- the Newton direction
    have h1 : (Mᵀ * H * M) *ᵥ ((Mᵀ * H * M)⁻¹ *ᵥ (Mᵀ *ᵥ g)) = Mᵀ *ᵥ g := by
      rw [mulVec_mulVec, mul_nonsing_inv _ (isUnit_iff_ne_zero.2 hu), one_mulVec]
    generalize (Mᵀ * H * M)⁻¹ *ᵥ (Mᵀ *ᵥ g) = w at h1 ⊢
    have hMt : IsUnit Mᵀ.det := by rw [det_transpose]; exact isUnit_iff_ne_zero.2 hMd
    have h2 : H *ᵥ (M *ᵥ w) = g := by
      have := congrArg (fun v => Mᵀ⁻¹ *ᵥ v) h1
      simp only [mulVec_mulVec] at this
      rw [nonsing_inv_mul _ hMt, one_mulVec, Matrix.mul_assoc, Matrix.nonsing_inv_mul_cancel_left _ _ hMt] at this
      rw [mulVec_mulVec]
      exact this
    rw [← h2, mulVec_mulVec, nonsing_inv_mul _ (isUnit_iff_ne_zero.2 h), one_mulVec]

theorem newtonRun_recode (hA : A.det ≠ 0) (x : Fin n → Fin d → ℝ) (y : Fin n → ℝ) (e : Nat) (b : Fin (d + 1) → ℝ) :
    newtonRun x y e (recodeHat A t *ᵥ b) = (newtonRun (fun i => recode A t (x i)) y e b).map fun c => recodeHat A t *ᵥ c := by
  induction e generalizing b with
  | zero => rfl
  | succ e ih =>
    simp only [newtonRun, newtonStep_recode hA]
    cases newtonStep (fun i => recode A t (x i)) y b with
    | error er => rfl
    | ok c => exact ih c

theorem prob_recode (r : Fin d → ℝ) (b : Fin (d + 1) → ℝ) : prob (recode A t r) b = prob r (recodeHat A t *ᵥ b) := by
  have := congrFun (forward_recode (A := A) (t := t) (fun _ : Fin 1 => r) b) 0
  rw [forward_eq, forward_eq] at this
  exact this

theorem same_function {b b' : Fin (d + 1) → ℝ} (h : ∀ r, prob r b = prob r b') : b = b' := by
  have hinj : ∀ u v : ℝ, sigmoid u = sigmoid v → u = v := by
    intro u v huv
    unfold sigmoid at huv
    have h1 : (0 : ℝ) < 1 + Real.exp (-u) := by positivity
    have h2 : (0 : ℝ) < 1 + Real.exp (-v) := by positivity
    rw [div_eq_div_iff h1.ne' h2.ne'] at huv
    have : Real.exp (-u) = Real.exp (-v) := by linarith
    have := Real.exp_injective this
    linarith
  have hs : ∀ r : Fin d → ℝ, (∑ j : Fin d, r j * b j.castSucc) + b (Fin.last d) = (∑ j : Fin d, r j * b' j.castSucc) + b' (Fin.last d) := by
    intro r
    have := h r
    rw [← forward_eq (fun _ : Fin 1 => r) _ 0, ← forward_eq (fun _ : Fin 1 => r) _ 0] at this
    have := hinj _ _ this
    rwa [scores_eq, scores_eq] at this
  have h0 : b (Fin.last d) = b' (Fin.last d) := by simpa using hs 0
  funext j
  refine Fin.lastCases h0 (fun j => ?_) j
  have := hs (Pi.single j 1)
  simpa [h0, Pi.single_apply] using this

/-- **C185.** Newton's method does not depend on the coordinates of the features: replace the features by any invertible affine recoding of them (other units, other
origins, an invertible mixture), and start from parameters that predict the same probabilities.  Then the two trainings raise in the same cases, and
otherwise the two trained models predict the same probability for every row. -/
theorem C185_newton_coordinates (hA : A.det ≠ 0) (x : Fin n → Fin d → ℝ) (y : Fin n → ℝ) (e : Nat) (beta beta' : Fin (d + 1) → ℝ)
    (h : ∀ r, prob (recode A t r) beta' = prob r beta) :
    (∃ er, newtonRun x y e beta = .error er ∧ newtonRun (fun i => recode A t (x i)) y e beta' = .error er) ∨
    ∃ b b', newtonRun x y e beta = .ok b ∧ newtonRun (fun i => recode A t (x i)) y e beta' = .ok b' ∧ ∀ r, prob (recode A t r) b' = prob r b := by
  have hb : beta = recodeHat A t *ᵥ beta' := same_function fun r => by rw [← prob_recode, h]
  have hr := newtonRun_recode (t := t) hA x y e beta'
  rw [← hb] at hr
  cases hn : newtonRun (fun i => recode A t (x i)) y e beta' with
  | error er => rw [hn] at hr; exact .inl ⟨er, hr, rfl⟩
  | ok b' => rw [hn] at hr; exact .inr ⟨_, b', hr, rfl, fun r => prob_recode r b'⟩

end newton

/-- Metres to centimetres and 0 °C to 32 °F is such a recoding, and the parameters 0 predict the same on both sides. -/
example : (!![100, 0; 0, 9/5] : Matrix (Fin 2) (Fin 2) ℝ).det ≠ 0 ∧ ∀ r : Fin 2 → ℝ, prob (recode !![100, 0; 0, 9/5] ![0, 32] r) 0 = prob r 0 := by
  refine ⟨by rw [det_fin_two_of]; norm_num, fun r => ?_⟩
  simp [prob]

/-- Gradient descent has no such invariance: after one epoch on the same sample in a unit half as large it predicts another probability. -/
theorem C185_gradient_descent_depends_on_units :
    prob (fun _ : Fin 1 => 2) (gdRun 1 (fun (_ : Fin 1) (_ : Fin 1) => 2) (fun _ => 1) 1 0) ≠ prob (fun _ : Fin 1 => 1) (gdRun 1 (fun (_ : Fin 1) (_ : Fin 1) => 1) (fun _ => 1) 1 0) := by
  have hb : ∀ (v : ℝ) (j : Fin 2), gdRun 1 (fun (_ : Fin 1) (_ : Fin 1) => v) (fun _ => 1) 1 0 j = hat (fun (_ : Fin 1) (_ : Fin 1) => v) 0 j / 2 := by
    intro v j
    have hf : forward (fun (_ : Fin 1) (_ : Fin 1) => v) (0 : Fin 2 → ℝ) 0 = 1 / 2 := by
      simp [forward, scores, sigmoid]; norm_num
    simp only [gdRun, gdStep, backward, Fin.sum_univ_one, hf, Pi.zero_apply]
    ring
  have hl : ∀ v : ℝ, hat (fun (_ : Fin 1) (_ : Fin 1) => v) (0 : Fin 1) (Fin.castSucc 0) = v ∧ hat (fun (_ : Fin 1) (_ : Fin 1) => v) (0 : Fin 1) (Fin.last 1) = 1 := by
    intro v
    constructor
    · unfold hat; rw [Fin.snoc_castSucc]
    · unfold hat; rw [Fin.snoc_last]
  intro h
  unfold prob at h
  simp only [Fin.sum_univ_one, hb, (hl _).1, (hl _).2] at h
  have h1 : (0 : ℝ) < 1 + Real.exp (-(2 * (2 / 2) + 1 / 2)) := by positivity
  have h2 : (0 : ℝ) < 1 + Real.exp (-(1 * (1 / 2) + 1 / 2)) := by positivity
  rw [div_eq_div_iff h1.ne' h2.ne'] at h
  have : Real.exp (-(1 * (1 / 2) + 1 / 2)) = Real.exp (-(2 * (2 / 2) + 1 / 2)) := by linarith
  have := Real.exp_injective this
  norm_num at this

end CML.LogReg
