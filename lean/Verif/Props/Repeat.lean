import Verif.Spec.Repeat
import Verif.Model.LogReg
import Verif.Model.LDA
import Verif.Model.GMM
import Verif.Model.KMeans
import Verif.Model.Tree
import Verif.Model.Entropy
import Verif.Lemmas.KMeans
import Verif.Lemmas.Tree
import Mathlib.Algebra.BigOperators.Field
import Mathlib.LinearAlgebra.Matrix.NonsingularInverse

set_option linter.unusedSectionVars false

/-! # Properties C254-C257: a training set given several times over -/

namespace CML.Repeat
open Finset Matrix

theorem sum_tile {n : Nat} {M : Type*} [AddCommMonoid M] (r : Nat) (f : Fin n → M) : ∑ i, tile r f i = r • ∑ i, f i := by
  rw [← Equiv.sum_comp finProdFinEquiv (fun i => tile r f i), Fintype.sum_prod_type]
  simp only [tile]
  have : ∀ (a : Fin r) (b : Fin n), (finProdFinEquiv (a, b)).modNat = b := fun a b =>
    congrArg Prod.snd (finProdFinEquiv.symm_apply_apply (a, b))
  simp only [this]
  simp

section logistic
variable {n d : Nat}
open CML.LogReg

theorem hat_tile (r : Nat) (x : Fin n → Fin d → ℝ) : hat (tile r x) = tile r (hat x) := rfl
theorem forward_tile (r : Nat) (x : Fin n → Fin d → ℝ) (b : Fin (d + 1) → ℝ) : forward (tile r x) b = tile r (forward x b) := rfl

theorem backward_tile (r : Nat) (p y : Fin n → ℝ) (xh : Fin n → Fin (d + 1) → ℝ) :
    backward (tile r p) (tile r y) (tile r xh) = fun j => r * backward p y xh j := by
  funext j
  unfold backward
  have := sum_tile r fun i => -xh i j * (y i - p i)
  rw [nsmul_eq_mul] at this
  exact this

theorem hessian_entry (p : Fin n → ℝ) (xh : Fin n → Fin (d + 1) → ℝ) (a b : Fin (d + 1)) :
    hessian p xh a b = ∑ i, xh i a * (p i * (1 - p i)) * xh i b := by
  unfold hessian
  rw [Matrix.mul_apply]
  refine Finset.sum_congr rfl fun i _ => ?_
  rw [Matrix.mul_apply]
  congr 1
  rw [Finset.sum_eq_single i]
  · simp [mul_assoc]
  · intro k _ hk; simp [Matrix.one_apply_ne hk]
  · simp

theorem hessian_tile (r : Nat) (p : Fin n → ℝ) (xh : Fin n → Fin (d + 1) → ℝ) : hessian (tile r p) (tile r xh) = (r : ℝ) • hessian p xh := by
  ext a b
  rw [Matrix.smul_apply, hessian_entry, hessian_entry]
  have := sum_tile r fun i => xh i a * (p i * (1 - p i)) * xh i b
  rw [nsmul_eq_mul] at this
  exact this

/-- One epoch of gradient descent on `r` copies is an epoch on the single set with `r` times the learning rate. -/
theorem gdStep_tile (r : Nat) (lr : ℝ) (x : Fin n → Fin d → ℝ) (y : Fin n → ℝ) (b : Fin (d + 1) → ℝ) :
    gdStep lr (tile r x) (tile r y) b = gdStep (lr * r) x y b := by
  funext j
  unfold gdStep
  rw [hat_tile, forward_tile, backward_tile]
  ring

/-- C254 (gradient descent): training on `r` copies of the data is training on the data with a learning rate `r` times as large. -/
theorem C254_gradient_descent_partial (r : Nat) (lr : ℝ) (x : Fin n → Fin d → ℝ) (y : Fin n → ℝ) (epochs : Nat) (b : Fin (d + 1) → ℝ) :
    gdRun lr (tile r x) (tile r y) epochs b = gdRun (lr * r) x y epochs b := by
  induction epochs generalizing b with
  | zero => rfl
  | succ e ih => show gdRun lr _ _ e (gdStep lr _ _ b) = gdRun _ _ _ e (gdStep _ _ _ b); rw [gdStep_tile, ih]

/-- C254 is false with gradient descent: unless the first epoch does not move the parameters at all, it moves them differently when
the data are given twice or more. -/
theorem C254_gradient_descent_false (r : Nat) (hr : 2 ≤ r) (lr : ℝ) (x : Fin n → Fin d → ℝ) (y : Fin n → ℝ) (b : Fin (d + 1) → ℝ) :
    gdRun lr (tile r x) (tile r y) 1 b = gdRun lr x y 1 b ↔ gdRun lr x y 1 b = b := by
  rw [C254_gradient_descent_partial]
  have hr' : (2 : ℝ) ≤ r := by exact_mod_cast hr
  show gdStep (lr * r) x y b = gdStep lr x y b ↔ gdStep lr x y b = b
  constructor
  · intro h; funext j
    have := congrFun h j
    simp only [gdStep] at this ⊢
    have h0 : (r - 1 : ℝ) * (lr * backward (forward x b) y (hat x) j) = 0 := by linear_combination -this
    rcases mul_eq_zero.1 h0 with h | h
    · linarith
    · rw [h, sub_zero]
  · intro h; funext j
    have := congrFun h j
    simp only [gdStep] at this ⊢
    linear_combination (1 - r : ℝ) * (-this)

/-- C254 (Newton's method): `r ≥ 1` copies of the data give the same parameters after every number of epochs, or the same exception. -/
theorem C254_newton (r : Nat) (hr : r ≠ 0) (x : Fin n → Fin d → ℝ) (y : Fin n → ℝ) (epochs : Nat) (b : Fin (d + 1) → ℝ) :
    newtonRun (tile r x) (tile r y) epochs b = newtonRun x y epochs b := by
  have hr' : (r : ℝ) ≠ 0 := by exact_mod_cast hr
  have hstep : ∀ b, newtonStep (tile r x) (tile r y) b = newtonStep x y b := by
    intro b
    simp only [newtonStep]
    rw [hat_tile, forward_tile, hessian_tile, backward_tile, Matrix.det_smul]
    by_cases h0 : (hessian (forward x b) (hat x)).det = 0
    · rw [if_pos (by rw [h0, mul_zero]), if_pos h0]
    · rw [if_neg (mul_ne_zero (pow_ne_zero _ hr') h0), if_neg h0]
      have h1 : ((r : ℝ) • hessian (forward x b) (hat x))⁻¹ = (r : ℝ)⁻¹ • (hessian (forward x b) (hat x))⁻¹ := by
        have : Invertible (r : ℝ) := invertibleOfNonzero hr'
        rw [Matrix.inv_smul _ (r : ℝ) (isUnit_iff_ne_zero.2 h0), invOf_eq_inv]
      have h2 : (fun j => (r : ℝ) * backward (forward x b) y (hat x) j) = (r : ℝ) • backward (forward x b) y (hat x) := rfl
      rw [h1, h2, Matrix.smul_mulVec, Matrix.mulVec_smul, smul_smul, inv_mul_cancel₀ hr', one_smul]
  induction epochs generalizing b with
  | zero => rfl
  | succ e ih =>
    simp only [newtonRun, hstep]
    cases newtonStep x y b with
    | error _ => rfl
    | ok b' => exact ih b'

end logistic

/-! ## Lists -/

section lists
variable {α β : Type*}

theorem times_succ (r : Nat) (l : List α) : times (r + 1) l = l ++ times r l := by simp [times, List.replicate_succ]

theorem times_map (r : Nat) (f : α → β) (l : List α) : (times r l).map f = times r (l.map f) := by
  induction r with
  | zero => rfl
  | succ r ih => rw [times_succ, times_succ, List.map_append, ih]

theorem times_filter (r : Nat) (p : α → Bool) (l : List α) : (times r l).filter p = times r (l.filter p) := by
  induction r with
  | zero => rfl
  | succ r ih => rw [times_succ, times_succ, List.filter_append, ih]

theorem times_zip (r : Nat) (l : List α) (k : List β) (h : l.length = k.length) : (times r l).zip (times r k) = times r (l.zip k) := by
  induction r with
  | zero => rfl
  | succ r ih => rw [times_succ, times_succ, times_succ, List.zip_append h, ih]

theorem times_length (r : Nat) (l : List α) : (times r l).length = r * l.length := by
  induction r with
  | zero => simp [times]
  | succ r ih => rw [times_succ, List.length_append, ih]; ring

theorem times_sum {M : Type*} [Semiring M] (r : Nat) (l : List M) : (times r l).sum = r * l.sum := by
  induction r with
  | zero => simp [times]
  | succ r ih => rw [times_succ, List.sum_append, ih]; push_cast; rw [add_mul, one_mul, add_comm]

theorem times_count [DecidableEq α] (r : Nat) (l : List α) (c : α) : (times r l).count c = r * l.count c := by
  induction r with
  | zero => simp [times]
  | succ r ih => rw [times_succ, List.count_append, ih]; ring

theorem times_eq_nil (r : Nat) (hr : r ≠ 0) (l : List α) : times r l = [] ↔ l = [] := by
  rw [← List.length_eq_zero_iff, times_length, ← List.length_eq_zero_iff, Nat.mul_eq_zero]; simp [hr]

theorem mem_times (r : Nat) (hr : r ≠ 0) (l : List α) (a : α) : a ∈ times r l ↔ a ∈ l := by
  simp [times, List.mem_flatten, List.mem_replicate, hr]

end lists

/-! ## Linear discriminant analysis -/

section lda
open CML.LDA
variable {K : Type*} [Field K] [LinearOrder K] [IsStrictOrderedRing K] {d : Nat}

theorem rowsOf_times (r : Nat) (x : List (Fin d → K)) (y : List Int) (h : x.length = y.length) (c : Int) :
    rowsOf (times r x) (times r y) c = times r (rowsOf x y c) := by
  unfold rowsOf
  rw [times_zip r x y h, times_filter, times_map]

theorem colMean_times (r : Nat) (hr : r ≠ 0) (X : List (Fin d → K)) : colMean (times r X) = colMean X := by
  have hr' : (r : K) ≠ 0 := by exact_mod_cast hr
  unfold colMean
  rw [times_length]
  by_cases h : X.length = 0
  · rw [if_pos h, if_pos (by rw [h, mul_zero])]
  · rw [if_neg h, if_neg (Nat.mul_ne_zero hr h)]
    congr 1; funext j
    rw [times_map, times_sum]
    push_cast
    exact mul_div_mul_left _ _ hr'

theorem scatter_times (r : Nat) (X0 X1 : List (Fin d → K)) (mu0 mu1 : Fin d → K) :
    scatter (times r X0) (times r X1) mu0 mu1 = (r : K) • scatter X0 X1 mu0 mu1 := by
  ext a b
  simp only [scatter, Matrix.add_apply, Matrix.smul_apply, classScatter, times_map, times_sum, smul_eq_mul]
  ring

theorem predictRow_smul (c : K) (hc : 0 < c) (w mu0 mu1 row : Fin d → K) : predictRow (c • w) mu0 mu1 row = predictRow w mu0 mu1 row := by
  simp only [predictRow, dotProduct_smul, smul_dotProduct, smul_eq_mul]
  rw [← mul_sub, ← mul_sub, abs_mul, abs_mul, abs_of_pos hc]
  by_cases h : |row ⬝ᵥ w - w ⬝ᵥ mu0| > |row ⬝ᵥ w - w ⬝ᵥ mu1|
  · rw [if_pos h, if_pos (mul_lt_mul_of_pos_left h hc)]
  · rw [if_neg h, if_neg (not_lt.2 (mul_le_mul_of_nonneg_left (not_lt.1 h) hc.le))]

/-- The trained model with the projection vector multiplied by `c`. -/
def scaled (c : K) (m : Trained K d) : Trained K d := { m with w := m.w.map fun w => c • w }

theorem fit_times (r : Nat) (hr : r ≠ 0) (c : K) (gw : Matrix (Fin d) (Fin d) K → (Fin d → K) → (Fin d → K) → Except PyErr (Fin d → K))
    (hgw : ∀ S mu0 mu1, gw ((r : K) • S) mu0 mu1 = (gw S mu0 mu1).map fun w => c • w) (x : List (Fin d → K)) (y : List Int) :
    fit gw (times r x) (times r y) = (fit gw x y).map (scaled c) := by
  unfold fit
  rw [times_length, times_length]
  by_cases h : x.length = y.length
  · rw [if_neg (by rw [h]; simp), if_neg (by simpa using h)]
    dsimp only
    rw [rowsOf_times r x y h, rowsOf_times r x y h, colMean_times r hr, colMean_times r hr, scatter_times, hgw]
    generalize gw _ _ _ = g
    cases g with
    | error _ => rfl
    | ok w =>
      simp only [Except.map, scaled]
      split_ifs <;> rfl
  · rw [if_pos (by simpa [hr] using h), if_pos (by simpa using h)]; rfl

theorem predict_scaled (c : K) (hc : 0 < c) (m : Trained K d) (x : List (Fin d → K)) : predict (scaled c m) x = predict m x := by
  unfold predict scaled
  refine List.map_congr_left fun row _ => ?_
  rcases m with ⟨_ | w, _ | mu0, _ | mu1⟩ <;> simp [predictRow_smul c hc]

/-- C255: `r ≥ 1` copies of the data train a model with the same class centres whose projection vector is divided by `r`, or raise
the same exception, with the projection function `get_w` that inverts the scatter matrix... -/
theorem C255_inverse (r : Nat) (hr : r ≠ 0) (x : List (Fin d → K)) (y : List Int) :
    fit getW (times r x) (times r y) = (fit getW x y).map (scaled (r : K)⁻¹) := by
  have hr' : (r : K) ≠ 0 := by exact_mod_cast hr
  refine fit_times r hr _ _ (fun S mu0 mu1 => ?_) x y
  unfold getW
  rw [Matrix.det_smul]
  by_cases h0 : S.det = 0
  · rw [if_pos (by rw [h0, mul_zero]), if_pos h0]; rfl
  · rw [if_neg (mul_ne_zero (pow_ne_zero _ hr') h0), if_neg h0]
    have : Invertible (r : K) := invertibleOfNonzero hr'
    rw [Matrix.inv_smul _ (r : K) (isUnit_iff_ne_zero.2 h0), invOf_eq_inv, Matrix.smul_mulVec]; rfl

/-- ... with the one of the Python backend, whenever the decomposition of a multiple of a matrix has the same singular vectors and
multiplied singular values... -/
theorem C255_python (r : Nat) (hr : r ≠ 0) (svd : Matrix (Fin d) (Fin d) K → SVD K d)
    (hsvd : ∀ S, svd ((r : K) • S) = { svd S with Sigma := fun i => r * (svd S).Sigma i }) (x : List (Fin d → K)) (y : List Int) :
    fit (getWV2 svd) (times r x) (times r y) = (fit (getWV2 svd) x y).map (scaled (r : K)⁻¹) := by
  have hr' : (r : K) ≠ 0 := by exact_mod_cast hr
  refine fit_times r hr _ _ (fun S mu0 mu1 => ?_) x y
  unfold getWV2
  rw [hsvd]
  by_cases h0 : ∃ i, (svd S).Sigma i = 0
  · rw [if_pos (by obtain ⟨i, hi⟩ := h0; exact ⟨i, by simp [hi]⟩), if_pos h0]; rfl
  · rw [if_neg (by rintro ⟨i, hi⟩; exact h0 ⟨i, by simpa [hr'] using hi⟩), if_neg h0]
    have : pseudoInv { svd S with Sigma := fun i => r * (svd S).Sigma i } = (r : K)⁻¹ • pseudoInv (svd S) := by
      ext i j
      simp only [pseudoInv, invDiag, Matrix.smul_apply, smul_eq_mul, Matrix.diagonal_apply]
      split_ifs
      · rw [mul_inv]; ring
      · ring
    rw [this, Matrix.smul_mulVec]; rfl

/-- ... and with the one of the C++ backend, which multiplies the projection vector by `r` instead. -/
theorem C255_cc (r : Nat) (hr : r ≠ 0) (svd : Matrix (Fin d) (Fin d) K → SVD K d)
    (hsvd : ∀ S, svd ((r : K) • S) = { svd S with Sigma := fun i => r * (svd S).Sigma i }) (x : List (Fin d → K)) (y : List Int) :
    fit (fun S mu0 mu1 => .ok (getWCC svd S mu0 mu1)) (times r x) (times r y) =
      (fit (fun S mu0 mu1 => .ok (getWCC svd S mu0 mu1)) x y).map (scaled (r : K)) := by
  refine fit_times r hr _ _ (fun S mu0 mu1 => ?_) x y
  simp only [getWCC, hsvd, Except.map]
  congr 1
  rw [show Matrix.diagonal (fun i => (r : K) * (svd S).Sigma i) = (r : K) • Matrix.diagonal (svd S).Sigma from by
    ext i j; simp only [Matrix.diagonal_apply, Matrix.smul_apply, smul_eq_mul]; split_ifs <;> simp]
  rw [Matrix.mul_smul, Matrix.smul_mul, Matrix.smul_mulVec]

/-- C255: in all three cases the predictions are the same. -/
theorem C255_predictions (c : K) (hc : 0 < c) (m : Trained K d) (z : List (Fin d → K)) : predict (scaled c m) z = predict m z :=
  predict_scaled c hc m z

example : fit getW (times 2 ([fun _ => 0, fun _ => 1, fun _ => 4, fun _ => 7] : List (Fin 1 → ℚ))) (times 2 [0, 0, 1, 1]) ≠ .error .valueError := by
  rw [C255_inverse 2 (by decide)]
  have h : rowsOf ([fun _ => 0, fun _ => 1, fun _ => 4, fun _ => 7] : List (Fin 1 → ℚ)) [0, 0, 1, 1] 0 = [fun _ => 0, fun _ => 1] := rfl
  have h' : rowsOf ([fun _ => 0, fun _ => 1, fun _ => 4, fun _ => 7] : List (Fin 1 → ℚ)) [0, 0, 1, 1] 1 = [fun _ => 4, fun _ => 7] := rfl
  unfold fit
  rw [if_neg (by simp)]
  simp only [h, h', colMean, getW]
  rw [if_neg]
  · simp [Except.map]
  · rw [Matrix.det_fin_one]; simp [scatter, classScatter]; norm_num

end lda

/-! ## Gaussian mixture -/

section gmm
open CML.GMM
variable {K : Type*} [Field K] [LinearOrder K] [IsStrictOrderedRing K] {n d k : Nat}

theorem modNat_surj (r : Nat) (hr : r ≠ 0) (j : Fin n) : ∃ i : Fin (r * n), i.modNat = j :=
  ⟨finProdFinEquiv (⟨0, Nat.pos_of_ne_zero hr⟩, j), congrArg Prod.snd (finProdFinEquiv.symm_apply_apply (_, j))⟩

theorem exists_tile (r : Nat) (hr : r ≠ 0) (p : Fin n → Prop) : (∃ i : Fin (r * n), p i.modNat) ↔ ∃ j, p j :=
  ⟨fun ⟨i, h⟩ => ⟨_, h⟩, fun ⟨j, h⟩ => by obtain ⟨i, rfl⟩ := modNat_surj r hr j; exact ⟨i, h⟩⟩

theorem posterior_tile (r : Nat) (hr : r ≠ 0) (dens : Density K d) (x : Fin n → Fin d → K) (P : Params K k d) :
    posterior dens (tile r x) P = (posterior dens x P).map (tile r) := by
  unfold posterior
  have h1 : (∃ j i, dens (tile r x j) (P.mu i) (P.sigma i) = none) ↔ _ := exists_tile r hr fun j => ∃ i, dens (x j) (P.mu i) (P.sigma i) = none
  have h2 : (∃ j, mixtureDensity P.alpha (fun i => (dens (tile r x j) (P.mu i) (P.sigma i)).getD 0) = 0) ↔ _ :=
    exists_tile r hr fun j => mixtureDensity P.alpha (fun i => (dens (x j) (P.mu i) (P.sigma i)).getD 0) = 0
  by_cases h : ∃ j i, dens (x j) (P.mu i) (P.sigma i) = none
  · rw [if_pos h, if_pos (h1.2 h)]; rfl
  · rw [if_neg h, if_neg (fun h' => h (h1.1 h'))]
    dsimp only
    by_cases h' : ∃ j, mixtureDensity P.alpha (fun i => (dens (x j) (P.mu i) (P.sigma i)).getD 0) = 0
    · rw [if_pos h', if_pos (h2.2 h')]; rfl
    · rw [if_neg h', if_neg (fun h'' => h' (h2.1 h''))]; rfl

theorem sum_tile' (r : Nat) (f : Fin n → K) : ∑ i : Fin (r * n), f i.modNat = r * ∑ i, f i := by
  have := sum_tile r f; rw [nsmul_eq_mul] at this; exact this

theorem emStep_tile (r : Nat) (hr : r ≠ 0) (dens : Density K d) (x : Fin n → Fin d → K) (P : Params K k d) :
    emStep dens (tile r x) P = emStep dens x P := by
  have hr' : (r : K) ≠ 0 := by exact_mod_cast hr
  unfold emStep
  rw [posterior_tile r hr]
  cases posterior dens x P with
  | none => rfl
  | some g =>
    dsimp only [Option.map_some]
    have hs : ∀ i, ∑ j, tile r g j i = r * ∑ j, g j i := fun i => sum_tile' r fun j => g j i
    have hm : calculateMeans (tile r x) (tile r g) = calculateMeans x g := by
      funext i l
      simp only [calculateMeans, hs]
      rw [show ∑ j, tile r g j i * tile r x j l = r * ∑ j, g j i * x j l from sum_tile' r fun j => g j i * x j l, mul_div_mul_left _ _ hr']
    have hc : calculateCovariances (tile r x) (calculateMeans x g) (tile r g) = calculateCovariances x (calculateMeans x g) g := by
      funext i a b
      simp only [calculateCovariances, hs]
      rw [show ∑ j, tile r g j i * ((tile r x j a - calculateMeans x g i a) * (tile r x j b - calculateMeans x g i b)) = _ from
        sum_tile' r fun j => g j i * ((x j a - calculateMeans x g i a) * (x j b - calculateMeans x g i b)), mul_div_mul_left _ _ hr']
    have ha : n ≠ 0 → calculateMixtureCoefficient (tile r g) = calculateMixtureCoefficient g := fun hn => by
      have hn' : (n : K) ≠ 0 := by exact_mod_cast hn
      funext i
      simp only [calculateMixtureCoefficient, hs]
      push_cast
      field_simp
    by_cases h : (∃ i, ∑ j, g j i = 0) ∨ n = 0
    · rw [if_pos h, if_pos]
      rcases h with ⟨i, h⟩ | h
      · exact Or.inl ⟨i, by rw [hs, h, mul_zero]⟩
      · exact Or.inr (by rw [h, mul_zero])
    · rw [if_neg h, if_neg, hm, hc, ha fun hn => h (Or.inr hn)]
      rintro (⟨i, h'⟩ | h')
      · rw [hs] at h'; exact h (Or.inl ⟨i, (mul_eq_zero.1 h').resolve_left hr'⟩)
      · exact h (Or.inr ((Nat.mul_eq_zero.1 h').resolve_left hr))

theorem fitLoop_tile (r : Nat) (hr : r ≠ 0) (dens : Density K d) (x : Fin n → Fin d → K) (tol : K) (epochs : Nat) (P : Params K k d) :
    GMM.fitLoop dens (tile r x) tol epochs P = GMM.fitLoop dens x tol epochs P := by
  induction epochs generalizing P with
  | zero => rfl
  | succ e ih =>
    simp only [GMM.fitLoop, emStep_tile r hr]
    cases emStep dens x P with
    | none => rfl
    | some Q => simp only [ih]

/-- C256 (mixture): from the same initial parameters, `r ≥ 1` copies of the data give the same trained parameters and give every
copy of a sample the cluster of the sample (or fail alike). -/
theorem C256_mixture (r : Nat) (hr : r ≠ 0) (dens : Density K d) (x : Fin n → Fin d → K) (tol : K) (epochs : Nat) (P : Params K k d) :
    GMM.fit dens (tile r x) tol epochs P = (GMM.fit dens x tol epochs P).map fun R => (R.1, tile r R.2) := by
  unfold GMM.fit
  rw [fitLoop_tile r hr]
  cases GMM.fitLoop dens x tol epochs P with
  | none => rfl
  | some Q =>
    simp only [GMM.predict, posterior_tile r hr]
    cases posterior dens x Q <;> rfl

end gmm

/-! ## k-means -/

section kmeans
open CML.KMeans
variable {K : Type} [Field K] [LinearOrder K] [IsStrictOrderedRing K] {d : Nat}

theorem getCluster_times (r : Nat) (hr : r ≠ 0) (root : K → K) (x : List (Fin d → K)) (cs : List (Option (Fin d → K))) :
    getCluster root (times r x) cs = (getCluster root x cs).map (times r) := by
  obtain ⟨r, rfl⟩ := Nat.exists_eq_succ_of_ne_zero hr
  clear hr
  unfold getCluster
  induction r with
  | zero =>
    rw [show times (0 + 1) x = x from by simp [times]]
    cases x.mapM (fun u => argminNaN (distances root u cs)) with
    | none => rfl
    | some l => show some l = some (times 1 l); simp [times]
  | succ r ih =>
    rw [times_succ (r + 1) x, List.mapM_append, ih]
    cases x.mapM (fun u => argminNaN (distances root u cs)) with
    | none => rfl
    | some l => show some (l ++ times (r + 1) l) = some (times (r + 1 + 1) l); rw [← times_succ]

theorem calculateCentroids_times (r : Nat) (hr : r ≠ 0) (x : List (Fin d → K)) (lab : List Nat) (h : x.length = lab.length) :
    calculateCentroids (times r x) (times r lab) = calculateCentroids x lab := by
  have hr' : (r : K) ≠ 0 := by exact_mod_cast hr
  unfold calculateCentroids
  have hn : Ops.numUnique (times r lab) = Ops.numUnique lab := by
    unfold Ops.numUnique
    refine (List.perm_of_nodup_nodup_toFinset_eq (List.nodup_dedup _) (List.nodup_dedup _) ?_).length_eq
    ext a; simp [mem_times r hr]
  rw [hn]
  refine List.map_congr_left fun c _ => ?_
  have : members (times r x) (times r lab) c = times r (members x lab c) := by
    unfold members; rw [times_zip r x lab h, times_filter, times_map]
  rw [this]
  unfold KMeans.mean
  by_cases h0 : members x lab c = []
  · rw [if_pos h0, if_pos ((times_eq_nil r hr _).2 h0)]
  · rw [if_neg h0, if_neg (fun h' => h0 ((times_eq_nil r hr _).1 h'))]
    congr 1; funext j
    rw [times_map, times_sum, times_length]; push_cast
    exact mul_div_mul_left _ _ hr'

/-- The fitted model with every label `r` times. -/
def withCopies (r : Nat) (F : Fitted K d) : Fitted K d := { F with clusters := F.clusters.map (times r) }

theorem fitLoop_times (r : Nat) (hr : r ≠ 0) (root : K → K) (x : List (Fin d → K)) (tol : K) (epochs : Nat) :
    ∀ (cs : List (Option (Fin d → K))) (lab : Option (List Nat)),
    KMeans.fitLoop root (times r x) tol epochs cs (lab.map (times r)) = (KMeans.fitLoop root x tol epochs cs lab).map (withCopies r) := by
  induction epochs with
  | zero => intro cs lab; rfl
  | succ e ih =>
    intro cs lab
    simp only [KMeans.fitLoop, getCluster_times r hr]
    cases hg : getCluster root x cs with
    | none => rfl
    | some l =>
      have hl : x.length = l.length := (mapM_some _ _ hg).1.symm
      simp only [Option.map_some, calculateCentroids_times r hr x l hl]
      cases compareDifferences cs (calculateCentroids x l) tol with
      | error _ => rfl
      | ok diff =>
        simp only
        by_cases h : diff.any id
        · rw [if_pos h, if_pos h]; exact ih _ (some l)
        · rw [if_neg h, if_neg h]; rfl

/-- C256 (k-means): from the same initial centroids, `r ≥ 1` copies of the data give the same centroids, stop at the same epoch and give
every copy of a sample the cluster of the sample (or raise the same exception). -/
theorem C256_kmeans (r : Nat) (hr : r ≠ 0) (root : K → K) (x : List (Fin d → K)) (tol : K) (epochs : Nat) (init : List (Fin d → K)) :
    KMeans.fit root (times r x) tol epochs init = (KMeans.fit root x tol epochs init).map (withCopies r) :=
  fitLoop_times r hr root x tol epochs (init.map some) none

/-- Three copies of three points, two clusters. -/
example : (KMeans.fit id (times 3 [fun _ => 0, fun _ => 1, fun _ => 5] : List (Fin 1 → ℚ)) 0 5 [fun _ => 0, fun _ => 5]).map
    (fun F => (F.clusters, F.stopped)) = .ok (some [0, 0, 1, 0, 0, 1, 0, 0, 1], true) := by decide +kernel

end kmeans

/-! ## Decision trees -/

section tree
open CML.DTree
universe u w
variable {V : Type u} {K : Type w} {m : Nat} [DecidableEq V] [Field K] [LinearOrder K] [IsStrictOrderedRing K]

theorem pyUnique_append {α : Type*} [DecidableEq α] (l k : List α) : pyUnique (l ++ k) = pyUnique l ++ (pyUnique k).filter fun a => decide (a ∉ l) := by
  induction l with
  | nil => simp [pyUnique]
  | cons b l ih =>
    simp only [List.cons_append, pyUnique, ih, List.filter_append, List.filter_filter]
    congr 2
    refine List.filter_congr fun a _ => ?_
    simp

theorem pyUnique_times {α : Type*} [DecidableEq α] (r : Nat) (hr : r ≠ 0) (l : List α) : pyUnique (times r l) = pyUnique l := by
  obtain ⟨r, rfl⟩ := Nat.exists_eq_succ_of_ne_zero hr
  rw [times_succ, pyUnique_append, List.filter_eq_nil_iff.2, List.append_nil]
  intro a ha
  rw [mem_pyUnique] at ha
  by_cases h : r = 0
  · subst h; simp [times] at ha
  · simpa using (mem_times r h l a).1 ha

theorem ratio_times (r : Nat) (hr : r ≠ 0) (a b : Nat) : ((r * a : Nat) : K) / ((r * b : Nat) : K) = (a : K) / (b : K) := by
  push_cast; exact mul_div_mul_left _ _ (by exact_mod_cast hr)

theorem gini_times (r : Nat) (hr : r ≠ 0) (y : List Int) : (gini (times r y) : K) = gini y := by
  simp only [gini, pyUnique_times r hr, times_count, times_length, ratio_times r hr]

theorem entropy_times (r : Nat) (hr : r ≠ 0) (y : List Int) : entropy (times r y) = entropy y := by
  simp only [entropy, pyUnique_times r hr, times_count, times_length, ratio_times r hr]

/-- What the criterion computes from the outside does not depend on the number of copies: the impurity, and whether a column counts as
continuous. -/
structure CopyFree (r : Nat) (imp : List Int → K) (isCont : List V → Bool) (maj : List Int → Option Int) : Prop where
  imp : ∀ y, imp (times r y) = imp y
  isCont : ∀ D, isCont (times r D) = isCont D
  maj : ∀ y, maj (times r y) = maj y

theorem contValue_times (r : Nat) (hr : r ≠ 0) (imp : List Int → K) (hi : ∀ y, imp (times r y) = imp y) (D : List K) (y : List Int)
    (h : D.length = y.length) (t : K) : contValue imp (times r D) (times r y) t = contValue imp D y t := by
  simp only [contValue, times_zip r D y h, times_filter, times_map, times_length, hi, ratio_times r hr]

theorem discValue_times (r : Nat) (hr : r ≠ 0) (imp : List Int → K) (hi : ∀ y, imp (times r y) = imp y) (D : List V) (y : List Int)
    (h : D.length = y.length) : discValue imp (times r D) (times r y) = discValue imp D y := by
  simp only [discValue, pyUnique_times r hr, times_zip r D y h, times_filter, times_map, times_length, hi, ratio_times r hr]

theorem getValue_times (r : Nat) (hr : r ≠ 0) (imp : List Int → K) (hi : ∀ y, imp (times r y) = imp y) (num : V → K) (c : Bool)
    (D : List V) (y : List Int) (h : D.length = y.length) : getValue imp num c (times r D) (times r y) = getValue imp num c D y := by
  unfold getValue
  cases c with
  | false => simp only [Bool.false_eq_true, if_false, discValue_times r hr imp hi D y h]
  | true =>
    simp only [if_true, times_map, pyUnique_times r hr]
    rw [show contValue imp (times r (D.map num)) (times r y) = contValue imp (D.map num) y from
      funext fun t => contValue_times r hr imp hi _ y (by simpa using h) t]

/-- The oracle of the generator does not see the copies. -/
structure OracleCopies (r : Nat) (o : Oracle V K m) : Prop where
  split : ∀ cols xs ys, xs.length = ys.length → o.split cols (times r xs) (times r ys) = o.split cols xs ys
  maj : ∀ ys, o.maj (times r ys) = o.maj ys

theorem criterion_copies (r : Nat) (hr : r ≠ 0) {imp : List Int → K} {isCont : List V → Bool} {maj : List Int → Option Int}
    (h : CopyFree r imp isCont maj) (num : V → K) (fl : K → K) : OracleCopies r (criterionOracle (m := m) imp num isCont maj fl) := by
  refine ⟨fun cols xs ys hl => ?_, h.maj⟩
  have hv : (fun a : Fin m => getValue imp num (isCont ((times r xs).map fun r => r a)) ((times r xs).map fun r => r a) (times r ys)) =
      fun a => getValue imp num (isCont (xs.map fun r => r a)) (xs.map fun r => r a) ys := by
    funext a
    rw [times_map, h.isCont, getValue_times r hr imp h.imp _ _ _ _ (by simpa using hl)]
  simp only [criterionOracle, optimalDivision]
  rw [hv]

theorem gain_copies (r : Nat) (hr : r ≠ 0) {imp : List Int → K} {isCont : List V → Bool} {maj : List Int → Option Int}
    (h : CopyFree r imp isCont maj) (num : V → K) (fl : K → K) : OracleCopies r (gainOracle (m := m) imp num isCont maj fl) := by
  refine ⟨fun cols xs ys hl => ?_, h.maj⟩
  have hv : ∀ a : Fin m, getValue imp num (isCont ((times r xs).map fun r => r a)) ((times r xs).map fun r => r a) (times r ys) =
      getValue imp num (isCont (xs.map fun r => r a)) (xs.map fun r => r a) ys := by
    intro a
    rw [times_map, h.isCont, getValue_times r hr imp h.imp _ _ _ _ (by simpa using hl)]
  simp only [gainOracle, gainDivision, hv, h.imp]

theorem selY_times (r : Nat) (p : Row V m → Bool) (xs : List (Row V m)) (ys : List Int) (h : xs.length = ys.length) :
    selY p (times r xs) (times r ys) = times r (selY p xs ys) := by
  unfold selY; rw [times_zip r xs ys h, times_filter, times_map]

theorem selY_len (p : Row V m → Bool) : ∀ (xs : List (Row V m)) (ys : List Int), xs.length = ys.length → (xs.filter p).length = (selY p xs ys).length
  | [], [], _ => rfl
  | x :: xs, y :: ys, h => by
    have ih := selY_len p xs ys (by simpa using h)
    unfold selY at *
    simp only [List.zip_cons_cons, List.filter_cons]
    cases p x <;> simp [ih]

theorem generate_times (r : Nat) (hr : r ≠ 0) {o : Oracle V K m} (h : OracleCopies r o) (full : List (Row V m)) (fuel : Nat) :
    ∀ (cols : List (Fin m)) (xs : List (Row V m)) (ys : List Int), (xs.length = ys.length ∨ xs = []) →
    generate o (times r full) fuel cols (times r xs) (times r ys) = generate o full fuel cols xs ys := by
  induction fuel with
  | zero => intros; rfl
  | succ fuel ih =>
    intro cols xs ys hl
    simp only [generate, pyUnique_times r hr, times_eq_nil r hr, times_map, times_filter]
    by_cases h1 : (pyUnique ys).length = 1
    · rw [if_pos h1, if_pos h1]
      cases ys with
      | nil => exact absurd h1 (by simp [pyUnique])
      | cons c l =>
        obtain ⟨r, rfl⟩ := Nat.exists_eq_succ_of_ne_zero hr
        rw [times_succ]; rfl
    · rw [if_neg h1, if_neg h1]
      by_cases h2 : xs = [] ∨ cols = []
      · rw [if_pos h2, if_pos h2, h.maj]
      · have hl' : xs.length = ys.length := hl.resolve_right fun h => h2 (.inl h)
        rw [if_neg h2, if_neg h2, h.split cols xs ys hl']
        rcases o.split cols xs ys with _ | ⟨a, _ | t₀⟩
        · rfl
        · dsimp only
          have hg : (fun v : V => if selY (fun r => decide (r a = v)) (times r xs) (times r ys) = [] then
              generate o (times r full) fuel (cols.filter fun c => c ≠ a) (times r (xs.filter fun r => decide (r a = v))) (times r ys)
            else generate o (times r full) fuel (cols.filter fun c => c ≠ a) (times r (xs.filter fun r => decide (r a = v)))
              (selY (fun r => decide (r a = v)) (times r xs) (times r ys))) = fun v => if selY (fun r => decide (r a = v)) xs ys = [] then
              generate o full fuel (cols.filter fun c => c ≠ a) (xs.filter fun r => decide (r a = v)) ys
            else generate o full fuel (cols.filter fun c => c ≠ a) (xs.filter fun r => decide (r a = v))
              (selY (fun r => decide (r a = v)) xs ys) := by
            funext v
            rw [selY_times r _ xs ys hl']
            have hlen := selY_len (fun r => decide (r a = v)) xs ys hl'
            by_cases he : selY (fun r => decide (r a = v)) xs ys = []
            · rw [if_pos he, if_pos ((times_eq_nil r hr _).2 he)]
              exact ih _ _ _ (.inr (List.length_eq_zero_iff.1 (by rw [hlen, he]; rfl)))
            · rw [if_neg he, if_neg (fun h' => he ((times_eq_nil r hr _).1 h'))]
              exact ih _ _ _ (.inl hlen)
          rw [hg]
        · dsimp only
          rw [selY_times r _ xs ys hl', selY_times r _ xs ys hl', ih _ _ _ (.inl (selY_len _ xs ys hl')), ih _ _ _ (.inl (selY_len _ xs ys hl'))]

/-- C257: `r ≥ 1` copies of the training set generate the very same tree (or raise the same exception), with the Gini criterion... -/
theorem C257_gini (r : Nat) (hr : r ≠ 0) (num : V → K) (isCont : List V → Bool) (maj : List Int → Option Int) (fl : K → K)
    (hc : ∀ D, isCont (times r D) = isCont D) (hm : ∀ y, maj (times r y) = maj y) (limit : Nat) (xs : List (Row V m)) (ys : List Int)
    (hl : xs.length = ys.length) :
    DTree.fit (criterionOracle gini num isCont maj fl) limit (times r xs) (times r ys) = DTree.fit (criterionOracle gini num isCont maj fl) limit xs ys :=
  generate_times r hr (criterion_copies r hr ⟨gini_times r hr, hc, hm⟩ num fl) xs limit _ xs ys (.inl hl)

/-- ... with the entropy, and with the information gain. -/
theorem C257_entropy_gain (r : Nat) (hr : r ≠ 0) (num : V → ℝ) (isCont : List V → Bool) (maj : List Int → Option Int) (fl : ℝ → ℝ)
    (hc : ∀ D, isCont (times r D) = isCont D) (hm : ∀ y, maj (times r y) = maj y) (limit : Nat) (xs : List (Row V m)) (ys : List Int)
    (hl : xs.length = ys.length) :
    DTree.fit (criterionOracle entropy num isCont maj fl) limit (times r xs) (times r ys) = DTree.fit (criterionOracle entropy num isCont maj fl) limit xs ys ∧
    DTree.fit (gainOracle entropy num isCont maj fl) limit (times r xs) (times r ys) = DTree.fit (gainOracle entropy num isCont maj fl) limit xs ys :=
  ⟨generate_times r hr (criterion_copies r hr ⟨entropy_times r hr, hc, hm⟩ num fl) xs limit _ xs ys (.inl hl),
    generate_times r hr (gain_copies r hr ⟨entropy_times r hr, hc, hm⟩ num fl) xs limit _ xs ys (.inl hl)⟩

/-- A rule for columns and a majority label that do not see the copies. -/
example (r : Nat) (hr : r ≠ 0) : (∀ D : List V, decide (2 < (pyUnique (times r D)).length) = decide (2 < (pyUnique D).length)) ∧
    ∀ y : List Int, ((pyUnique (times r y)).find? fun c => (pyUnique (times r y)).all fun e => decide ((times r y).count e ≤ (times r y).count c)) =
      (pyUnique y).find? fun c => (pyUnique y).all fun e => decide (y.count e ≤ y.count c) := by
  refine ⟨fun D => by rw [pyUnique_times r hr], fun y => ?_⟩
  simp only [pyUnique_times r hr, times_count, Nat.mul_le_mul_left_iff (Nat.pos_of_ne_zero hr)]

end tree

end CML.Repeat
