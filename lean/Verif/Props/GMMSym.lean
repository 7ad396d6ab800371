import Verif.Spec.GMMSym
import Verif.Props.GMM
import Verif.Lemmas.Sym
import Mathlib.Algebra.BigOperators.Field
import Mathlib.Algebra.Order.BigOperators.Ring.Finset

set_option linter.unusedSectionVars false

/-! # Properties C194, C195: Gaussian mixtures in other coordinates, with the samples in another order, with renumbered components -/

namespace CML.GMM
open Finset Matrix

variable {K : Type} [Field K] [LinearOrder K] [IsStrictOrderedRing K] {n k d : Nat}
variable {A : Matrix (Fin d) (Fin d) K} {t : Fin d → K} {dens : Density K d}

/-- The density in the new coordinates is the old one up to a constant factor. -/
def Scales (A : Matrix (Fin d) (Fin d) K) (t : Fin d → K) (dens : Density K d) : Prop :=
  ∃ c : K, c ≠ 0 ∧ ∀ (u mu : Fin d → K) (s : Fin d → Fin d → K), dens (move A t u) (move A t mu) (fun a b => (A * Matrix.of s * Aᵀ) a b) = (dens u mu s).map (c * ·)

theorem posterior_move (h : Scales A t dens) (x : Fin n → Fin d → K) (P : Params K k d) :
    posterior dens (fun j => move A t (x j)) (P.move A t) = posterior dens x P := by
  obtain ⟨c, hc, hd⟩ := h
  have hd' : ∀ j i, dens (move A t (x j)) ((P.move A t).mu i) ((P.move A t).sigma i) = (dens (x j) (P.mu i) (P.sigma i)).map (c * ·) := fun j i => hd _ _ _
  unfold posterior
  simp only [hd', Option.map_eq_none_iff]
  by_cases h1 : ∃ j i, dens (x j) (P.mu i) (P.sigma i) = none
  · rw [if_pos h1, if_pos h1]
  · rw [if_neg h1, if_neg h1]
    have hg : ∀ j i, ((dens (x j) (P.mu i) (P.sigma i)).map (c * ·)).getD 0 = c * (dens (x j) (P.mu i) (P.sigma i)).getD 0 := fun j i => by
      cases dens (x j) (P.mu i) (P.sigma i) <;> simp
    simp only [hg]
    have hm : ∀ j, mixtureDensity (P.move A t).alpha (fun i => c * (dens (x j) (P.mu i) (P.sigma i)).getD 0) =
        c * mixtureDensity P.alpha fun i => (dens (x j) (P.mu i) (P.sigma i)).getD 0 := fun j => by
      simp only [mixtureDensity, Finset.mul_sum]
      exact Finset.sum_congr rfl fun i _ => by show P.alpha i * _ = _; ring
    simp only [hm, mul_eq_zero, hc, false_or]
    by_cases h2 : ∃ j, mixtureDensity P.alpha (fun i => (dens (x j) (P.mu i) (P.sigma i)).getD 0) = 0
    · rw [if_pos h2, if_pos h2]
    · rw [if_neg h2, if_neg h2]
      congr 1
      funext j i
      show P.alpha i * _ / _ = _
      rw [mul_left_comm, mul_div_mul_left _ _ hc]

theorem means_move (x : Fin n → Fin d → K) (g : Fin n → Fin k → K) (hg : ∀ i, ∑ j, g j i ≠ 0) (i : Fin k) :
    calculateMeans (fun j => move A t (x j)) g i = move A t (calculateMeans x g i) := by
  funext l
  simp only [calculateMeans, move, Pi.add_apply, mulVec, dotProduct, mul_add, Finset.sum_add_distrib, ← Finset.sum_mul]
  rw [add_div, mul_div_cancel_left₀ _ (hg i)]
  congr 1
  simp only [Finset.mul_sum, Finset.sum_div, mul_div_assoc']
  rw [Finset.sum_comm]
  exact Finset.sum_congr rfl fun l' _ => Finset.sum_congr rfl fun j _ => by ring

theorem covariances_move (x : Fin n → Fin d → K) (mu : Fin k → Fin d → K) (g : Fin n → Fin k → K) (i : Fin k) :
    calculateCovariances (fun j => move A t (x j)) (fun i => move A t (mu i)) g i = fun a b => (A * Matrix.of (calculateCovariances x mu g i) * Aᵀ) a b := by
  funext a b
  have hv : ∀ j a, move A t (x j) a - move A t (mu i) a = ∑ l, A a l * (x j l - mu i l) := fun j a => by
    simp only [move, Pi.add_apply, mulVec, dotProduct, mul_sub, Finset.sum_sub_distrib]; ring
  simp only [calculateCovariances, hv, Matrix.mul_apply, Matrix.of_apply, transpose_apply, Finset.sum_mul, Finset.mul_sum, Finset.sum_div]
  rw [Finset.sum_comm]
  refine Finset.sum_congr rfl fun l _ => ?_
  rw [Finset.sum_comm]
  refine Finset.sum_congr rfl fun l' _ => ?_
  exact Finset.sum_congr rfl fun j _ => by ring

theorem emStep_move (h : Scales A t dens) (x : Fin n → Fin d → K) (P : Params K k d) :
    emStep dens (fun j => move A t (x j)) (P.move A t) = (emStep dens x P).map (Params.move A t) := by
  unfold emStep
  rw [posterior_move h]
  cases posterior dens x P with
  | none => rfl
  | some g =>
    dsimp only
    by_cases hc : (∃ i, ∑ j, g j i = 0) ∨ n = 0
    · rw [if_pos hc, if_pos hc]; rfl
    · rw [if_neg hc, if_neg hc]
      push Not at hc
      have hmu : calculateMeans (fun j => move A t (x j)) g = fun i => move A t (calculateMeans x g i) := funext fun i => means_move x g hc.1 i
      simp only [Option.map_some, Params.move, hmu]
      congr 2
      funext i
      exact covariances_move x _ g i

theorem predict_move (h : Scales A t dens) (x : Fin n → Fin d → K) (P : Params K k d) : predict dens (P.move A t) (fun j => move A t (x j)) = predict dens P x := by
  unfold predict; rw [posterior_move h]

theorem fitLoop_move (h : Scales A t dens) (x : Fin n → Fin d → K) (tol : K) (ht : ∀ P Q : Params K k d, differs tol (P.move A t) (Q.move A t) ↔ differs tol P Q) (e : Nat) :
    ∀ P : Params K k d, fitLoop dens (fun j => move A t (x j)) tol e (P.move A t) = (fitLoop dens x tol e P).map (Params.move A t) := by
  induction e with
  | zero => intro P; rfl
  | succ e ih =>
    intro P
    simp only [fitLoop, emStep_move h]
    cases emStep dens x P with
    | none => rfl
    | some Q =>
      simp only [Option.map_some]
      by_cases hd : differs tol P Q
      · rw [if_pos hd, if_pos ((ht P Q).2 hd)]; exact ih Q
      · rw [if_neg hd, if_neg (fun hc => hd ((ht P Q).1 hc))]; rfl

theorem fit_move (h : Scales A t dens) (x : Fin n → Fin d → K) (tol : K) (ht : ∀ P Q : Params K k d, differs tol (P.move A t) (Q.move A t) ↔ differs tol P Q) (e : Nat) (P : Params K k d) :
    fit dens (fun j => move A t (x j)) tol e (P.move A t) = (fit dens x tol e P).map fun r => (r.1.move A t, r.2) := by
  unfold fit
  rw [fitLoop_move h x tol ht]
  cases fitLoop dens x tol e P with
  | none => rfl
  | some Q =>
    simp only [Option.map_some]
    rw [predict_move h]
    cases predict dens Q x <;> rfl

/-! ## The normal density -/

section normal
variable {A : Matrix (Fin d) (Fin d) ℝ} {t : Fin d → ℝ}

theorem quad_eq (M : Matrix (Fin d) (Fin d) ℝ) (v : Fin d → ℝ) : ∑ a, ∑ b, v a * M a b * v b = v ⬝ᵥ (M *ᵥ v) := by
  simp only [dotProduct, mulVec, Finset.mul_sum]
  exact Finset.sum_congr rfl fun a _ => Finset.sum_congr rfl fun b _ => by ring

theorem quad_move (hA : A.det ≠ 0) (S : Matrix (Fin d) (Fin d) ℝ) (v : Fin d → ℝ) : (A *ᵥ v) ⬝ᵥ ((A * S * Aᵀ)⁻¹ *ᵥ (A *ᵥ v)) = v ⬝ᵥ (S⁻¹ *ᵥ v) := by
  have hu : IsUnit A.det := isUnit_iff_ne_zero.2 hA
  have hAt : IsUnit Aᵀ.det := by rw [det_transpose]; exact hu
  rw [dotProduct_comm, dotProduct_mulVec, ← mulVec_transpose, mulVec_mulVec, mulVec_mulVec, Matrix.mul_inv_rev, Matrix.mul_inv_rev,
    show Aᵀ * (Aᵀ⁻¹ * (S⁻¹ * A⁻¹)) * A = S⁻¹ by
      rw [← Matrix.mul_assoc, mul_nonsing_inv _ hAt, Matrix.one_mul, Matrix.mul_assoc, nonsing_inv_mul _ hu, Matrix.mul_one], dotProduct_comm]

/-- Coordinates that preserve volumes: the density does not change, whatever the rounding. -/
theorem scales_unimodular (fl : ℝ → ℝ) (hA : A.det ^ 2 = 1) : Scales A t (normalDensity fl) := by
  have h0 : A.det ≠ 0 := fun h => by rw [h] at hA; norm_num at hA
  refine ⟨1, one_ne_zero, fun u mu s => ?_⟩
  have hdet : (Matrix.of fun a b => (A * Matrix.of s * Aᵀ) a b).det = (Matrix.of s).det := by
    show (A * Matrix.of s * Aᵀ).det = _
    rw [det_mul, det_mul, det_transpose, mul_right_comm, ← sq, hA, one_mul]
  have hq : ∑ a, ∑ b, (move A t u a - move A t mu a) * (Matrix.of fun a b => (A * Matrix.of s * Aᵀ) a b)⁻¹ a b * (move A t u b - move A t mu b) =
      ∑ a, ∑ b, (u a - mu a) * (Matrix.of s)⁻¹ a b * (u b - mu b) := by
    have hv : (fun a => move A t u a - move A t mu a) = A *ᵥ (fun a => u a - mu a) := by
      show move A t u - move A t mu = A *ᵥ (u - mu)
      simp [move, mulVec_sub]
    rw [quad_eq (Matrix.of s)⁻¹ fun a => u a - mu a, quad_eq _ (fun a => move A t u a - move A t mu a), hv]
    exact quad_move h0 _ _
  simp only [normalDensity, hdet, hq, one_mul]
  split <;> rfl

/-- Any invertible change of coordinates, with exact arithmetic. -/
theorem scales_affine (hA : A.det ≠ 0) : Scales A t (normalDensity id) := by
  have habs : 0 < |A.det| := abs_pos.2 hA
  refine ⟨1 / |A.det|, (one_div_pos.2 habs).ne', fun u mu s => ?_⟩
  have hdet : (Matrix.of fun a b => (A * Matrix.of s * Aᵀ) a b).det = A.det ^ 2 * (Matrix.of s).det := by
    show (A * Matrix.of s * Aᵀ).det = _
    rw [det_mul, det_mul, det_transpose]; ring
  have hq : ∑ a, ∑ b, (move A t u a - move A t mu a) * (Matrix.of fun a b => (A * Matrix.of s * Aᵀ) a b)⁻¹ a b * (move A t u b - move A t mu b) =
      ∑ a, ∑ b, (u a - mu a) * (Matrix.of s)⁻¹ a b * (u b - mu b) := by
    have hv : (fun a => move A t u a - move A t mu a) = A *ᵥ (fun a => u a - mu a) := by
      show move A t u - move A t mu = A *ᵥ (u - mu)
      simp [move, mulVec_sub]
    rw [quad_eq (Matrix.of s)⁻¹ fun a => u a - mu a, quad_eq _ (fun a => move A t u a - move A t mu a), hv]
    exact quad_move hA _ _
  have hsq : 0 < A.det ^ 2 := by positivity
  simp only [normalDensity, hdet, hq, id]
  by_cases hs : (Matrix.of s).det ≤ 0
  · rw [if_pos hs, if_pos (mul_nonpos_of_nonneg_of_nonpos hsq.le hs)]; rfl
  · rw [if_neg hs, if_neg (fun hc => hs (by by_contra h; push Not at h; exact absurd hc (not_le.2 (mul_pos hsq h)))), Option.map_some]
    push Not at hs
    rw [Real.sqrt_mul hsq.le, Real.sqrt_sq_eq_abs]
    have hp : ∀ c : ℝ, 0 < c → ¬ (1 / (c * (2 * Real.pi) ^ ((d : ℝ) / 2)) * Real.exp (-1 / 2 * ∑ a, ∑ b, (u a - mu a) * (Matrix.of s)⁻¹ a b * (u b - mu b)) = 0) := fun c hc => by
      have : 0 < (2 * Real.pi) ^ ((d : ℝ) / 2) := by positivity
      positivity
    have hr := Real.sqrt_pos.2 hs
    rw [if_neg (hp _ (mul_pos habs hr)), if_neg (hp _ hr)]
    congr 1
    field_simp

end normal

/-! ## C194 -/

/-- The matrix that exchanges features. -/
def permM (σ : Equiv.Perm (Fin d)) : Matrix (Fin d) (Fin d) K := fun l l' => if l' = σ l then 1 else 0

theorem move_perm (σ : Equiv.Perm (Fin d)) (u : Fin d → K) : move (permM σ) t u = fun l => u (σ l) + t l := by
  funext l; simp [move, mulVec, dotProduct, permM]

theorem Params.move_perm (σ : Equiv.Perm (Fin d)) (P : Params K k d) : P.move (permM σ) t = P.relabel σ t := by
  unfold Params.move Params.relabel
  congr 1
  · funext i; exact GMM.move_perm σ _
  · funext i a b
    simp [Matrix.mul_apply, permM]

theorem det_permM (σ : Equiv.Perm (Fin d)) : (permM (K := K) σ).det ^ 2 = 1 := by
  have h : permM (K := K) σ * (permM σ)ᵀ = 1 := by
    ext a b
    simp only [Matrix.mul_apply, permM, transpose_apply, Matrix.one_apply, ite_mul, one_mul, zero_mul, Finset.sum_ite_eq', Finset.mem_univ, if_true]
    by_cases hab : a = b
    · simp [hab]
    · rw [if_neg hab, if_neg (fun hc => hab (σ.injective hc))]
  have := congrArg Matrix.det h
  rw [det_mul, det_transpose, det_one] at this
  rw [sq]; exact this

theorem differs_perm (σ : Equiv.Perm (Fin d)) (tol : K) (P Q : Params K k d) : differs tol (P.relabel σ t) (Q.relabel σ t) ↔ differs tol P Q := by
  unfold differs
  simp only [Params.relabel, add_sub_add_right_eq_sub]
  refine or_congr ⟨?_, ?_⟩ (or_congr ⟨?_, ?_⟩ Iff.rfl)
  · rintro ⟨i, l, h⟩; exact ⟨i, σ l, h⟩
  · rintro ⟨i, l, h⟩; exact ⟨i, σ.symm l, by simpa using h⟩
  · rintro ⟨i, a, b, h⟩; exact ⟨i, σ a, σ b, h⟩
  · rintro ⟨i, a, b, h⟩; exact ⟨i, σ.symm a, σ.symm b, by simpa using h⟩

/-- **C194.** Training a Gaussian mixture on data with the features in another order and measured from another origin (and with the initial parameters expressed accordingly) gives the same mixture,
expressed accordingly, and the same clusters; it fails in the same cases. -/
theorem C194_origin_and_order (fl : ℝ → ℝ) (σ : Equiv.Perm (Fin d)) (t : Fin d → ℝ) (x : Fin n → Fin d → ℝ) (tol : ℝ) (epochs : Nat) (P : Params ℝ k d) :
    fit (normalDensity fl) (fun j l => x j (σ l) + t l) tol epochs (P.relabel σ t) = (fit (normalDensity fl) x tol epochs P).map fun r => (r.1.relabel σ t, r.2) := by
  have h := fit_move (scales_unimodular (A := permM σ) (t := t) fl (det_permM σ)) x tol (fun P Q => by
    rw [Params.move_perm, Params.move_perm]; exact differs_perm σ tol P Q) epochs P
  simpa only [Params.move_perm, move_perm] using h

/-- **C194.** Expectation maximisation does not depend on the coordinates at all: after any invertible affine change of the features every step (in exact arithmetic) gives the same mixture in the
new coordinates, and a mixture in the new coordinates puts every sample into the cluster it had. -/
theorem C194_affine (A : Matrix (Fin d) (Fin d) ℝ) (hA : A.det ≠ 0) (t : Fin d → ℝ) (x : Fin n → Fin d → ℝ) (e : Nat) (P : Params ℝ k d) :
    steps (normalDensity id) (fun j => move A t (x j)) e (P.move A t) = (steps (normalDensity id) x e P).map (Params.move A t) ∧
    predict (normalDensity id) (P.move A t) (fun j => move A t (x j)) = predict (normalDensity id) P x := by
  have hs := scales_affine (t := t) hA
  refine ⟨?_, predict_move hs x P⟩
  induction e generalizing P with
  | zero => rfl
  | succ e ih =>
    simp only [steps, emStep_move hs]
    cases emStep (normalDensity id) x P with
    | none => rfl
    | some Q => exact ih Q

/-- **C194.** With an unreachable tolerance `fit` is `epochs` steps, so the invariance is that of the whole training. -/
theorem C194_all_epochs (dens : Density K d) (hk : 0 < k) (x : Fin n → Fin d → K) (tol : K) (ht : tol < 0) (e : Nat) (P : Params K k d) :
    fitLoop dens x tol e P = steps dens x e P := by
  induction e generalizing P with
  | zero => rfl
  | succ e ih =>
    simp only [fitLoop, steps]
    cases emStep dens x P with
    | none => rfl
    | some Q =>
      dsimp only [Option.bind]
      rw [if_pos (.inr (.inr ⟨⟨0, hk⟩, lt_of_lt_of_le ht (abs_nonneg _)⟩))]
      exact ih Q

/-! ## C195: the order of the samples, the numbering of the components -/

theorem posterior_samples (π : Equiv.Perm (Fin n)) (x : Fin n → Fin d → K) (P : Params K k d) : posterior dens (x ∘ π) P = (posterior dens x P).map (· ∘ π) := by
  unfold posterior
  have e1 : (∃ j i, dens ((x ∘ π) j) (P.mu i) (P.sigma i) = none) ↔ ∃ j i, dens (x j) (P.mu i) (P.sigma i) = none :=
    ⟨fun ⟨j, h⟩ => ⟨π j, h⟩, fun ⟨j, h⟩ => ⟨π.symm j, by simpa using h⟩⟩
  by_cases h1 : ∃ j i, dens (x j) (P.mu i) (P.sigma i) = none
  · rw [if_pos h1, if_pos (e1.2 h1)]; rfl
  · rw [if_neg h1, if_neg (fun h => h1 (e1.1 h))]
    dsimp only
    have e2 : (∃ j, mixtureDensity P.alpha (fun i => (dens ((x ∘ π) j) (P.mu i) (P.sigma i)).getD 0) = 0) ↔
        ∃ j, mixtureDensity P.alpha (fun i => (dens (x j) (P.mu i) (P.sigma i)).getD 0) = 0 :=
      ⟨fun ⟨j, h⟩ => ⟨π j, h⟩, fun ⟨j, h⟩ => ⟨π.symm j, by simpa using h⟩⟩
    by_cases h2 : ∃ j, mixtureDensity P.alpha (fun i => (dens (x j) (P.mu i) (P.sigma i)).getD 0) = 0
    · rw [if_pos h2, if_pos (e2.2 h2)]; rfl
    · rw [if_neg h2, if_neg (fun h => h2 (e2.1 h))]; rfl

theorem emStep_samples (π : Equiv.Perm (Fin n)) (x : Fin n → Fin d → K) (P : Params K k d) : emStep dens (x ∘ π) P = emStep dens x P := by
  unfold emStep
  rw [posterior_samples]
  cases posterior dens x P with
  | none => rfl
  | some g =>
    dsimp only [Option.map_some]
    have hs : ∀ i, ∑ j, (g ∘ π) j i = ∑ j, g j i := fun i => Equiv.sum_comp π fun j => g j i
    simp only [hs]
    have hmu : calculateMeans (x ∘ π) (g ∘ π) = calculateMeans x g := by
      funext i l
      simp only [calculateMeans, hs]
      congr 1
      exact Equiv.sum_comp π fun j => g j i * x j l
    have hco : ∀ mu, calculateCovariances (x ∘ π) mu (g ∘ π) = calculateCovariances x mu g := by
      intro mu; funext i a b
      simp only [calculateCovariances, hs]
      congr 1
      exact Equiv.sum_comp π fun j => g j i * ((x j a - mu i a) * (x j b - mu i b))
    have hal : calculateMixtureCoefficient (g ∘ π) = calculateMixtureCoefficient g := by
      funext i; simp only [calculateMixtureCoefficient, hs]
    rw [hmu, hco, hal]

/-- **C195.** The order of the samples does not matter: the same mixture, and every sample is in the cluster it was in. -/
theorem C195_samples (dens : Density K d) (π : Equiv.Perm (Fin n)) (x : Fin n → Fin d → K) (tol : K) (epochs : Nat) (P : Params K k d) :
    fit dens (x ∘ π) tol epochs P = (fit dens x tol epochs P).map fun r => (r.1, r.2 ∘ π) := by
  have hl : ∀ e (P : Params K k d), fitLoop dens (x ∘ π) tol e P = fitLoop dens x tol e P := by
    intro e
    induction e with
    | zero => intro P; rfl
    | succ e ih =>
      intro P
      simp only [fitLoop, emStep_samples]
      cases emStep dens x P with
      | none => rfl
      | some Q => simp only [ih]
  unfold fit
  rw [hl]
  cases fitLoop dens x tol epochs P with
  | none => rfl
  | some Q =>
    dsimp only
    unfold predict
    rw [posterior_samples]
    cases posterior dens x Q <;> rfl

theorem posterior_renumber (τ : Equiv.Perm (Fin k)) (x : Fin n → Fin d → K) (P : Params K k d) :
    posterior dens x (P.renumber τ) = (posterior dens x P).map fun g j i => g j (τ i) := by
  unfold posterior
  have e1 : (∃ j i, dens (x j) ((P.renumber τ).mu i) ((P.renumber τ).sigma i) = none) ↔ ∃ j i, dens (x j) (P.mu i) (P.sigma i) = none :=
    ⟨fun ⟨j, i, h⟩ => ⟨j, τ i, h⟩, fun ⟨j, i, h⟩ => ⟨j, τ.symm i, by simpa [Params.renumber] using h⟩⟩
  have hm : ∀ j, mixtureDensity (P.renumber τ).alpha (fun i => (dens (x j) ((P.renumber τ).mu i) ((P.renumber τ).sigma i)).getD 0) =
      mixtureDensity P.alpha fun i => (dens (x j) (P.mu i) (P.sigma i)).getD 0 := fun j =>
    Equiv.sum_comp τ fun i => P.alpha i * (dens (x j) (P.mu i) (P.sigma i)).getD 0
  by_cases h1 : ∃ j i, dens (x j) (P.mu i) (P.sigma i) = none
  · rw [if_pos h1, if_pos (e1.2 h1)]; rfl
  · rw [if_neg h1, if_neg (fun h => h1 (e1.1 h))]
    simp only [hm]
    by_cases h2 : ∃ j, mixtureDensity P.alpha (fun i => (dens (x j) (P.mu i) (P.sigma i)).getD 0) = 0
    · rw [if_pos h2, if_pos h2]; rfl
    · rw [if_neg h2, if_neg h2]; rfl

theorem emStep_renumber (τ : Equiv.Perm (Fin k)) (x : Fin n → Fin d → K) (P : Params K k d) : emStep dens x (P.renumber τ) = (emStep dens x P).map (Params.renumber τ) := by
  unfold emStep
  rw [posterior_renumber]
  cases posterior dens x P with
  | none => rfl
  | some g =>
    dsimp only [Option.map_some]
    have e : ((∃ i, ∑ j, g j (τ i) = 0) ∨ n = 0) ↔ ((∃ i, ∑ j, g j i = 0) ∨ n = 0) :=
      or_congr ⟨fun ⟨i, h⟩ => ⟨τ i, h⟩, fun ⟨i, h⟩ => ⟨τ.symm i, by simpa using h⟩⟩ Iff.rfl
    by_cases h : (∃ i, ∑ j, g j i = 0) ∨ n = 0
    · rw [if_pos h, if_pos (e.2 h)]; rfl
    · rw [if_neg h, if_neg (fun hc => h (e.1 hc))]; rfl

theorem differs_renumber (τ : Equiv.Perm (Fin k)) (tol : K) (P Q : Params K k d) : differs tol (P.renumber τ) (Q.renumber τ) ↔ differs tol P Q := by
  unfold differs
  refine or_congr ⟨?_, ?_⟩ (or_congr ⟨?_, ?_⟩ ⟨?_, ?_⟩)
  · rintro ⟨i, l, h⟩; exact ⟨τ i, l, h⟩
  · rintro ⟨i, l, h⟩; exact ⟨τ.symm i, l, by simpa [Params.renumber] using h⟩
  · rintro ⟨i, a, b, h⟩; exact ⟨τ i, a, b, h⟩
  · rintro ⟨i, a, b, h⟩; exact ⟨τ.symm i, a, b, by simpa [Params.renumber] using h⟩
  · rintro ⟨i, h⟩; exact ⟨τ i, h⟩
  · rintro ⟨i, h⟩; exact ⟨τ.symm i, by simpa [Params.renumber] using h⟩

/-- **C195.** Renumbering the components of the initial mixture renumbers the components of the trained one, and the posterior probabilities of every sample with them. -/
theorem C195_components (dens : Density K d) (τ : Equiv.Perm (Fin k)) (x : Fin n → Fin d → K) (tol : K) (e : Nat) (P : Params K k d) :
    fitLoop dens x tol e (P.renumber τ) = (fitLoop dens x tol e P).map (Params.renumber τ) ∧
    ∀ Q : Params K k d, posterior dens x (Q.renumber τ) = (posterior dens x Q).map fun g j i => g j (τ i) := by
  refine ⟨?_, fun Q => posterior_renumber τ x Q⟩
  induction e generalizing P with
  | zero => rfl
  | succ e ih =>
    simp only [fitLoop, emStep_renumber]
    cases emStep dens x P with
    | none => rfl
    | some Q =>
      simp only [Option.map_some]
      by_cases hd : differs tol P Q
      · rw [if_pos hd, if_pos ((differs_renumber τ tol P Q).2 hd)]; exact ih Q
      · rw [if_neg hd, if_neg (fun hc => hd ((differs_renumber τ tol P Q).1 hc))]; rfl

/-- **C195.** A sample with a most probable component (no tie) is put into the same component under its new number. -/
theorem C195_labels (dens : Density K d) (τ : Equiv.Perm (Fin k)) (x : Fin n → Fin d → K) (Q : Params K k d) (g : Fin n → Fin k → K) (hg : posterior dens x Q = some g) (j : Fin n) (i : Fin k)
    (hi : ∀ i', i' ≠ i → g j i' < g j i) :
    (∃ c, predict dens Q x = some c ∧ c j = some (i : Nat)) ∧ ∃ c, predict dens (Q.renumber τ) x = some c ∧ c j = some ((τ.symm i : Fin k) : Nat) := by
  have key : ∀ (f : Fin k → K) (i : Fin k), (∀ i', i' ≠ i → f i' < f i) → argmin? (List.ofFn fun i => -f i) = some (i : Nat) := by
    intro f i hf
    have hne : (List.ofFn fun i => -f i) ≠ [] := by
      intro h
      have := congrArg List.length h
      rw [List.length_ofFn, List.length_nil] at this
      exact absurd i.2 (by omega)
    obtain ⟨b, hb⟩ := argmin?_isSome hne
    obtain ⟨v, h1, h2, h3⟩ := argmin?_spec hb
    have hbk : b < k := by
      have := (List.getElem?_eq_some_iff.1 h1).1
      simpa using this
    have hv : v = -f ⟨b, hbk⟩ := by
      rw [List.getElem?_ofFn] at h1
      simpa [hbk] using h1.symm
    have := h2 (-f i) (List.mem_ofFn.2 ⟨i, rfl⟩)
    rw [hv] at this
    by_cases hbi : (⟨b, hbk⟩ : Fin k) = i
    · rw [hb, ← hbi]
    · have := hf _ hbi
      linarith
  constructor
  · exact ⟨_, by rw [predict, hg]; rfl, key (g j) i hi⟩
  · refine ⟨_, by rw [predict, posterior_renumber, hg]; rfl, key (fun i => g j (τ i)) (τ.symm i) fun i' hi' => ?_⟩
    simp only [Equiv.apply_symm_apply]
    exact hi _ fun hc => hi' (by rw [← hc]; simp)

/-- Two samples, two components: renumbering them exchanges the two clusters. -/
example : (posterior exDens exX exP).map (fun g => (g 0 0, g 0 1)) = some (2/3, 1/3) ∧ (fit exDens exX (1/1000) 2 exP).isSome = true ∧
    (predict exDens exP exX).map (fun c => (c 0, c 1)) = some (some 0, some 1) ∧
    (predict exDens (exP.renumber (Equiv.swap 0 1)) exX).map (fun c => (c 0, c 1)) = some (some 1, some 0) := by
  refine ⟨?_, ?_, ?_, ?_⟩ <;> decide +kernel

end CML.GMM
