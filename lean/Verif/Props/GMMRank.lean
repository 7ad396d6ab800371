import Verif.Spec.GMMRank
import Verif.Props.EM
import Mathlib.Algebra.Order.Chebyshev
import Mathlib.LinearAlgebra.Matrix.ToLinearEquiv
import Mathlib.LinearAlgebra.FiniteDimensional.Lemmas

set_option linter.unusedSectionVars false

/-! # A Gaussian mixture can be trained exactly on the data that span their space (C239) -/

namespace CML.GMM
open Finset Matrix

variable {n k d : Nat}

/-- The quadratic form of a new covariance. -/
theorem cov_form (x : Fin n → Fin d → ℝ) (mu : Fin k → Fin d → ℝ) (g : Fin n → Fin k → ℝ) (i : Fin k) (v : Fin d → ℝ) (a : Fin d) :
    ∑ b, calculateCovariances x mu g i a b * v b = (∑ j, g j i * (x j a - mu i a) * (∑ b, v b * x j b - ∑ b, v b * mu i b)) / ∑ j, g j i := by
  unfold calculateCovariances
  simp only [div_mul_eq_mul_div, ← Finset.sum_div, Finset.sum_mul]
  congr 1
  rw [Finset.sum_comm]
  refine Finset.sum_congr rfl fun j _ => ?_
  rw [← Finset.sum_sub_distrib, Finset.mul_sum]
  exact Finset.sum_congr rfl fun b _ => by ring

theorem cov_quad (x : Fin n → Fin d → ℝ) (mu : Fin k → Fin d → ℝ) (g : Fin n → Fin k → ℝ) (i : Fin k) (v : Fin d → ℝ) :
    ∑ a, v a * ∑ b, calculateCovariances x mu g i a b * v b = (∑ j, g j i * (∑ b, v b * x j b - ∑ b, v b * mu i b) ^ 2) / ∑ j, g j i := by
  simp only [cov_form, mul_div_assoc', ← Finset.sum_div, Finset.mul_sum]
  congr 1
  rw [Finset.sum_comm]
  refine Finset.sum_congr rfl fun j _ => ?_
  calc _ = g j i * (∑ b, v b * x j b - ∑ b, v b * mu i b) * ∑ a, (v a * x j a - v a * mu i a) := by
        rw [Finset.mul_sum]; exact Finset.sum_congr rfl fun a _ => by ring
    _ = _ := by rw [Finset.sum_sub_distrib]; ring

/-- On flat data every EM step ends in singular covariances. -/
theorem flat_singular {dens : Density ℝ d} {x : Fin n → Fin d → ℝ} {P Q : Params ℝ k d} {v : Fin d → ℝ} (hv : v ≠ 0) {c : ℝ}
    (hc : ∀ j, ∑ l, v l * x j l = c) (h : emStep dens x P = some Q) (i : Fin k) :
    (∀ a, ∑ b, Q.sigma i a b * v b = 0) ∧ (Matrix.of (Q.sigma i)).det = 0 := by
  obtain ⟨g, hg, hne, _, hmu, hsig, _⟩ := emStep_inv h
  have hm : ∑ b, v b * calculateMeans x g i b = c := by
    unfold calculateMeans
    simp only [mul_div_assoc', ← Finset.sum_div, Finset.mul_sum]
    rw [div_eq_iff (hne i), Finset.sum_comm, Finset.mul_sum]
    refine Finset.sum_congr rfl fun j _ => ?_
    rw [← hc j, Finset.sum_mul]
    exact Finset.sum_congr rfl fun b _ => by ring
  have hz : ∀ a, ∑ b, Q.sigma i a b * v b = 0 := by
    intro a
    rw [hsig, cov_form, hmu, hm]
    simp [hc]
  refine ⟨hz, ?_⟩
  rw [← Matrix.exists_mulVec_eq_zero_iff]
  exact ⟨v, hv, funext hz⟩

theorem posterior_singular {x : Fin n → Fin d → ℝ} {P : Params ℝ k d} (fl : ℝ → ℝ) (hn : n ≠ 0) (i : Fin k)
    (h : (Matrix.of (P.sigma i)).det = 0) : posterior (normalDensity fl) x P = none := by
  unfold posterior
  rw [if_pos]
  exact ⟨⟨0, Nat.pos_of_ne_zero hn⟩, i, (C17_density_edges fl _ _ _).1.1 h.le⟩

/-- C239 is false: on flat data (a constant or repeated attribute, at most as many samples as attributes) training with the default
initial covariances never succeeds, whatever the initial means and coefficients, for any positive number of epochs and
`tol * number of attributes < 0.1`. -/
theorem C239_violated (fl : ℝ → ℝ) (x : Fin n → Fin d → ℝ) (hn : n ≠ 0) (hk : k ≠ 0) (hx : Flat x) (tol : ℝ) (htol : tol * d < 0.1)
    (epochs : Nat) (he : epochs ≠ 0) (mu : Fin k → Fin d → ℝ) (alpha : Fin k → ℝ) :
    fit (normalDensity fl) x tol epochs ⟨mu, fun _ => defaultCovariance d, alpha⟩ = none := by
  obtain ⟨v, hv, c, hc⟩ := hx
  have i0 : Fin k := ⟨0, Nat.pos_of_ne_zero hk⟩
  obtain ⟨e, rfl⟩ := Nat.exists_eq_succ_of_ne_zero he
  unfold fit
  simp only [Nat.succ_eq_add_one, fitLoop]
  cases hs : emStep (normalDensity fl) x ⟨mu, fun _ => defaultCovariance d, alpha⟩ with
  | none => rfl
  | some Q =>
    obtain ⟨hz, hdet⟩ := flat_singular hv hc hs i0
    have hpost := posterior_singular (x := x) fl hn i0 hdet
    have hdiff : differs tol (⟨mu, fun _ => defaultCovariance d, alpha⟩ : Params ℝ k d) Q := by
      by_contra hcon
      have hle : ∀ a b, |defaultCovariance d a b - Q.sigma i0 a b| ≤ tol := by
        intro a b
        by_contra hab
        push Not at hab
        exact hcon (Or.inr (Or.inl ⟨i0, a, b, hab⟩))
      have hpos : 0 < ∑ a, v a ^ 2 := by
        obtain ⟨a, ha⟩ := Function.ne_iff.1 hv
        exact Finset.sum_pos' (fun a _ => sq_nonneg _) ⟨a, Finset.mem_univ _, by
          have : v a ≠ 0 := ha
          positivity⟩
      have e1 : ∑ a, v a * ∑ b, (defaultCovariance d a b - Q.sigma i0 a b) * v b = 0.1 * ∑ a, v a ^ 2 := by
        rw [Finset.mul_sum]
        refine Finset.sum_congr rfl fun a _ => ?_
        simp only [sub_mul, Finset.sum_sub_distrib, hz a, defaultCovariance, ite_mul, zero_mul, Finset.sum_ite_eq, Finset.mem_univ, if_true]
        ring
      have e2 : ∑ a, v a * ∑ b, (defaultCovariance d a b - Q.sigma i0 a b) * v b ≤ tol * (∑ a, |v a|) ^ 2 := by
        rw [sq, Finset.sum_mul_sum, Finset.mul_sum]
        refine Finset.sum_le_sum fun a _ => ?_
        rw [Finset.mul_sum, Finset.mul_sum]
        refine Finset.sum_le_sum fun b _ => ?_
        refine le_trans (le_abs_self _) ?_
        rw [abs_mul, abs_mul]
        nlinarith [mul_le_mul_of_nonneg_right (hle a b) (mul_nonneg (abs_nonneg (v a)) (abs_nonneg (v b)))]
      have e3 : (∑ a, |v a|) ^ 2 ≤ d * ∑ a, v a ^ 2 := by
        have := sq_sum_le_card_mul_sum_sq (s := (Finset.univ : Finset (Fin d))) (f := fun a => |v a|)
        simpa using this
      have ht : 0 ≤ tol := le_trans (abs_nonneg _) (hle (Function.ne_iff.1 hv).choose (Function.ne_iff.1 hv).choose)
      have e4 : tol * (∑ a, |v a|) ^ 2 ≤ tol * (d * ∑ a, v a ^ 2) := mul_le_mul_of_nonneg_left e3 ht
      have : (0.1 - tol * d) * ∑ a, v a ^ 2 ≤ 0 := by nlinarith
      have h5 : 0 < (0.1 - tol * d) * ∑ a, v a ^ 2 := mul_pos (by linarith) hpos
      linarith
    simp only [if_pos hdiff]
    cases e with
    | zero => simp [fitLoop, predict, hpost]
    | succ e =>
      have : emStep (normalDensity fl) x Q = none := by
        unfold emStep; rw [hpost]
      simp [fitLoop, this]

/-- Which data are flat: a constant attribute, two equal attributes, at most as many samples as attributes. -/
theorem C239_flat (x : Fin n → Fin d → ℝ) :
    ((∃ l c, ∀ j, x j l = c) → Flat x) ∧ ((∃ l l', l ≠ l' ∧ ∀ j, x j l = x j l') → Flat x) ∧ (0 < n → n ≤ d → Flat x) := by
  refine ⟨?_, ?_, ?_⟩
  · rintro ⟨l, c, h⟩
    refine ⟨Pi.single l 1, by simp, c, fun j => ?_⟩
    simp [Pi.single_apply, h]
  · rintro ⟨l, l', hl, h⟩
    refine ⟨Pi.single l 1 - Pi.single l' 1, ?_, 0, fun j => ?_⟩
    · intro h0
      have := congrFun h0 l
      simp [Pi.single_apply, hl] at this
    · simp [Pi.single_apply, sub_mul, Finset.sum_sub_distrib, h]
  · intro h0 hnd
    let j0 : Fin n := ⟨0, h0⟩
    let f : (Fin d → ℝ) →ₗ[ℝ] ({j : Fin n // j ≠ j0} → ℝ) :=
      { toFun := fun v j => ∑ l, v l * (x j l - x j0 l)
        map_add' := fun u v => by funext j; simp [add_mul, Finset.sum_add_distrib]
        map_smul' := fun r v => by funext j; simp [mul_assoc, Finset.mul_sum] }
    have hker : LinearMap.ker f ≠ ⊥ := by
      apply LinearMap.ker_ne_bot_of_finrank_lt
      simp
      omega
    obtain ⟨v, hv, hv0⟩ := Submodule.exists_mem_ne_zero_of_ne_bot hker
    refine ⟨v, hv0, ∑ l, v l * x j0 l, fun j => ?_⟩
    rcases eq_or_ne j j0 with rfl | hj
    · rfl
    · have := congrFun (LinearMap.mem_ker.1 hv) ⟨j, hj⟩
      have h2 : ∑ l, v l * (x j l - x j0 l) = 0 := this
      simp only [mul_sub, Finset.sum_sub_distrib] at h2
      linarith

/-- One EM step on data that are not flat ends in positive definite covariances. -/
theorem step_posDef {dens : Density ℝ d} (hd : DensOK dens) {x : Fin n → Fin d → ℝ} (hx : ¬ Flat x) {P Q : Params ℝ k d}
    (ha : ∀ i, 0 < P.alpha i) (h : emStep dens x P = some Q) (i : Fin k) : (Matrix.of (Q.sigma i)).PosDef := by
  obtain ⟨g, hg, hne, hn, hmu, hsig, _⟩ := emStep_inv h
  have hgpos : ∀ j, 0 < g j i := by
    intro j
    obtain ⟨p, hp, _, rfl⟩ := posterior_inv hg
    have hpp : ∀ i, 0 < P.alpha i * p j i := fun i => mul_pos (ha i) (hd _ _ _ _ (hp j i))
    exact div_pos (hpp i) (sum_pos (fun i _ => hpp i) ⟨i, mem_univ i⟩)
  have hG : 0 < ∑ j, g j i := Finset.sum_pos (fun j _ => hgpos j) ⟨⟨0, Nat.pos_of_ne_zero hn⟩, mem_univ _⟩
  rw [Matrix.posDef_iff_dotProduct_mulVec]
  refine ⟨?_, fun v hv => ?_⟩
  · ext a b
    rw [Matrix.conjTranspose_apply]
    simp only [star_trivial, Matrix.of_apply]
    rw [hsig]
    unfold calculateCovariances
    congr 1
    exact Finset.sum_congr rfl fun j _ => by ring
  · have e : star v ⬝ᵥ (Matrix.of (Q.sigma i)) *ᵥ v = ∑ a, v a * ∑ b, calculateCovariances x (calculateMeans x g) g i a b * v b := by
      rw [hsig, hmu]; simp [dotProduct, mulVec]
    rw [e, cov_quad]
    apply div_pos _ hG
    refine Finset.sum_pos' (fun j _ => mul_nonneg (hgpos j).le (sq_nonneg _)) ?_
    by_contra hcon
    push Not at hcon
    apply hx
    refine ⟨v, hv, ∑ b, v b * calculateMeans x g i b, fun j => ?_⟩
    have h1 := hcon j (Finset.mem_univ j)
    have h2 : (∑ b, v b * x j b - ∑ b, v b * calculateMeans x g i b) ^ 2 ≤ 0 := by
      by_contra h3
      push Not at h3
      exact absurd (mul_pos (hgpos j) h3) (not_lt.2 h1)
    have h3 := pow_eq_zero_iff two_ne_zero |>.1 (le_antisymm h2 (sq_nonneg _))
    linarith

/-- C239, the other data: if the samples are not flat, training succeeds for every tolerance and number of epochs, from all means, all
positive definite covariances (such as the default) and all positive coefficients; every sample is put in a component. -/
theorem C239_trains_partial (fl : ℝ → ℝ) (hfl : ∀ r, 0 ≤ r → 0 ≤ fl r) (x : Fin n → Fin d → ℝ) (hn : n ≠ 0) (hk : k ≠ 0) (hx : ¬ Flat x)
    (tol : ℝ) (epochs : Nat) (P0 : Params ℝ k d) (ha : ∀ i, 0 < P0.alpha i) (hS : ∀ i, (Matrix.of (P0.sigma i)).PosDef) :
    ∃ P c, fit (normalDensity fl) x tol epochs P0 = some (P, c) ∧ (∀ i, 0 < P.alpha i) ∧ (∀ i, (Matrix.of (P.sigma i)).PosDef) ∧
      ∀ j, ∃ i < k, c j = some i := by
  have hd : DensOK (normalDensity (d := d) fl) := C17_density_positive fl hfl
  have hdef : ∀ P : Params ℝ k d, (∀ i, (Matrix.of (P.sigma i)).PosDef) → ∀ j i, normalDensity fl (x j) (P.mu i) (P.sigma i) ≠ none := by
    intro P hP j i hc
    exact absurd ((C17_density_edges fl _ _ _).1.2 hc) (not_le.2 (hP i).det_pos)
  have step : ∀ P : Params ℝ k d, (∀ i, 0 < P.alpha i) → (∀ i, (Matrix.of (P.sigma i)).PosDef) →
      ∃ Q, emStep (normalDensity fl) x P = some Q ∧ (∀ i, 0 < Q.alpha i) ∧ ∀ i, (Matrix.of (Q.sigma i)).PosDef := by
    intro P hPa hPS
    obtain ⟨_, Q, hQ⟩ := C18_steps_defined (normalDensity fl) hd x hn hk P P 0 hPa .zero (hdef P hPS)
    have hQS := step_posDef hd hx hPa hQ
    exact ⟨Q, hQ, (C18_steps_defined (normalDensity fl) hd x hn hk P Q 1 hPa (.succ 0 P Q .zero hQ) (hdef Q hQS)).1, hQS⟩
  have loop : ∀ (e : Nat) (P : Params ℝ k d), (∀ i, 0 < P.alpha i) → (∀ i, (Matrix.of (P.sigma i)).PosDef) →
      ∃ R, fitLoop (normalDensity fl) x tol e P = some R ∧ (∀ i, 0 < R.alpha i) ∧ ∀ i, (Matrix.of (R.sigma i)).PosDef := by
    intro e
    induction e with
    | zero => exact fun P h1 h2 => ⟨P, rfl, h1, h2⟩
    | succ e ih =>
      intro P h1 h2
      obtain ⟨Q, hQ, h3, h4⟩ := step P h1 h2
      simp only [fitLoop, hQ]
      by_cases hdif : differs tol P Q
      · rw [if_pos hdif]; exact ih Q h3 h4
      · rw [if_neg hdif]; exact ⟨P, rfl, h1, h2⟩
  obtain ⟨P, hP, h1, h2⟩ := loop epochs P0 ha hS
  obtain ⟨Q, hQ, _⟩ := step P h1 h2
  obtain ⟨g, hg, _⟩ := emStep_inv hQ
  refine ⟨P, fun j => argmin? (List.ofFn fun i => -g j i), ?_, h1, h2, fun j => ?_⟩
  · unfold fit predict
    rw [hP]
    simp [hg]
  · obtain ⟨i, hi⟩ := argmin?_isSome (l := List.ofFn fun i => -g j i) (by
      intro h0
      have := congrArg List.length h0
      simp at this
      exact hk this)
    refine ⟨i, ?_, hi⟩
    obtain ⟨v, hv, _⟩ := argmin?_spec hi
    have := (List.getElem?_eq_some_iff.1 hv).1
    simpa using this

/-- Non-vacuity: four points of the plane are not flat, three points on a line with a constant attribute are. -/
example : ¬ Flat (![![0, 0], ![1, 0], ![0, 1], ![3, 5]] : Fin 4 → Fin 2 → ℝ) ∧ Flat (![![0, 7], ![1, 7], ![2, 7]] : Fin 3 → Fin 2 → ℝ) := by
  constructor
  · rintro ⟨v, hv, c, h⟩
    have h0 := h 0; have h1 := h 1; have h2 := h 2
    simp [Fin.sum_univ_two] at h0 h1 h2
    apply hv
    funext l
    fin_cases l <;> simp <;> linarith
  · refine (C239_flat _).1 ⟨1, 7, fun j => ?_⟩
    fin_cases j <;> rfl

end CML.GMM
