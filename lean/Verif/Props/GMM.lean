import Verif.Lemmas.GMM
import Mathlib.Algebra.Order.Ring.Rat
import Mathlib.Algebra.Field.Rat
import Mathlib.Tactic.NormNum
import Mathlib.Tactic.FinCases
import Mathlib.Data.Fin.VecNotation
import Mathlib.Algebra.BigOperators.Fin

set_option linter.unusedSectionVars false

/-! # Properties C17 - C20, C71, C72 (Gaussian mixture) -/

namespace CML.GMM
open Finset Matrix

variable {K : Type*} [Field K] [LinearOrder K] [IsStrictOrderedRing K] {n k d : Nat}

/-- C17: the density of the code is the normal density: for the covariance matrix `A Aᵀ` of `mu + A z`, with `z` standard
normal, it is the density of that vector (before conversion to the working precision). Every positive definite matrix has this form. -/
theorem C17_density_normal (mu u : Fin d → ℝ) (A : Matrix (Fin d) (Fin d) ℝ) (hA : A.det ≠ 0) :
    ∃ p, normalDensity id u mu (A * Aᵀ) = some p ∧ IsAffineNormalDensity mu A u p := by
  have hu : IsUnit A.det := isUnit_iff_ne_zero.2 hA
  have hdet : (Matrix.of (A * Aᵀ)).det = A.det ^ 2 := by
    change (A * Aᵀ).det = _
    rw [Matrix.det_mul, Matrix.det_transpose, sq]
  have hpos : 0 < A.det ^ 2 := by positivity
  set z : Fin d → ℝ := A⁻¹ *ᵥ (fun i => u i - mu i) with hz
  have hAz : A *ᵥ z = fun i => u i - mu i := by
    rw [hz, Matrix.mulVec_mulVec, Matrix.mul_nonsing_inv _ hu, Matrix.one_mulVec]
  have hq : (∑ a, ∑ b, (u a - mu a) * (Matrix.of (A * Aᵀ))⁻¹ a b * (u b - mu b)) = ∑ i, z i ^ 2 := by
    have e1 : (∑ a, ∑ b, (u a - mu a) * (Matrix.of (A * Aᵀ))⁻¹ a b * (u b - mu b)) =
        (fun i => u i - mu i) ⬝ᵥ ((A * Aᵀ)⁻¹ *ᵥ (fun i => u i - mu i)) := by
      simp only [dotProduct, Matrix.mulVec, Finset.mul_sum]
      exact Finset.sum_congr rfl fun a _ => Finset.sum_congr rfl fun b _ => by
        change _ * (A * Aᵀ)⁻¹ a b * _ = _; ring
    rw [e1, Matrix.mul_inv_rev, ← Matrix.mulVec_mulVec, ← hz, ← Matrix.transpose_nonsing_inv, Matrix.dotProduct_mulVec,
      Matrix.vecMul_transpose, ← hz]
    simp [dotProduct, sq]
  have hval : 1 / (Real.sqrt (A.det ^ 2) * (2 * Real.pi) ^ ((d : ℝ) / 2)) * Real.exp (-1 / 2 * ∑ i, z i ^ 2) =
      (∏ i, stdNormal (z i)) / |A.det| := by
    have h2 : (2 * Real.pi) ^ ((d : ℝ) / 2) = √(2 * Real.pi) ^ d := by
      rw [Real.sqrt_eq_rpow, ← Real.rpow_natCast, ← Real.rpow_mul (by positivity)]
      congr 1; ring
    have h3 : ∏ i, stdNormal (z i) = Real.exp (-1 / 2 * ∑ i, z i ^ 2) / √(2 * Real.pi) ^ d := by
      simp only [stdNormal, Finset.prod_div_distrib, Finset.prod_const, Finset.card_univ, Fintype.card_fin, ← Real.exp_sum]
      congr 2
      rw [Finset.mul_sum]
      exact Finset.sum_congr rfl fun i _ => by ring
    rw [Real.sqrt_sq_eq_abs, h2, h3]
    have : |A.det| ≠ 0 := abs_ne_zero.2 hA
    field_simp
  have hne : (∏ i, stdNormal (z i)) / |A.det| ≠ 0 := by
    refine div_ne_zero (Finset.prod_ne_zero_iff.2 fun i _ => ?_) (abs_ne_zero.2 hA)
    unfold stdNormal
    positivity
  refine ⟨(∏ i, stdNormal (z i)) / |A.det|, ?_, z, fun i => ?_, rfl⟩
  · simp only [normalDensity, hdet, if_neg (not_le.2 hpos), hq, id]
    rw [hval, if_neg hne]
  · have := congrFun hAz i
    simp only [Matrix.mulVec, dotProduct] at this
    rw [this]; ring

/-- C17: a covariance matrix with determinant 0 or below has no density (the code raises or yields NaN), and an underflow to 0
is replaced by 1e-36. -/
theorem C17_density_edges (fl : ℝ → ℝ) (mu u : Fin d → ℝ) (S : Fin d → Fin d → ℝ) :
    (Matrix.det (Matrix.of S) ≤ 0 ↔ normalDensity fl u mu S = none) ∧
    (0 < Matrix.det (Matrix.of S) → (∀ r, fl r = 0) → normalDensity fl u mu S = some (1 / 10 ^ 36)) := by
  unfold normalDensity
  constructor
  · constructor
    · intro h; rw [if_pos h]
    · intro h; by_contra hc; rw [if_neg hc] at h; simp at h
  · intro h hfl
    rw [if_neg (not_le.2 h)]
    simp only [hfl, if_true]
    norm_num

/-- Non-vacuity: an invertible, non-diagonal `A`. -/
example : (!![(2 : ℝ), 1; 0, 1]).det ≠ 0 := by simp [Matrix.det_fin_two]

/-- The density of the code is positive whenever it is defined, whatever non-negative number the conversion to the working
precision gives: this is what the replacement of 0 by 1e-36 is for. -/
theorem C17_density_positive (fl : ℝ → ℝ) (hfl : ∀ r, 0 ≤ r → 0 ≤ fl r) : DensOK (normalDensity (d := d) fl) := by
  intro u m s p h
  unfold normalDensity at h
  split at h
  · simp at h
  · injection h with h
    subst h
    split
    · norm_num
    · rename_i hne
      exact lt_of_le_of_ne (hfl _ (by positivity)) (Ne.symm hne)

/-- The density used in the examples: 1 / (1 + squared distance). -/
def exDens : Density ℚ d := fun u m _ => some (1 / (1 + ∑ a, (u a - m a) ^ 2))

theorem exDens_ok : DensOK (exDens (d := d)) := by
  intro u m s p h
  simp only [exDens, Option.some.injEq] at h
  subst h
  positivity

/-- Two samples, two components. -/
def exX : Fin 2 → Fin 1 → ℚ := ![![0], ![1]]
def exP : Params ℚ 2 1 := { mu := ![![0], ![1]], sigma := fun _ _ _ => 1, alpha := ![1/2, 1/2] }

/-! ## C17 -/

/-- C17: with non-negative weights every row of the posterior matrix is a probability vector. -/
theorem C17_posterior_prob (dens : Density K d) (hd : DensOK dens) (x : Fin n → Fin d → K) (P : Params K k d)
    (ha : ∀ i, 0 ≤ P.alpha i) (g : Fin n → Fin k → K) (h : posterior dens x P = some g) (j : Fin n) :
    (∀ i, 0 ≤ g j i) ∧ ∑ i, g j i = 1 :=
  posterior_rows hd ha h j

/-- C17, it is Bayes' rule: the entry for component `i` times the total density is the weighted density of `i`. -/
theorem C17_posterior_bayes (dens : Density K d) (x : Fin n → Fin d → K) (P : Params K k d)
    (g : Fin n → Fin k → K) (h : posterior dens x P = some g) (j : Fin n) :
    ∃ p : Fin k → K, (∀ i, dens (x j) (P.mu i) (P.sigma i) = some (p i)) ∧
      ∀ i, g j i * ∑ l, P.alpha l * p l = P.alpha i * p i := by
  obtain ⟨p, hp, hne, rfl⟩ := posterior_inv h
  exact ⟨p j, hp j, fun i => div_mul_cancel₀ _ (hne j)⟩

/-- C17: for weights that form a probability vector and invertible covariances no division by zero can occur. -/
theorem C17_posterior_defined (dens : Density K d) (hd : DensOK dens) (x : Fin n → Fin d → K) (P : Params K k d)
    (ha : IsProb P.alpha) (hdef : ∀ j i, dens (x j) (P.mu i) (P.sigma i) ≠ none) :
    ∃ g, posterior dens x P = some g := by
  unfold posterior
  rw [if_neg (by push Not; exact hdef)]
  simp only
  rw [if_neg]
  · exact ⟨_, rfl⟩
  · rintro ⟨j, hj⟩
    have hp : ∀ i, 0 < (dens (x j) (P.mu i) (P.sigma i)).getD 0 := by
      intro i
      cases h : dens (x j) (P.mu i) (P.sigma i) with
      | none => exact absurd h (hdef j i)
      | some v => exact hd _ _ _ _ h
    have h0 : ∀ i ∈ univ, P.alpha i * (dens (x j) (P.mu i) (P.sigma i)).getD 0 = 0 :=
      (sum_eq_zero_iff_of_nonneg fun i _ => mul_nonneg (ha.1 i) (hp i).le).1 hj
    have : ∑ i, P.alpha i = 0 := sum_eq_zero fun i hi =>
      (mul_eq_zero.1 (h0 i hi)).resolve_right (hp i).ne'
    rw [ha.2] at this
    exact one_ne_zero this

/-- Non-vacuity: the posterior of the example. -/
example : (posterior exDens exX exP).map (fun g => (g 0 0, g 0 1, g 1 0, g 1 1)) = some (2/3, 1/3, 1/3, 2/3) := by
  decide +kernel

/-! ## C18 -/

/-- C18: after any number of EM steps from a probability vector the weights are a probability vector. -/
theorem C18_weights_prob (dens : Density K d) (hd : DensOK dens) (x : Fin n → Fin d → K) (P0 P : Params K k d)
    (t : Nat) (h0 : IsProb P0.alpha) (h : Steps dens x P0 t P) : (∀ i, 0 ≤ P.alpha i) ∧ ∑ i, P.alpha i = 1 :=
  steps_prob hd h0 h

/-- C18 for `fit`: its result is reached by at most `epochs` EM steps, so its weights are a probability vector. -/
theorem C18_fit_weights_prob (dens : Density K d) (hd : DensOK dens) (x : Fin n → Fin d → K) (tol : K) (epochs : Nat)
    (P0 P : Params K k d) (c : Fin n → Option Nat) (h0 : IsProb P0.alpha)
    (h : fit dens x tol epochs P0 = some (P, c)) :
    (∃ t ≤ epochs, Steps dens x P0 t P) ∧ (∀ i, 0 ≤ P.alpha i) ∧ ∑ i, P.alpha i = 1 := by
  unfold fit at h
  split at h
  · simp at h
  · rename_i Q hQ
    obtain ⟨c', _, h'⟩ := Option.map_eq_some_iff.1 h
    obtain ⟨rfl, rfl⟩ := Prod.mk.inj h'
    obtain ⟨t, ht, hs⟩ := steps_of_fitLoop dens x tol epochs P0 Q hQ
    exact ⟨⟨t, ht, hs⟩, steps_prob hd h0 hs⟩

/-- C18: positive weights stay positive, so no later step divides by zero: with invertible covariances every step is
defined. -/
theorem C18_steps_defined (dens : Density K d) (hd : DensOK dens) (x : Fin n → Fin d → K) (hn : n ≠ 0) (hk : k ≠ 0)
    (P0 P : Params K k d) (t : Nat) (h0 : ∀ i, 0 < P0.alpha i) (h : Steps dens x P0 t P)
    (hdef : ∀ j i, dens (x j) (P.mu i) (P.sigma i) ≠ none) :
    (∀ i, 0 < P.alpha i) ∧ ∃ Q, emStep dens x P = some Q := by
  have hn' : (0 : K) < n := Nat.cast_pos.2 (Nat.pos_of_ne_zero hn)
  have : NeZero n := ⟨hn⟩
  have : NeZero k := ⟨hk⟩
  have gpos : ∀ (P : Params K k d) g, (∀ i, 0 < P.alpha i) → posterior dens x P = some g → ∀ j i, 0 < g j i := by
    intro P g ha hg j i
    obtain ⟨p, hp, _, rfl⟩ := posterior_inv hg
    have hpp : ∀ i, 0 < P.alpha i * p j i := fun i => mul_pos (ha i) (hd _ _ _ _ (hp j i))
    exact div_pos (hpp i) (sum_pos (fun i _ => hpp i) ⟨i, mem_univ i⟩)
  have hpos : ∀ i, 0 < P.alpha i := by
    clear hdef
    induction h with
    | zero => exact h0
    | succ t P Q _ hs ih =>
      obtain ⟨g, hg, _, _, _, _, ha⟩ := emStep_inv hs
      intro i
      rw [ha]
      have : 0 < ∑ j, g j i := sum_pos (fun j _ => gpos P g ih hg j i) ⟨0, mem_univ _⟩
      unfold calculateMixtureCoefficient
      positivity
  refine ⟨hpos, ?_⟩
  have hdp : ∃ g, posterior dens x P = some g := by
    unfold posterior
    rw [if_neg (by push Not; exact hdef)]
    simp only
    rw [if_neg]
    · exact ⟨_, rfl⟩
    · rintro ⟨j, hj⟩
      have hp : ∀ i, 0 < P.alpha i * (dens (x j) (P.mu i) (P.sigma i)).getD 0 := by
        intro i
        cases h : dens (x j) (P.mu i) (P.sigma i) with
        | none => exact absurd h (hdef j i)
        | some v => exact mul_pos (hpos i) (hd _ _ _ _ h)
      exact absurd hj (sum_pos (fun i _ => hp i) ⟨0, mem_univ _⟩).ne'
  obtain ⟨g, hg⟩ := hdp
  unfold emStep
  rw [hg]
  simp only
  rw [if_neg]
  · exact ⟨_, rfl⟩
  · rintro (⟨i, hi⟩ | h0')
    · exact absurd hi (sum_pos (fun j _ => gpos P g hpos hg j i) ⟨0, mem_univ _⟩).ne'
    · exact hn h0'

/-- Non-vacuity: the example takes an EM step, and its weights are a probability vector. -/
example : IsProb exP.alpha ∧ (emStep exDens exX exP).isSome = true ∧
    (emStep exDens exX exP).map (fun Q => (Q.mu 0 0, Q.mu 1 0, Q.alpha 0)) = some (1/3, 2/3, 1/2) := by
  refine ⟨⟨?_, ?_⟩, by decide +kernel, by decide +kernel⟩
  · intro i; fin_cases i <;> norm_num [exP]
  · norm_num [exP]

/-! ## C19 -/

/-- C19: after an EM step each mean is a convex combination of the samples. -/
theorem C19_means_convex (dens : Density K d) (hd : DensOK dens) (x : Fin n → Fin d → K) (P0 P Q : Params K k d)
    (t : Nat) (h0 : IsProb P0.alpha) (h : Steps dens x P0 t P) (hs : emStep dens x P = some Q) (i : Fin k) :
    IsConvexComb x (Q.mu i) := by
  obtain ⟨g, hg, hne, _, hmu, _, _⟩ := emStep_inv hs
  rw [hmu]
  exact means_convex (fun j i => (posterior_rows hd (steps_prob hd h0 h).1 hg j).1 i) i (hne i)

/-- C19: hence every coordinate of a mean lies between any bounds of that coordinate over the data. -/
theorem C19_means_bounded (dens : Density K d) (hd : DensOK dens) (x : Fin n → Fin d → K) (P0 P Q : Params K k d)
    (t : Nat) (h0 : IsProb P0.alpha) (h : Steps dens x P0 t P) (hs : emStep dens x P = some Q) (i : Fin k)
    (l : Fin d) (lo hi : K) (hlo : ∀ j, lo ≤ x j l) (hhi : ∀ j, x j l ≤ hi) : lo ≤ Q.mu i l ∧ Q.mu i l ≤ hi := by
  obtain ⟨w, ⟨hw, hw1⟩, hv⟩ := C19_means_convex dens hd x P0 P Q t h0 h hs i
  rw [hv l]
  constructor
  · calc lo = ∑ j, w j * lo := by rw [← sum_mul, hw1, one_mul]
      _ ≤ _ := sum_le_sum fun j _ => mul_le_mul_of_nonneg_left (hlo j) (hw j)
  · calc _ ≤ ∑ j, w j * hi := sum_le_sum fun j _ => mul_le_mul_of_nonneg_left (hhi j) (hw j)
      _ = hi := by rw [← sum_mul, hw1, one_mul]

/-- Non-vacuity: the step of the example, from 0 steps. -/
example : Steps exDens exX exP 0 exP ∧ (∀ j, 0 ≤ exX j 0) ∧ (∀ j, exX j 0 ≤ 1) := by
  refine ⟨.zero, ?_, ?_⟩ <;> decide +kernel

/-! ## C20 -/

/-- C20: after an EM step each covariance is symmetric positive semidefinite. -/
theorem C20_covariances_psd (dens : Density K d) (hd : DensOK dens) (x : Fin n → Fin d → K) (P0 P Q : Params K k d)
    (t : Nat) (h0 : IsProb P0.alpha) (h : Steps dens x P0 t P) (hs : emStep dens x P = some Q) (i : Fin k) :
    (∀ a b, Q.sigma i a b = Q.sigma i b a) ∧ ∀ v : Fin d → K, 0 ≤ ∑ a, ∑ b, v a * Q.sigma i a b * v b := by
  obtain ⟨g, hg, _, _, _, hsig, _⟩ := emStep_inv hs
  rw [hsig]
  exact cov_psd (fun j i => (posterior_rows hd (steps_prob hd h0 h).1 hg j).1 i) i

/-- C20: and it is the posterior-weighted covariance of the samples around the new mean. -/
theorem C20_covariances_weighted (dens : Density K d) (x : Fin n → Fin d → K) (P Q : Params K k d)
    (hs : emStep dens x P = some Q) (i : Fin k) :
    ∃ g, posterior dens x P = some g ∧ ∀ a b, Q.sigma i a b * ∑ j, g j i =
      ∑ j, g j i * ((x j a - Q.mu i a) * (x j b - Q.mu i b)) := by
  obtain ⟨g, hg, hne, _, _, hsig, _⟩ := emStep_inv hs
  refine ⟨g, hg, fun a b => ?_⟩
  rw [hsig]
  exact div_mul_cancel₀ _ (hne i)

/-- Non-vacuity: the covariances of the example after one step are not zero. -/
example : (emStep exDens exX exP).map (fun Q => (Q.sigma 0 0 0, Q.sigma 1 0 0)) = some (2/9, 2/9) := by
  decide +kernel

/-! ## C71 -/

/-- C71: without an `init` the coefficients are a probability vector with equal entries. -/
theorem C71_default_coefficients (m : Nat) (hm : m ≠ 0) :
    ∃ l : List K, initMixtureCoefficient m .none = .ok l ∧ l.length = m ∧ (∀ a ∈ l, 0 < a) ∧ l.sum = 1 := by
  have hm' : (m : K) ≠ 0 := Nat.cast_ne_zero.2 hm
  refine ⟨_, rfl, by simp, ?_, ?_⟩
  · intro a ha
    rw [List.eq_of_mem_replicate ha]
    have : (0 : K) < m := Nat.cast_pos.2 (Nat.pos_of_ne_zero hm)
    positivity
  · simp [hm']

/-- C71: an accepted vector has the right length and sums to exactly 1, and is used unchanged. Missing from the full
statement: non-negativity, which is not checked (`C71_negative_accepted`). -/
theorem C71_accepted_partial (m : Nat) (l r : List K) (h : initMixtureCoefficient m (.vec l) = .ok r) :
    r = l ∧ l.length = m ∧ l.sum = 1 := by
  match l with
  | [_] => simp [initMixtureCoefficient] at h
  | [] =>
    simp only [initMixtureCoefficient] at h
    split at h
    · simp at h
    · split at h
      · simp at h
      · simp_all
  | a :: b :: l =>
    simp only [initMixtureCoefficient] at h
    split at h
    · simp at h
    · split at h
      · simp at h
      · rename_i h1 h2
        injection h with h
        exact ⟨h.symm, not_not.1 h1, not_not.1 h2⟩

/-- C71: what is refused, and how.  A vector that is not squeezed to a number is accepted exactly if its length is the number
of components and its sum is 1, otherwise `ValueError`; single numbers and other objects raise `TypeError`, which includes the
vector (1) for one component. -/
theorem C71_refused (m : Nat) (l : List K) (hl : l.length ≠ 1) :
    ((l.length = m ∧ l.sum = 1) → initMixtureCoefficient m (.vec l) = .ok l) ∧
    (¬(l.length = m ∧ l.sum = 1) → initMixtureCoefficient m (.vec l) = .error .valueError) ∧
    (∀ a : K, initMixtureCoefficient m (.vec [a]) = .error .typeError) ∧
    initMixtureCoefficient m (.scalar : CoefInit K) = .error .typeError ∧
    initMixtureCoefficient m (.other : CoefInit K) = .error .typeError := by
  have key : initMixtureCoefficient m (.vec l) =
      if l.length ≠ m then .error .valueError else if l.sum ≠ 1 then .error .valueError else .ok l := by
    match l, hl with
    | [], _ => rfl
    | [_], h => simp at h
    | _ :: _ :: _, _ => rfl
  refine ⟨fun h => ?_, fun h => ?_, fun a => rfl, rfl, rfl⟩
  · rw [key]; simp [h.1, h.2]
  · rw [key]
    by_cases h1 : l.length = m
    · rw [if_neg (by simpa using h1), if_pos (fun h2 => h ⟨h1, h2⟩)]
    · rw [if_pos h1]

/-- Non-vacuity: both kinds of vectors occur. -/
example : ([1/2, 1/2] : List ℚ).length ≠ 1 ∧ ([1/2, 1/2] : List ℚ).sum = 1 ∧ ([1/2, 1] : List ℚ).sum ≠ 1 := by decide +kernel

/-- C71 fails: the vector (3, -2) is accepted ... -/
theorem C71_negative_accepted : initMixtureCoefficient 2 (.vec [3, -2]) = (.ok [3, -2] : Except PyErr (List ℚ)) := by
  decide +kernel

/-- ... and then C17 fails for it: the posterior "probabilities" of the first sample are 3/2 and -1/2. -/
theorem C71_negative_posterior :
    (posterior exDens exX { exP with alpha := ![3, -2] }).map (fun g => (g 0 0, g 0 1)) = some (3/2, -1/2) := by
  decide +kernel

/-! ## C72 -/

/-- C72: `predict` gives each sample the first component of largest posterior probability, and `fit` stores in `clusters` what
`predict` answers for the training data with the final parameters. -/
theorem C72_predict_largest_posterior (dens : Density K d) (P : Params K k d) (x : Fin n → Fin d → K)
    (c : Fin n → Option Nat) (h : predict dens P x = some c) (hk : k ≠ 0) (j : Fin n) :
    ∃ g, posterior dens x P = some g ∧ ∃ i : Fin k, c j = some i ∧ (∀ l, g j l ≤ g j i) ∧ ∀ l < i, g j l < g j i := by
  obtain ⟨g, hg, rfl⟩ := Option.map_eq_some_iff.1 h
  refine ⟨g, hg, ?_⟩
  obtain ⟨i, hi⟩ := argmin?_isSome (l := List.ofFn fun i => -g j i) (by
    intro h0; have := congrArg List.length h0; simp at this; exact hk this)
  obtain ⟨v, h1, h2, h3⟩ := argmin?_spec hi
  have hik : i < k := by simpa using (List.getElem?_eq_some_iff.1 h1).1
  have hv : v = -g j ⟨i, hik⟩ := by
    rw [List.getElem?_ofFn, dif_pos hik] at h1
    exact (Option.some.inj h1).symm
  refine ⟨⟨i, hik⟩, hi, fun l => ?_, fun l hl => ?_⟩
  · have := h2 (-g j l) (List.mem_ofFn.2 ⟨l, rfl⟩)
    rw [hv] at this; linarith
  · have := h3 l hl (-g j l) (by simp)
    rw [hv] at this; linarith

/-- C72, `clusters`. -/
theorem C72_fit_clusters (dens : Density K d) (x : Fin n → Fin d → K) (tol : K) (epochs : Nat)
    (P0 P : Params K k d) (c : Fin n → Option Nat) (h : fit dens x tol epochs P0 = some (P, c)) :
    predict dens P x = some c := by
  unfold fit at h
  split at h
  · simp at h
  · rename_i Q hQ
    obtain ⟨c', hc, h'⟩ := Option.map_eq_some_iff.1 h
    obtain ⟨rfl, rfl⟩ := Prod.mk.inj h'
    exact hc

/-- C72: early stopping means that one more EM step would have moved no parameter by more than `tol`; otherwise exactly
`epochs` steps were made. -/
theorem C72_fit_converged (dens : Density K d) (x : Fin n → Fin d → K) (tol : K) (epochs : Nat) :
    ∀ (P0 P : Params K k d), fitLoop dens x tol epochs P0 = some P →
    Steps dens x P0 epochs P ∨ ∃ Q, emStep dens x P = some Q ∧ (∀ i l, |P.mu i l - Q.mu i l| ≤ tol) ∧
      (∀ i a b, |P.sigma i a b - Q.sigma i a b| ≤ tol) ∧ ∀ i, |P.alpha i - Q.alpha i| ≤ tol := by
  induction epochs with
  | zero => intro P0 P h; simp [fitLoop] at h; subst h; exact Or.inl .zero
  | succ e ih =>
    intro P0 P h
    simp only [fitLoop] at h
    split at h
    · simp at h
    · rename_i Q hQ
      split at h
      · rcases ih Q P h with hs | hs
        · left
          have key : ∀ t P, Steps dens x Q t P → Steps dens x P0 (t + 1) P := by
            intro t P hs
            induction hs with
            | zero => exact .succ 0 P0 Q .zero hQ
            | succ t P R _ hr ih' => exact .succ _ P R ih' hr
          exact key e P hs
        · exact Or.inr hs
      · rename_i hd
        injection h with h
        subst h
        right
        unfold differs at hd
        push Not at hd
        exact ⟨Q, hQ, hd.1, hd.2.1, hd.2.2⟩

/-- Non-vacuity: prediction on the example. -/
example : (predict exDens exP exX).map (fun c => (c 0, c 1)) = some (some 0, some 1) ∧
    (fit exDens exX (1/1000) 2 exP).isSome = true := by
  constructor <;> decide +kernel

end CML.GMM
