import Verif.Lemmas.EM
import Verif.Props.GMM
import Mathlib.Tactic.NormNum
import Mathlib.Tactic.FinCases

/-! # The EM algorithm of `GaussianMixture.fit` never decreases the likelihood -/

set_option linter.unusedSectionVars false

namespace CML.GMM
open Finset Matrix

variable {n k d : Nat}

/-- C120: the code's density (exact arithmetic) is the textbook density of the normal distribution. -/
theorem C120_density (u m : Fin d → ℝ) (s : Fin d → Fin d → ℝ) (hs : 0 < (Matrix.of s).det) :
    normalDensity id u m s = some (gaussian m (Matrix.of s) u) := normalDensity_eq u m s hs

theorem id_dens : DensOK (normalDensity (d := d) id) := C17_density_positive id fun _ h => h

/-- One EM step from positive definite covariances: the new covariances, whenever they can be inverted, are positive
definite and the log-likelihood of the training data does not decrease. -/
theorem C120_step (x : Fin n → Fin d → ℝ) (P Q : Params ℝ k d) (hP : IsProb P.alpha)
    (hS : ∀ i, (Matrix.of (P.sigma i)).PosDef) (h : emStep (normalDensity id) x P = some Q)
    (hQ : ∀ i, (Matrix.of (Q.sigma i)).det ≠ 0) :
    (∀ i, (Matrix.of (Q.sigma i)).PosDef) ∧ logLik x P ≤ logLik x Q := by
  obtain ⟨g, hg, hne, hn, hmu, hsig, halpha⟩ := emStep_inv h
  have hgp := posterior_rows id_dens hP.1 hg
  obtain ⟨p, hp, hpne, hgeq⟩ := posterior_inv hg
  have hpd : ∀ j i, p j i = gaussian (P.mu i) (Matrix.of (P.sigma i)) (x j) := fun j i => (normalDensity_some (hp j i)).2
  have hp0 : ∀ j i, 0 < p j i := fun j i => by rw [hpd]; exact gaussian_pos _ _ (hS i).det_pos _
  have hN : ∀ i, 0 < ∑ j, g j i := fun i =>
    lt_of_le_of_ne (sum_nonneg fun j _ => (hgp j).1 i) (hne i).symm
  have ha : ∀ i, 0 < P.alpha i := by
    intro i
    refine lt_of_le_of_ne (hP.1 i) fun h0 => hne i ?_
    rw [hgeq]; simp [← h0]
  have hQP : ∀ i, (Matrix.of (Q.sigma i)).PosDef := by
    intro i
    have hpsd := cov_psd (x := x) (mu := Q.mu) (g := g) (fun j i => (hgp j).1 i) i
    rw [← hsig] at hpsd
    have hps : (Matrix.of (Q.sigma i)).PosSemidef := by
      refine Matrix.PosSemidef.of_dotProduct_mulVec_nonneg ?_ fun v => ?_
      · ext a b; simp only [Matrix.conjTranspose_apply, Matrix.of_apply, star_trivial]; exact hpsd.1 b a
      · have := hpsd.2 v
        rw [star_trivial, ← qf_eq]; exact this
    exact hps.posDef_iff_det_ne_zero.2 (hQ i)
  refine ⟨hQP, ?_⟩
  have hn' : (0 : ℝ) < n := by exact_mod_cast Nat.pos_of_ne_zero hn
  have hb : ∀ i, 0 < Q.alpha i := by
    intro i; rw [halpha]; unfold calculateMixtureCoefficient; have := hN i; positivity
  have hbn : ∀ i, (n : ℝ) * Q.alpha i = ∑ j, g j i := by
    intro i; rw [halpha]; unfold calculateMixtureCoefficient; field_simp
  have hQa : IsProb Q.alpha := by rw [halpha]; exact coef_prob hn hgp
  have hq0 : ∀ j i, 0 < gaussian (Q.mu i) (Matrix.of (Q.sigma i)) (x j) := fun j i => gaussian_pos _ _ (hQP i).det_pos _
  have hk : (univ : Finset (Fin k)).Nonempty := by
    rw [univ_nonempty_iff]
    by_contra hemp
    rw [not_nonempty_iff] at hemp
    have := hP.2
    rw [univ_eq_empty, sum_empty] at this
    exact zero_ne_one this
  -- the three inequalities
  have hrow : ∀ j, ∑ i, g j i * ((Real.log (Q.alpha i) - Real.log (P.alpha i)) +
        (Real.log (gaussian (Q.mu i) (Matrix.of (Q.sigma i)) (x j)) - Real.log (gaussian (P.mu i) (Matrix.of (P.sigma i)) (x j)))) ≤
      Real.log (∑ i, Q.alpha i * gaussian (Q.mu i) (Matrix.of (Q.sigma i)) (x j)) -
      Real.log (∑ i, P.alpha i * gaussian (P.mu i) (Matrix.of (P.sigma i)) (x j)) := by
    intro j
    have hr : ∀ i, 0 < P.alpha i * gaussian (P.mu i) (Matrix.of (P.sigma i)) (x j) := fun i =>
      mul_pos (ha i) (by rw [← hpd]; exact hp0 j i)
    have hs : ∀ i, 0 < Q.alpha i * gaussian (Q.mu i) (Matrix.of (Q.sigma i)) (x j) := fun i => mul_pos (hb i) (hq0 j i)
    have := jensen_row _ _ (g j) hr hs (fun i => by rw [hgeq]; simp only [hpd]) (sum_pos (fun i _ => hr i) hk)
      (sum_pos (fun i _ => hs i) hk)
    refine le_trans (le_of_eq ?_) this
    refine sum_congr rfl fun i _ => ?_
    rw [Real.log_mul (hb i).ne' (hq0 j i).ne', Real.log_mul (ha i).ne' (by rw [← hpd]; exact (hp0 j i).ne')]
    ring
  have hgibbs := gibbs Q.alpha P.alpha hb ha hQa.2 hP.2
  have hmle : ∀ i, 0 ≤ ∑ j, g j i * (Real.log (gaussian (Q.mu i) (Matrix.of (Q.sigma i)) (x j)) -
      Real.log (gaussian (P.mu i) (Matrix.of (P.sigma i)) (x j))) := by
    intro i
    refine gaussian_mle x (fun j => g j i) _ rfl (hN i) (Q.mu i) (fun a => ?_) (Matrix.of (Q.sigma i)) (fun a b => ?_)
      (hQP i) (P.mu i) _ (hS i)
    · rw [hmu]; unfold calculateMeans; have := hne i; field_simp
    · rw [hsig]; simp only [Matrix.of_apply]; unfold calculateCovariances; have := hne i; field_simp
  have htot := sum_le_sum (s := univ) fun j _ => hrow j
  rw [sum_sub_distrib] at htot
  have hl : 0 ≤ ∑ j, ∑ i, g j i * ((Real.log (Q.alpha i) - Real.log (P.alpha i)) +
        (Real.log (gaussian (Q.mu i) (Matrix.of (Q.sigma i)) (x j)) -
          Real.log (gaussian (P.mu i) (Matrix.of (P.sigma i)) (x j)))) := by
    rw [sum_comm]
    simp only [mul_add, sum_add_distrib]
    refine add_nonneg ?_ (sum_nonneg fun i _ => hmle i)
    have e : ∑ i, ∑ j, g j i * (Real.log (Q.alpha i) - Real.log (P.alpha i)) =
        n * ∑ i, Q.alpha i * (Real.log (Q.alpha i) - Real.log (P.alpha i)) := by
      rw [mul_sum]
      refine sum_congr rfl fun i _ => ?_
      rw [← sum_mul, ← mul_assoc, hbn]
    rw [e]; exact mul_nonneg hn'.le hgibbs
  unfold logLik
  linarith

/-- A density that was evaluated had an invertible covariance. -/
theorem posterior_det {x : Fin n → Fin d → ℝ} {P : Params ℝ k d} {g} (hn : n ≠ 0)
    (h : posterior (normalDensity id) x P = some g) : ∀ i, 0 < (Matrix.of (P.sigma i)).det := by
  obtain ⟨p, hp, _⟩ := posterior_inv h
  intro i
  exact (normalDensity_some (hp ⟨0, Nat.pos_of_ne_zero hn⟩ i)).1

/-- C120: along every run of EM steps from positive definite initial covariances, up to parameters whose densities can
still be evaluated, the log-likelihood is monotone. -/
theorem C120_steps (x : Fin n → Fin d → ℝ) (P0 P : Params ℝ k d) (t : Nat) (h0 : IsProb P0.alpha)
    (hS : ∀ i, (Matrix.of (P0.sigma i)).PosDef) (h : Steps (normalDensity id) x P0 t P)
    (hP : ∀ i, (Matrix.of (P.sigma i)).det ≠ 0) :
    (∀ i, (Matrix.of (P.sigma i)).PosDef) ∧ logLik x P0 ≤ logLik x P := by
  induction h with
  | zero => exact ⟨hS, le_refl _⟩
  | succ t P Q hPs hs ih =>
    obtain ⟨g, hg, _, hn, _⟩ := emStep_inv hs
    obtain ⟨h1, h2⟩ := ih fun i => (posterior_det hn hg i).ne'
    obtain ⟨h3, h4⟩ := C120_step x P Q (steps_prob id_dens h0 hPs) h1 hs hP
    exact ⟨h3, h2.trans h4⟩

/-- C120: `fit`, whatever the tolerance and the number of epochs, returns parameters under which the training data are at
least as likely as under the initial ones. -/
theorem C120_fit (x : Fin n → Fin d → ℝ) (tol : ℝ) (epochs : Nat) (P0 P : Params ℝ k d) (c)
    (h0 : IsProb P0.alpha) (hS : ∀ i, (Matrix.of (P0.sigma i)).PosDef)
    (h : fit (normalDensity id) x tol epochs P0 = some (P, c)) : logLik x P0 ≤ logLik x P := by
  unfold fit at h
  split at h
  · simp at h
  · rename_i R hR
    rw [Option.map_eq_some_iff] at h
    obtain ⟨c', hc, he⟩ := h
    injection he with he1 he2
    subst he1
    unfold predict at hc
    rw [Option.map_eq_some_iff] at hc
    obtain ⟨g, hg, _⟩ := hc
    obtain ⟨t, _, hst⟩ := steps_of_fitLoop _ _ _ _ _ _ hR
    rcases Nat.eq_zero_or_pos n with hn | hn
    · subst hn; simp [logLik]
    · exact (C120_steps x P0 R t h0 hS hst fun i => (posterior_det hn.ne' hg i).ne').2

/-- C120: the default initial covariances `0.1 · I` (ops.py:706) meet the hypothesis. -/
theorem C120_default_covariances (d : Nat) :
    (Matrix.of fun a b : Fin d => if a = b then (0.1 : ℝ) else 0).PosDef := by
  have : (Matrix.of fun a b : Fin d => if a = b then (0.1 : ℝ) else 0) = Matrix.diagonal fun _ => (0.1 : ℝ) := by
    ext a b; simp [Matrix.diagonal_apply]
  rw [this, Matrix.posDef_diagonal_iff]
  intro i; norm_num

/-- Non-vacuity: two points, one component, unit covariance; one step is defined and reaches an invertible covariance. -/
example : ∃ (x : Fin 2 → Fin 1 → ℝ) (P Q : Params ℝ 1 1), IsProb P.alpha ∧ (∀ i, (Matrix.of (P.sigma i)).PosDef) ∧
    emStep (normalDensity id) x P = some Q ∧ (∀ i, (Matrix.of (Q.sigma i)).det ≠ 0) := by
  refine ⟨fun j _ => j.val, ⟨fun _ _ => 0, fun _ a b => if a = b then 0.1 else 0, fun _ => 1⟩, ?_⟩
  have hd : ∀ (j : Fin 2), normalDensity id (fun _ : Fin 1 => (j.val : ℝ)) (fun _ => 0) (fun a b => if a = b then 0.1 else 0) =
      some (gaussian (fun _ => 0) (Matrix.of fun a b : Fin 1 => if a = b then (0.1 : ℝ) else 0) fun _ => (j.val : ℝ)) := fun j =>
    normalDensity_eq _ _ _ (C120_default_covariances 1).det_pos
  have hpos : ∀ (j : Fin 2), gaussian (fun _ => 0) (Matrix.of fun a b : Fin 1 => if a = b then (0.1 : ℝ) else 0)
      (fun _ => (j.val : ℝ)) ≠ 0 := fun j => (gaussian_pos _ _ (C120_default_covariances 1).det_pos _).ne'
  have hpost : posterior (normalDensity id) (fun (j : Fin 2) (_ : Fin 1) => (j.val : ℝ))
      (⟨fun _ _ => 0, fun _ a b => if a = b then 0.1 else 0, fun _ => 1⟩ : Params ℝ 1 1) = some fun _ _ => 1 := by
    unfold posterior
    rw [if_neg]
    · simp only [hd]
      rw [if_neg]
      · congr 1; funext j i; simp [mixtureDensity, hpos j]
      · rintro ⟨j, hj⟩; simp [mixtureDensity, hpos j] at hj
    · rintro ⟨j, i, hj⟩
      simp only at hj
      rw [hd j] at hj; simp at hj
  refine ⟨⟨fun _ _ => 1/2, fun _ _ _ => 1/4, fun _ => 1⟩, ⟨fun _ => zero_le_one, by simp⟩,
    fun _ => C120_default_covariances 1, ?_, ?_⟩
  · unfold emStep
    rw [hpost]
    simp only
    rw [if_neg (by simp)]
    congr 2
    · funext i a; simp [calculateMeans]
    · funext i a b; simp [calculateCovariances, calculateMeans]; norm_num
    · funext i; simp [calculateMixtureCoefficient]
  · intro i; simp

end CML.GMM
