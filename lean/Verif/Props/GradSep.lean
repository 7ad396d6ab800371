import Verif.Spec.GradSep
import Verif.Props.Newton

set_option linter.unusedSectionVars false

/-! # Gradient descent: separable data (C237) and too large a learning rate (C238) -/

namespace CML.LogReg
open Finset

variable {n d : Nat}

theorem loss_towards (x : Fin n → Fin d → ℝ) (y : Fin n → ℝ) (hy : Labels y) (beta : Fin (d + 1) → ℝ) :
    loss x y beta = ∑ i, Real.log (1 + Real.exp (-towards (y i) (score (x i) beta))) := by
  unfold loss logLikelihoodOf
  refine Finset.sum_congr rfl fun i _ => ?_
  rw [scores_score]
  generalize score (x i) beta = s
  rcases hy i with h | h
  · simp [h, towards]
  · simp only [h, towards, if_true]
    have : (1 : ℝ) + Real.exp s = Real.exp s * (1 + Real.exp (-s)) := by
      rw [mul_add, ← Real.exp_add]; simp; ring
    rw [this, Real.log_mul (by positivity) (by positivity), Real.log_exp]
    ring

theorem term_le {γ s : ℝ} (h : γ ≤ s) : Real.log (1 + Real.exp (-s)) ≤ Real.exp (-γ) := by
  have h1 := Real.log_le_sub_one_of_pos (x := 1 + Real.exp (-s)) (by positivity)
  have h2 : Real.exp (-s) ≤ Real.exp (-γ) := Real.exp_le_exp.2 (by linarith)
  linarith

theorem term_pos (s : ℝ) : 0 < Real.log (1 + Real.exp (-s)) := Real.log_pos (by have := Real.exp_pos (-s); linarith)

theorem score_smul (c : ℝ) (r : Fin d → ℝ) (u : Fin (d + 1) → ℝ) : score r (c • u) = c * score r u := by
  simp only [score, Pi.smul_apply, smul_eq_mul, mul_add, Finset.mul_sum]
  congr 1
  exact Finset.sum_congr rfl fun j _ => by ring

theorem towards_mul (c y s : ℝ) : towards y (c * s) = c * towards y s := by
  unfold towards; split <;> ring

theorem loss_separated {x : Fin n → Fin d → ℝ} {y : Fin n → ℝ} (hy : Labels y) {u : Fin (d + 1) → ℝ} {γ : ℝ} (hu : Separates x y u γ)
    {c : ℝ} (hc : 0 ≤ c) : loss x y (c • u) ≤ n * Real.exp (-(c * γ)) := by
  rw [loss_towards x y hy]
  calc _ ≤ ∑ _i : Fin n, Real.exp (-(c * γ)) := Finset.sum_le_sum fun i _ => term_le (by
        rw [score_smul, towards_mul]; exact mul_le_mul_of_nonneg_left (hu i) hc)
    _ = _ := by simp

theorem correct_of_loss {x : Fin n → Fin d → ℝ} {y : Fin n → ℝ} (hy : Labels y) {beta : Fin (d + 1) → ℝ} (h : loss x y beta < Real.log 2) :
    AllCorrect x y beta := by
  have key : ∀ i, 0 < towards (y i) (score (x i) beta) := by
    intro i
    rw [loss_towards x y hy] at h
    have h1 : Real.log (1 + Real.exp (-towards (y i) (score (x i) beta))) < Real.log 2 :=
      lt_of_le_of_lt (Finset.single_le_sum (f := fun i => Real.log (1 + Real.exp (-towards (y i) (score (x i) beta))))
        (fun i _ => (term_pos _).le) (Finset.mem_univ i)) h
    have h2 := (Real.log_lt_log_iff (by positivity) (by norm_num)).1 h1
    have h3 : Real.exp (-towards (y i) (score (x i) beta)) < 1 := by linarith
    have := Real.exp_lt_one_iff.1 h3
    linarith
  intro i
  have hp : prob (x i) beta = 1 / (1 + Real.exp (-score (x i) beta)) := rfl
  refine ⟨fun h1 => ?_, fun h0 => ?_⟩
  · have := key i
    rw [h1, towards, if_pos rfl] at this
    have he : Real.exp (-score (x i) beta) < 1 := Real.exp_lt_one_iff.2 (by linarith)
    rw [hp]
    exact one_div_lt_one_div_of_lt (by positivity) (by linarith)
  · have := key i
    rw [h0, towards, if_neg (by norm_num)] at this
    have he : 1 < Real.exp (-score (x i) beta) := Real.one_lt_exp_iff.2 (by linarith)
    rw [hp]
    exact one_div_lt_one_div_of_lt (by norm_num) (by linarith)

/-- C237: an explicit number of epochs suffices.  If `u` separates the classes with margin `γ` and `n * exp(-c γ) ≤ 1/4`, then after
any number `e` of epochs with `5 |beta - c u|² ≤ 4 * learning_rate * e` every training row gets its own class. -/
theorem C237_epochs_suffice (x : Fin n → Fin d → ℝ) (y : Fin n → ℝ) (hy : Labels y) (lr : ℝ) (h0 : 0 < lr)
    (h1 : lr * ∑ i, (sqNorm (x i) + 1) ≤ 4) (u : Fin (d + 1) → ℝ) (γ c : ℝ) (hu : Separates x y u γ) (hc : 0 ≤ c)
    (hcg : n * Real.exp (-(c * γ)) ≤ 1 / 4) (beta : Fin (d + 1) → ℝ) (e : Nat) (he : 0 < e)
    (hE : 5 * sqNorm (beta - c • u) ≤ 4 * lr * e) : AllCorrect x y (gdRun lr x y e beta) := by
  have hconv := C83_convergence x y lr h0 h1 beta (c • u) e he
  have hl := loss_separated hy hu hc
  have hle : (0 : ℝ) < 2 * lr * e := by positivity
  have hq : sqNorm (beta - c • u) / (2 * lr * e) ≤ 2 / 5 := by
    rw [div_le_iff₀ hle]; linarith
  apply correct_of_loss hy
  have := Real.log_two_gt_d9
  linarith

/-- Four rows on a line, separated at 0 with margin 1; 600 epochs from zero parameters with learning rate 1/10 suffice (here `c = 3`). -/
example : Labels (![0, 0, 1, 1] : Fin 4 → ℝ) ∧ (1 / 10 : ℝ) * ∑ i, (sqNorm ((![![-2], ![-1], ![1], ![2]] : Fin 4 → Fin 1 → ℝ) i) + 1) ≤ 4 ∧
    Separates (![![-2], ![-1], ![1], ![2]] : Fin 4 → Fin 1 → ℝ) ![0, 0, 1, 1] ![1, 0] 1 ∧
    (4 : ℕ) * Real.exp (-(3 * 1)) ≤ 1 / 4 ∧ 5 * sqNorm ((0 : Fin 2 → ℝ) - (3 : ℝ) • ![1, 0]) ≤ 4 * (1 / 10) * (600 : ℕ) := by
  refine ⟨fun i => ?_, ?_, fun i => ?_, ?_, ?_⟩
  · fin_cases i <;> simp
  · simp [Fin.sum_univ_four, sqNorm]; norm_num
  · fin_cases i <;> simp [towards, score]
  · have h1 := Real.exp_one_gt_d9
    have h2 : Real.exp 3 = Real.exp 1 ^ 3 := by rw [← Real.exp_nat_mul]; norm_num
    have h3 : (16 : ℝ) ≤ Real.exp 3 := by
      rw [h2]
      have : (2.7 : ℝ) ^ 3 ≤ Real.exp 1 ^ 3 := pow_le_pow_left₀ (by norm_num) (by linarith) 3
      norm_num at this ⊢; linarith
    rw [mul_one, Real.exp_neg]
    have : (Real.exp 3)⁻¹ ≤ (16 : ℝ)⁻¹ := inv_anti₀ (by norm_num) h3
    norm_num at this ⊢; linarith
  · simp [sqNorm, Fin.sum_univ_two]; norm_num

/-- C237: on separable data the loss tends to 0 ... -/
theorem C237_loss_tends_to_zero (x : Fin n → Fin d → ℝ) (y : Fin n → ℝ) (hy : Labels y) (lr : ℝ) (h0 : 0 < lr)
    (h1 : lr * ∑ i, (sqNorm (x i) + 1) ≤ 4) (u : Fin (d + 1) → ℝ) (γ : ℝ) (hγ : 0 < γ) (hu : Separates x y u γ) (beta : Fin (d + 1) → ℝ) :
    Filter.Tendsto (fun e => negLogLikelihood x y (gdRun lr x y e beta)) Filter.atTop (nhds 0) := by
  have hnn : ∀ b, 0 ≤ loss x y b := fun b => by
    rw [loss_towards x y hy]; exact Finset.sum_nonneg fun i _ => (term_pos _).le
  rw [Metric.tendsto_atTop]
  intro ε hε
  have hlim : Filter.Tendsto (fun c : ℝ => (n : ℝ) * Real.exp (-(c * γ))) Filter.atTop (nhds 0) := by
    have h2 : Filter.Tendsto (fun c : ℝ => c * γ) Filter.atTop Filter.atTop := Filter.tendsto_id.atTop_mul_const hγ
    have h3 := (Real.tendsto_exp_neg_atTop_nhds_zero.comp h2).const_mul (n : ℝ)
    simpa using h3
  obtain ⟨c, hc0, hc⟩ := ((Filter.eventually_ge_atTop (0 : ℝ)).and (hlim.eventually (gt_mem_nhds (half_pos hε)))).exists
  obtain ⟨E, hE⟩ := exists_nat_gt (sqNorm (beta - c • u) / (lr * ε))
  refine ⟨E + 1, fun e he => ?_⟩
  have he0 : 0 < e := by omega
  have hconv := C83_convergence x y lr h0 h1 beta (c • u) e he0
  have hl := loss_separated hy hu hc0
  have heE : (E : ℝ) ≤ e := by exact_mod_cast (by omega : E ≤ e)
  have hq : sqNorm (beta - c • u) / (2 * lr * e) ≤ ε / 2 := by
    rw [div_le_iff₀ (by positivity)]
    have := (div_lt_iff₀ (by positivity)).1 (lt_of_lt_of_le hE heE)
    linarith
  have hn := hnn (gdRun lr x y e beta)
  rw [Real.dist_eq, sub_zero, ← C47_loss x y hy, abs_of_nonneg hn]
  linarith

/-- C237: ... from some epoch on every training row gets its own class, ... -/
theorem C237_eventually_correct (x : Fin n → Fin d → ℝ) (y : Fin n → ℝ) (hy : Labels y) (lr : ℝ) (h0 : 0 < lr)
    (h1 : lr * ∑ i, (sqNorm (x i) + 1) ≤ 4) (u : Fin (d + 1) → ℝ) (γ : ℝ) (hγ : 0 < γ) (hu : Separates x y u γ) (beta : Fin (d + 1) → ℝ) :
    ∃ E, ∀ e ≥ E, AllCorrect x y (gdRun lr x y e beta) := by
  have h := C237_loss_tends_to_zero x y hy lr h0 h1 u γ hγ hu beta
  have h2 := h.eventually (gt_mem_nhds (Real.log_pos (by norm_num : (1 : ℝ) < 2)))
  obtain ⟨E, hE⟩ := Filter.eventually_atTop.1 h2
  exact ⟨E, fun e he => correct_of_loss hy (by rw [C47_loss x y hy]; exact hE e he)⟩

/-- C237: ... and the parameters grow beyond every bound (there is no best parameter vector to converge to). -/
theorem C237_parameters_unbounded (x : Fin (n + 1) → Fin d → ℝ) (y : Fin (n + 1) → ℝ) (hy : Labels y) (lr : ℝ) (h0 : 0 < lr)
    (h1 : lr * ∑ i, (sqNorm (x i) + 1) ≤ 4) (u : Fin (d + 1) → ℝ) (γ : ℝ) (hγ : 0 < γ) (hu : Separates x y u γ) (beta : Fin (d + 1) → ℝ) (B : ℝ) :
    ∃ E, ∀ e ≥ E, B < sqNorm (gdRun lr x y e beta) := by
  have h := C237_loss_tends_to_zero x y hy lr h0 h1 u γ hγ hu beta
  have h2 := h.eventually (gt_mem_nhds (term_pos ((sqNorm (x 0) + 1) + B)))
  obtain ⟨E, hE⟩ := Filter.eventually_atTop.1 h2
  refine ⟨E, fun e he => ?_⟩
  have h3 := hE e he
  by_contra hB
  push Not at hB
  generalize gdRun lr x y e beta = b at h3 hB
  rw [← C47_loss x y hy, loss_towards x y hy] at h3
  have h4 : Real.log (1 + Real.exp (-towards (y 0) (score (x 0) b))) < Real.log (1 + Real.exp (-((sqNorm (x 0) + 1) + B))) :=
    lt_of_le_of_lt (Finset.single_le_sum (f := fun i => Real.log (1 + Real.exp (-towards (y i) (score (x i) b))))
        (fun i _ => (term_pos _).le) (Finset.mem_univ 0)) h3
  have h5 := (Real.log_lt_log_iff (by positivity) (by positivity)).1 h4
  have h6 : -towards (y 0) (score (x 0) b) < -((sqNorm (x 0) + 1) + B) := Real.exp_lt_exp.1 (by linarith)
  have h7 : towards (y 0) (score (x 0) b) ≤ |score (x 0) b| := by
    unfold towards; split
    · exact le_abs_self _
    · exact neg_le_abs _
  have h8 : |score (x 0) b| ≤ sqNorm (x 0) + 1 + sqNorm b := by
    rw [← scores_score, ← sqNorm_hat]
    unfold scores sqNorm
    rw [← Finset.sum_add_distrib]
    refine le_trans (Finset.abs_sum_le_sum_abs _ _) (Finset.sum_le_sum fun j _ => ?_)
    rw [abs_mul]
    nlinarith [sq_nonneg (|hat x 0 j| - |b j|), sq_abs (hat x 0 j), sq_abs (b j), abs_nonneg (hat x 0 j), abs_nonneg (b j)]
  linarith

/-- C238, true part: with a small learning rate the loss approaches its infimum. -/
theorem C238_small_rate_partial (x : Fin n → Fin d → ℝ) (y : Fin n → ℝ) (hy : Labels y) (lr : ℝ) (h0 : 0 < lr)
    (h1 : lr * ∑ i, (sqNorm (x i) + 1) ≤ 4) (beta : Fin (d + 1) → ℝ) :
    Filter.Tendsto (fun e => negLogLikelihood x y (gdRun lr x y e beta)) Filter.atTop (nhds (⨅ b, negLogLikelihood x y b)) := by
  have heq : ∀ b, negLogLikelihood x y b = loss x y b := fun b => (C47_loss x y hy b).symm
  simp only [heq]
  have hbdd : BddBelow (Set.range fun b => loss x y b) := ⟨0, by
    rintro _ ⟨b, rfl⟩
    show 0 ≤ loss x y b
    rw [loss_towards x y hy]; exact Finset.sum_nonneg fun i _ => (term_pos _).le⟩
  rw [Metric.tendsto_atTop]
  intro ε hε
  obtain ⟨best, hb⟩ := exists_lt_of_ciInf_lt (show (⨅ b, loss x y b) < (⨅ b, loss x y b) + ε / 2 by linarith)
  obtain ⟨E, hE⟩ := exists_nat_gt (sqNorm (beta - best) / (lr * ε))
  refine ⟨E + 1, fun e he => ?_⟩
  have he0 : 0 < e := by omega
  have hconv := C83_convergence x y lr h0 h1 beta best e he0
  have heE : (E : ℝ) ≤ e := by exact_mod_cast (by omega : E ≤ e)
  have hq : sqNorm (beta - best) / (2 * lr * e) ≤ ε / 2 := by
    rw [div_le_iff₀ (by positivity)]
    have := (div_lt_iff₀ (by positivity)).1 (lt_of_lt_of_le hE heE)
    linarith
  have hn := ciInf_le hbdd (gdRun lr x y e beta)
  rw [Real.dist_eq, abs_of_nonneg (by linarith)]
  linarith

/-- One epoch on the noisy rows without offset. -/
theorem noisy_gd (lr a w : ℝ) : gdRun lr (noisyRows a) noisyLabels 1 ![w, 0] = ![w - 2 * lr * a * (2 * sigmoid (a * w) - 1), 0] := by
  have hs : sigmoid (-(a * w)) = 1 - sigmoid (a * w) := (one_sub_sigmoid _).symm
  funext j
  show ![w, 0] j - lr * backward (forward (noisyRows a) ![w, 0]) noisyLabels (hat (noisyRows a)) j = _
  unfold backward forward
  rw [Fin.sum_univ_four, noisy_scores]
  have hh0 : hat (noisyRows a) 0 = ![a, 1] := by funext j; fin_cases j <;> rfl
  have hh1 : hat (noisyRows a) 1 = ![a, 1] := by funext j; fin_cases j <;> rfl
  have hh2 : hat (noisyRows a) 2 = ![-a, 1] := by funext j; fin_cases j <;> rfl
  have hh3 : hat (noisyRows a) 3 = ![-a, 1] := by funext j; fin_cases j <;> rfl
  rw [hh0, hh1, hh2, hh3]
  fin_cases j
  · simp [noisyLabels, hs]; ring
  · simp [noisyLabels, hs]; right; ring

theorem sigmoid_odd (u : ℝ) : 2 * sigmoid (-u) - 1 = -(2 * sigmoid u - 1) := by
  rw [← one_sub_sigmoid]; ring

/-- C238 is false: for every learning rate there are training sets - here the four noisy rows `a, a, -a, -a` with
`learning_rate * a² > 2`, e.g. `a = 15` for the default rate 0.01 - such that arbitrarily close to the best parameters an epoch
increases the loss, and from some initial parameters training alternates for ever between two parameter vectors of the same loss, above
the minimum. -/
theorem C238_violated (lr a : ℝ) (h : 2 < lr * a ^ 2) :
    (∃ r > 0, ∀ w : ℝ, w ≠ 0 → |a * w| < r →
      negLogLikelihood (noisyRows a) noisyLabels ![w, 0] <
        negLogLikelihood (noisyRows a) noisyLabels (gdRun lr (noisyRows a) noisyLabels 1 ![w, 0])) ∧
    (∃ w : ℝ, (∀ e, gdRun lr (noisyRows a) noisyLabels e ![w, 0] = ![(-1) ^ e * w, 0]) ∧
      ∀ e, negLogLikelihood (noisyRows a) noisyLabels 0 < negLogLikelihood (noisyRows a) noisyLabels (gdRun lr (noisyRows a) noisyLabels e ![w, 0])) ∧
    ∀ b, negLogLikelihood (noisyRows a) noisyLabels 0 ≤ negLogLikelihood (noisyRows a) noisyLabels b := by
  have ha : a ≠ 0 := by rintro rfl; norm_num at h
  set g : ℝ → ℝ := fun u => 2 * sigmoid u - 1 with hg
  have hg0 : g 0 = 0 := by simp [hg, sigmoid]; norm_num
  have hgd : HasDerivAt g (1 / 2) 0 := by
    have h1 := (sigmoid_deriv 0).const_mul 2 |>.sub_const 1
    have h2 : 2 * (sigmoid 0 * (1 - sigmoid 0)) = 1 / 2 := by simp [sigmoid]; norm_num
    rwa [h2] at h1
  set c := lr * a ^ 2 with hcd
  -- near zero the slope exceeds `1 / c`
  have hloc : ∃ r > 0, ∀ u, 0 < u → u < r → u < c * g u := by
    have h1 := hasDerivAt_iff_tendsto_slope.1 hgd
    have h2 := h1.eventually (lt_mem_nhds (show 1 / c < 1 / 2 from one_div_lt_one_div_of_lt (by norm_num) h))
    rw [eventually_nhdsWithin_iff] at h2
    obtain ⟨r, hr, h3⟩ := Metric.eventually_nhds_iff.1 h2
    refine ⟨r, hr, fun u hu hur => ?_⟩
    have h4 := h3 (y := u) (by rw [Real.dist_eq, sub_zero, abs_of_pos hu]; exact hur) (by simp [hu.ne'])
    rw [slope_def_field, hg0, sub_zero, sub_zero, lt_div_iff₀ hu, one_div, inv_mul_lt_iff₀ (by linarith)] at h4
    exact h4
  obtain ⟨r, hr, hloc⟩ := hloc
  have hodd : ∀ u, g (-u) = -g u := sigmoid_odd
  have hnl : ∀ b, negLogLikelihood (noisyRows a) noisyLabels b = loss (noisyRows a) noisyLabels b := fun b => (C47_loss _ _ noisy_labels b).symm
  have hl2 : ∀ w : ℝ, loss (noisyRows a) noisyLabels ![w, 0] = 2 * Real.log (2 + 2 * Real.cosh (a * w)) := by
    intro w
    rw [noisy_loss]
    have : Real.cosh (-a * w) = Real.cosh (a * w) := by rw [neg_mul, Real.cosh_neg]
    simp [this]; ring
  have hmin : ∀ b, loss (noisyRows a) noisyLabels 0 ≤ loss (noisyRows a) noisyLabels b := by
    intro b
    rw [noisy_loss, noisy_loss]
    have key : ∀ z : ℝ, Real.log (2 + 2 * Real.cosh 0) ≤ Real.log (2 + 2 * Real.cosh z) := by
      intro z
      rcases eq_or_ne z 0 with rfl | hz
      · exact le_refl _
      · exact (log_cosh_lt (by simpa using hz)).le
    have h1 := key (a * b 0 + b 1)
    have h2 := key (-a * b 0 + b 1)
    simp only [Pi.zero_apply, mul_zero, add_zero]
    linarith
  have hstep : ∀ w, a * (w - 2 * lr * a * (2 * sigmoid (a * w) - 1)) = a * w - 2 * (c * g (a * w)) := by
    intro w; rw [hcd, hg]; ring
  refine ⟨⟨r, hr, fun w hw hwr => ?_⟩, ?_, fun b => by rw [hnl, hnl]; exact hmin b⟩
  · rw [hnl, hnl, noisy_gd, hl2, hl2, hstep]
    have hlt : |a * w| < |a * w - 2 * (c * g (a * w))| := by
      rcases lt_or_gt_of_ne (mul_ne_zero ha hw) with hn | hp
      · have h1 := hloc (-(a * w)) (by linarith) (by rwa [abs_of_neg hn] at hwr)
        rw [hodd] at h1
        rw [abs_of_neg hn, abs_of_pos (by linarith)]
        linarith
      · have h1 := hloc (a * w) hp (by rwa [abs_of_pos hp] at hwr)
        rw [abs_of_pos hp, abs_of_neg (by linarith)]
        linarith
    have := log_cosh_lt hlt
    linarith
  · have hc0 : 0 < c := by linarith
    have hcont : ContinuousOn (fun u => c * g u - u) (Set.uIcc (r / 2) (c + r)) := by
      apply Continuous.continuousOn
      have : Continuous sigmoid := continuous_iff_continuousAt.2 fun z => (sigmoid_deriv z).continuousAt
      simp only [hg]
      fun_prop
    have h1 : 0 ≤ c * g (r / 2) - r / 2 := by have := hloc (r / 2) (by linarith) (by linarith); linarith
    have h2 : c * g (c + r) - (c + r) ≤ 0 := by
      have : g (c + r) < 1 := by simp only [hg]; linarith [sigmoid_lt_one (c + r)]
      nlinarith
    obtain ⟨u, hu, hu0⟩ := intermediate_value_uIcc hcont (show (0 : ℝ) ∈ Set.uIcc (c * g (r / 2) - r / 2) (c * g (c + r) - (c + r)) from
      Set.mem_uIcc.2 (Or.inr ⟨h2, h1⟩))
    have hupos : 0 < u := by
      rw [Set.uIcc_of_le (by linarith)] at hu
      linarith [hu.1]
    have hu1 : c * g u = u := by simpa [sub_eq_zero] using hu0
    have hcyc : ∀ e, gdRun lr (noisyRows a) noisyLabels e ![u / a, 0] = ![(-1) ^ e * (u / a), 0] := by
      intro e
      induction e with
      | zero => simp [gdRun]
      | succ e ih =>
        rw [gdRun_succ, ih]
        refine Eq.trans (noisy_gd lr a _) ?_
        have hs : (-1 : ℝ) ^ e = 1 ∨ (-1 : ℝ) ^ e = -1 := neg_one_pow_eq_or ℝ e
        have e0 : ∀ w w' : ℝ, a * w = a * w' → (![w, 0] : Fin 2 → ℝ) = ![w', 0] := fun w w' hw => by
          rw [mul_left_cancel₀ ha hw]
        apply e0
        rw [hstep, pow_succ]
        have e1 : a * ((-1) ^ e * (u / a)) = (-1) ^ e * u := by field_simp
        have e2 : a * ((-1) ^ e * -1 * (u / a)) = -((-1) ^ e * u) := by field_simp
        rw [e1, e2]
        rcases hs with hs | hs
        · rw [hs]; simp only [one_mul]; linarith
        · rw [hs, neg_one_mul, hodd]; linarith
    refine ⟨u / a, hcyc, fun e => ?_⟩
    have hz : (0 : Fin 2 → ℝ) = ![0, 0] := by funext j; fin_cases j <;> rfl
    have hz' : loss (noisyRows a) noisyLabels 0 = loss (noisyRows a) noisyLabels ![0, 0] := congrArg _ hz
    rw [hcyc, hnl, hnl, hz', hl2, hl2]
    have e1 : a * ((-1) ^ e * (u / a)) = (-1) ^ e * u := by field_simp
    rw [e1, mul_zero]
    have := log_cosh_lt (u := 0) (v := (-1) ^ e * u) (by rw [abs_zero, abs_mul, abs_pow, abs_neg, abs_one, one_pow, one_mul]; exact abs_pos.2 hupos.ne')
    linarith

/-- The default learning rate and one attribute of size 15. -/
example : (2 : ℝ) < 0.01 * 15 ^ 2 := by norm_num

end CML.LogReg
