import Verif.Spec.Descent
import Verif.Props.RBF

set_option linter.unusedSectionVars false

/-! # Property C294: an epoch of the RBF network and the training error -/

namespace CML.RBF
open Finset CML.Net Real

/-- Squared distance of sample `i` to centre `u`. -/
noncomputable def dd (x : Mat) (P : Params) (i u : Nat) : ℝ := ∑ l ∈ range 2, (x.e i l - P.c.e u l) ^ 2

/-- An epoch in closed form. -/
theorem step_eq {h : Nat} {P : Params} (hP : Shaped h P) (x y : Mat) (hx : x.cols = 2) (hyr : y.rows = x.rows) (hyc : y.cols = 1) (lr : ℝ) :
    ∃ P', step lr x (.mat y) P = .ok P' ∧ P'.c = P.c ∧
      (∀ u < h, P'.w.e 0 u = P.w.e 0 u - lr * ((∑ i ∈ range x.rows, (output h 2 (P.w.e 0) (P.beta.e 0) (P.b.e 0 0) P.c.e (x.e i) - y.e i 0) *
          exp (-P.beta.e 0 u * dd x P i u)) / (x.rows : ℝ))) ∧
      P'.b.e 0 0 = P.b.e 0 0 - lr * ((∑ i ∈ range x.rows, (output h 2 (P.w.e 0) (P.beta.e 0) (P.b.e 0 0) P.c.e (x.e i) - y.e i 0)) / (x.rows : ℝ)) ∧
      (∀ u < h, P'.beta.e 0 u = P.beta.e 0 u - lr * ((∑ i ∈ range x.rows, output h 2 (P.w.e 0) (P.beta.e 0) (P.b.e 0 0) P.c.e (x.e i) * P.w.e 0 u *
          exp (-P.beta.e 0 u * dd x P i u) * (-dd x P i u)) / (x.rows : ℝ))) := by
  obtain ⟨yp, cache, g, h1, h2, a1, a2, a3, a4, a5, a6, g1, g2, g3⟩ := backward_eq hP x y hx hyr hyc
  obtain ⟨⟨w1, w2⟩, ⟨b1, b2⟩, ⟨c1, c2⟩, ⟨e1, e2⟩⟩ := hP
  unfold step
  simp only [h1, h2, update]
  rw [subInPlace, if_pos (by rw [a1, a2, w1, w2]; simp)]
  simp only []
  rw [subInPlace, if_pos (by rw [a3, a4, b1, b2]; simp)]
  simp only []
  rw [subInPlace, if_pos (by rw [a5, a6, e1, e2]; simp)]
  refine ⟨_, rfl, rfl, fun u hu => ?_, ?_, fun u hu => ?_⟩
  · dsimp only
    rw [ite_self, if_pos (a2.trans w2.symm), g1 u hu]
    rfl
  · dsimp only
    rw [ite_self, ite_self, g2]
  · dsimp only
    rw [ite_self, if_pos (a6.trans e2.symm), g3 u hu]
    rfl

lemma dd_nonneg (x : Mat) (P : Params) (i u : Nat) : 0 ≤ dd x P i u := Finset.sum_nonneg fun _ _ => sq_nonneg _

lemma output_dd (h : Nat) (x : Mat) (P : Params) (w beta : ℕ → ℝ) (b : ℝ) (i : Nat) :
    output h 2 w beta b P.c.e (x.e i) = (∑ u ∈ range h, w u * exp (-beta u * dd x P i u)) + b := rfl

/-- C294 fails: a network that computes every label is not left alone. If the labels are not negative, an epoch with any positive learning rate raises
the error of a perfect network from 0 to a positive number, as soon as some hidden unit with a non-zero weight is not centred at some sample with a positive label. -/
theorem C294_perfect_fit_lost {h : Nat} {P : Params} (hP : Shaped h P) (x y : Mat) (hx : x.cols = 2) (hyr : y.rows = x.rows) (hyc : y.cols = 1) (lr : ℝ)
    (hlr : 0 < lr) (hfit : FitsExactly h x y P) (hy : ∀ i < x.rows, 0 ≤ y.e i 0) (u j : Nat) (hu : u < h) (hw : P.w.e 0 u ≠ 0) (hj : j < x.rows)
    (hyj : 0 < y.e j 0) (hc : ∃ l < 2, x.e j l ≠ P.c.e u l) :
    errorOf h x y P = 0 ∧ ∃ P', step lr x (.mat y) P = .ok P' ∧ 0 < errorOf h x y P' := by
  have hn : (0 : ℝ) < x.rows := by exact_mod_cast (by omega : 0 < x.rows)
  constructor
  · unfold errorOf halfMSE
    rw [Finset.sum_eq_zero fun i hi => ?_, zero_div]
    rw [hfit i (Finset.mem_range.1 hi)]; ring
  obtain ⟨P', e, c', hw', hb', hbeta'⟩ := step_eq hP x y hx hyr hyc lr
  refine ⟨P', e, ?_⟩
  -- the gradient of weights and bias is zero
  have ew : ∀ v < h, P'.w.e 0 v = P.w.e 0 v := fun v hv => by
    rw [hw' v hv, Finset.sum_eq_zero fun i hi => ?_, zero_div, mul_zero, sub_zero]
    rw [hfit i (Finset.mem_range.1 hi), sub_self, zero_mul]
  have eb : P'.b.e 0 0 = P.b.e 0 0 := by
    rw [hb', Finset.sum_eq_zero fun i hi => ?_, zero_div, mul_zero, sub_zero]
    rw [hfit i (Finset.mem_range.1 hi), sub_self]
  -- the widths move with the sign of the weight
  let S : ℕ → ℝ := fun v => (∑ i ∈ range x.rows, y.e i 0 * (exp (-P.beta.e 0 v * dd x P i v) * dd x P i v)) / (x.rows : ℝ)
  have hS : ∀ v, 0 ≤ S v := fun v => div_nonneg (Finset.sum_nonneg fun i hi =>
    mul_nonneg (hy i (Finset.mem_range.1 hi)) (mul_nonneg (exp_pos _).le (dd_nonneg x P i v))) hn.le
  have ebeta : ∀ v < h, P'.beta.e 0 v = P.beta.e 0 v + lr * (P.w.e 0 v * S v) := fun v hv => by
    rw [hbeta' v hv, sub_eq_add_neg, ← mul_neg]
    congr 2
    show _ = P.w.e 0 v * (_ / _)
    rw [← neg_div, mul_div_assoc', Finset.mul_sum, ← Finset.sum_neg_distrib]
    congr 1
    refine Finset.sum_congr rfl fun i hi => ?_
    rw [hfit i (Finset.mem_range.1 hi)]
    ring
  have hdj : 0 < dd x P j u := by
    obtain ⟨l, hl, hne⟩ := hc
    exact Finset.sum_pos' (fun _ _ => sq_nonneg _) ⟨l, Finset.mem_range.2 hl, by have := sub_ne_zero.2 hne; positivity⟩
  have hSu : 0 < S u := div_pos (Finset.sum_pos' (fun i hi =>
    mul_nonneg (hy i (Finset.mem_range.1 hi)) (mul_nonneg (exp_pos _).le (dd_nonneg x P i u)))
    ⟨j, Finset.mem_range.2 hj, mul_pos hyj (mul_pos (exp_pos _) hdj)⟩) hn
  -- every unit contributes less
  have hle : ∀ v < h, P.w.e 0 v * exp (-P'.beta.e 0 v * dd x P j v) ≤ P.w.e 0 v * exp (-P.beta.e 0 v * dd x P j v) := fun v hv => by
    rw [ebeta v hv]
    have h1 := hS v
    have h2 := dd_nonneg x P j v
    rcases le_total 0 (P.w.e 0 v) with hwv | hwv
    · refine mul_le_mul_of_nonneg_left (exp_le_exp.2 ?_) hwv
      have : 0 ≤ lr * (P.w.e 0 v * S v) * dd x P j v := by positivity
      linarith
    · refine mul_le_mul_of_nonpos_left (exp_le_exp.2 ?_) hwv
      have : 0 ≤ lr * (-P.w.e 0 v * S v) * dd x P j v := mul_nonneg (mul_nonneg hlr.le (mul_nonneg (by linarith) h1)) h2
      linarith
  have hlt : P.w.e 0 u * exp (-P'.beta.e 0 u * dd x P j u) < P.w.e 0 u * exp (-P.beta.e 0 u * dd x P j u) := by
    rw [ebeta u hu]
    rcases lt_or_gt_of_ne hw with hwv | hwv
    · refine mul_lt_mul_of_neg_left (exp_lt_exp.2 ?_) hwv
      have : 0 < lr * (-P.w.e 0 u * S u) * dd x P j u := mul_pos (mul_pos hlr (mul_pos (by linarith) hSu)) hdj
      linarith
    · refine mul_lt_mul_of_pos_left (exp_lt_exp.2 ?_) hwv
      have : 0 < lr * (P.w.e 0 u * S u) * dd x P j u := by positivity
      linarith
  have hout : output h 2 (P'.w.e 0) (P'.beta.e 0) (P'.b.e 0 0) P'.c.e (x.e j) < y.e j 0 := by
    rw [← hfit j hj, c', output_dd, output_dd, eb]
    refine add_lt_add_left ?_ _
    refine Finset.sum_lt_sum (fun v hv => ?_) ⟨u, Finset.mem_range.2 hu, ?_⟩
    · rw [ew v (Finset.mem_range.1 hv)]; exact hle v (Finset.mem_range.1 hv)
    · rw [ew u hu]; exact hlt
  unfold errorOf halfMSE
  refine div_pos (Finset.sum_pos' (fun _ _ => by positivity) ⟨j, Finset.mem_range.2 hj, ?_⟩) hn
  have : output h 2 (P'.w.e 0) (P'.beta.e 0) (P'.b.e 0 0) P'.c.e (x.e j) - y.e j 0 ≠ 0 := by linarith
  positivity

/-- A perfect network with one hidden unit and one sample of class 1. -/
example : ∃ (P : Params) (x y : Mat), Shaped 1 P ∧ FitsExactly 1 x y P ∧ errorOf 1 x y P = 0 ∧
    ∀ lr, 0 < lr → ∃ P', step lr x (.mat y) P = .ok P' ∧ 0 < errorOf 1 x y P' := by
  let P : Params := ⟨⟨1, 1, fun _ _ => 1⟩, ⟨1, 1, fun _ _ => 1 - exp (-2)⟩, ⟨1, 2, fun _ _ => 0⟩, ⟨1, 1, fun _ _ => 1⟩⟩
  have hS : Shaped 1 P := ⟨⟨rfl, rfl⟩, ⟨rfl, rfl⟩, ⟨rfl, rfl⟩, ⟨rfl, rfl⟩⟩
  have hfit : FitsExactly 1 ⟨1, 2, fun _ _ => 1⟩ ⟨1, 1, fun _ _ => 1⟩ P := by
    intro i _
    simp [output, P]
  have hstep := fun lr hlr => C294_perfect_fit_lost hS ⟨1, 2, fun _ _ => 1⟩ ⟨1, 1, fun _ _ => 1⟩ rfl rfl rfl lr hlr hfit (fun _ _ => zero_le_one) 0 0 one_pos
    one_ne_zero one_pos one_pos ⟨0, by norm_num, one_ne_zero⟩
  exact ⟨P, _, _, hS, hfit, (hstep 1 one_pos).1, fun lr hlr => (hstep lr hlr).2⟩

/-- C294 (part): for a network whose output weights are all zero, as those of a fresh one, an epoch with a small enough learning rate lowers the error, unless
the derivatives with respect to the weights and the bias are zero. -/
theorem C294_zero_weights_partial {h : Nat} {P : Params} (hP : Shaped h P) (x y : Mat) (hx : x.cols = 2) (hyr : y.rows = x.rows) (hyc : y.cols = 1)
    (hn : 0 < x.rows) (hw : ∀ u < h, P.w.e 0 u = 0) (hne : ∑ i ∈ range x.rows, (P.b.e 0 0 - y.e i 0) ≠ 0) :
    ∃ bound > 0, ∀ lr, 0 < lr → lr < bound → ∃ P', step lr x (.mat y) P = .ok P' ∧ errorOf h x y P' < errorOf h x y P := by
  have hn' : (0 : ℝ) < x.rows := by exact_mod_cast hn
  have hout : ∀ i, output h 2 (P.w.e 0) (P.beta.e 0) (P.b.e 0 0) P.c.e (x.e i) = P.b.e 0 0 := fun i => by
    rw [output_dd, Finset.sum_eq_zero fun u hu => by rw [hw u (Finset.mem_range.1 hu), zero_mul], zero_add]
  let r : ℕ → ℝ := fun i => P.b.e 0 0 - y.e i 0
  let ρ : ℕ → ℕ → ℝ := fun i u => exp (-P.beta.e 0 u * dd x P i u)
  let gw : ℕ → ℝ := fun u => (∑ i ∈ range x.rows, r i * ρ i u) / (x.rows : ℝ)
  let gb : ℝ := (∑ i ∈ range x.rows, r i) / (x.rows : ℝ)
  let S : ℕ → ℝ := fun i => (∑ u ∈ range h, gw u * ρ i u) + gb
  have hgb : gb ≠ 0 := div_ne_zero hne hn'.ne'
  have hrs : ∑ i ∈ range x.rows, r i * S i = x.rows * ((∑ u ∈ range h, gw u ^ 2) + gb ^ 2) := by
    have e1 : ∑ i ∈ range x.rows, r i * S i = (∑ u ∈ range h, gw u * ∑ i ∈ range x.rows, r i * ρ i u) + gb * ∑ i ∈ range x.rows, r i := by
      simp only [S, mul_add, Finset.sum_add_distrib, Finset.mul_sum]
      congr 1
      · rw [Finset.sum_comm]
        exact Finset.sum_congr rfl fun u _ => Finset.sum_congr rfl fun i _ => by ring
      · exact Finset.sum_congr rfl fun i _ => by ring
    have e2 : ∀ u, ∑ i ∈ range x.rows, r i * ρ i u = x.rows * gw u := fun u => by
      show _ = (x.rows : ℝ) * (_ / (x.rows : ℝ)); field_simp
    have e3 : ∑ i ∈ range x.rows, r i = x.rows * gb := by show _ = (x.rows : ℝ) * (_ / (x.rows : ℝ)); field_simp
    rw [e1, e3]
    simp only [e2]
    rw [mul_add, Finset.mul_sum]
    congr 1
    · exact Finset.sum_congr rfl fun u _ => by ring
    · ring
  have hA : 0 < ∑ i ∈ range x.rows, r i * S i := by
    rw [hrs]
    have : 0 ≤ ∑ u ∈ range h, gw u ^ 2 := Finset.sum_nonneg fun _ _ => sq_nonneg _
    have : 0 < gb ^ 2 := by positivity
    positivity
  have hB : 0 ≤ ∑ i ∈ range x.rows, S i ^ 2 := Finset.sum_nonneg fun _ _ => sq_nonneg _
  refine ⟨2 * (∑ i ∈ range x.rows, r i * S i) / ((∑ i ∈ range x.rows, S i ^ 2) + 1), by positivity, fun lr l0 l1 => ?_⟩
  obtain ⟨P', e, c', hw', hb', hbeta'⟩ := step_eq hP x y hx hyr hyc lr
  refine ⟨P', e, ?_⟩
  have ew : ∀ u < h, P'.w.e 0 u = -(lr * gw u) := fun u hu => by
    rw [hw' u hu, hw u hu, zero_sub]
    simp only [hout]
    rfl
  have eb : P'.b.e 0 0 = P.b.e 0 0 - lr * gb := by
    rw [hb']
    simp only [hout]
    rfl
  have ebeta : ∀ u < h, P'.beta.e 0 u = P.beta.e 0 u := fun u hu => by
    rw [hbeta' u hu, Finset.sum_eq_zero fun i _ => by rw [hw u hu]; ring, zero_div, mul_zero, sub_zero]
  have hnew : ∀ i, output h 2 (P'.w.e 0) (P'.beta.e 0) (P'.b.e 0 0) P'.c.e (x.e i) - y.e i 0 = r i - lr * S i := fun i => by
    rw [c', output_dd, eb]
    have : ∑ u ∈ range h, P'.w.e 0 u * exp (-P'.beta.e 0 u * dd x P i u) = -(lr * ∑ u ∈ range h, gw u * ρ i u) := by
      rw [Finset.mul_sum, ← Finset.sum_neg_distrib]
      refine Finset.sum_congr rfl fun u hu => ?_
      rw [ew u (Finset.mem_range.1 hu), ebeta u (Finset.mem_range.1 hu)]
      show _ = -(lr * (gw u * exp _))
      ring
    rw [this]
    show _ = P.b.e 0 0 - y.e i 0 - lr * ((∑ u ∈ range h, gw u * ρ i u) + gb)
    ring
  unfold errorOf halfMSE
  rw [div_lt_div_iff_of_pos_right hn']
  simp only [hnew, hout]
  have hexp : ∑ i ∈ range x.rows, (r i - lr * S i) ^ 2 / 2 =
      (∑ i ∈ range x.rows, (P.b.e 0 0 - y.e i 0) ^ 2 / 2) - lr * (∑ i ∈ range x.rows, r i * S i) + lr ^ 2 / 2 * ∑ i ∈ range x.rows, S i ^ 2 := by
    rw [Finset.mul_sum, Finset.mul_sum, ← Finset.sum_sub_distrib, ← Finset.sum_add_distrib]
    refine Finset.sum_congr rfl fun i _ => ?_
    show _ = r i ^ 2 / 2 - _ + _
    ring
  rw [hexp]
  rw [lt_div_iff₀ (by positivity)] at l1
  nlinarith

/-- The hypotheses are met by every fresh network if not all labels are zero (labels 0 and 1). -/
example (h : Nat) (cRnd bRnd : ℕ → ℕ → ℝ) : ∃ bound > 0, ∀ lr, 0 < lr → lr < bound →
    ∃ P', step lr ⟨2, 2, fun i j => i + j⟩ (.mat ⟨2, 1, fun i _ => i⟩) (init h cRnd bRnd) = .ok P' ∧
      errorOf h ⟨2, 2, fun i j => i + j⟩ ⟨2, 1, fun i _ => i⟩ P' < errorOf h ⟨2, 2, fun i j => i + j⟩ ⟨2, 1, fun i _ => i⟩ (init h cRnd bRnd) :=
  C294_zero_weights_partial (init_shaped h cRnd bRnd) _ _ rfl rfl rfl two_pos (fun _ _ => rfl) (by simp [init, Finset.sum_range_succ])

end CML.RBF
