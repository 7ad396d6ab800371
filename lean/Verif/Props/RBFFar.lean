import Verif.Props.RBFDescent
import Mathlib.Order.Filter.AtTopBot.Field
import Mathlib.Order.Filter.AtTopBot.Basic
import Mathlib.Topology.Algebra.Order.Field
import Mathlib.Analysis.SpecialFunctions.Exp
import Mathlib.Topology.Algebra.Monoid

set_option linter.unusedSectionVars false

/-!
# Property C311: the RBF network far from its centres

initializers.py:155-170 and optimizers.py:751-866.
-/

namespace CML.RBF
open Finset CML.Net Real Filter Topology

/-- Squared distance of a row to the centre of unit `u`. -/
noncomputable def rowDist (c : ℕ → ℕ → ℝ) (z : ℕ → ℝ) (u : Nat) : ℝ := ∑ l ∈ range 2, (z l - c u l) ^ 2

lemma rowDist_nonneg (c : ℕ → ℕ → ℝ) (z : ℕ → ℝ) (u : Nat) : 0 ≤ rowDist c z u := Finset.sum_nonneg fun _ _ => sq_nonneg _

/-- C311: without negative widths the output differs from the bias by at most the sum of the absolute weights. -/
theorem C311_bounded_partial {h : Nat} {P : Params} (hP : Shaped h P) (hb : ∀ u < h, 0 ≤ P.beta.e 0 u) (x : Mat) (hx : x.cols = 2) :
    ∃ yp cache, forward x P = .ok (yp, cache) ∧ ∀ i, |yp.e i 0 - P.b.e 0 0| ≤ ∑ u ∈ range h, |P.w.e 0 u| := by
  obtain ⟨yp, cache, h1, -, -, h4⟩ := C92_forward_partial hP x hx
  refine ⟨yp, cache, h1, fun i => ?_⟩
  rw [h4 i, output, add_sub_cancel_right]
  refine (Finset.abs_sum_le_sum_abs _ _).trans (Finset.sum_le_sum fun u hu => ?_)
  rw [abs_mul, abs_of_pos (exp_pos _)]
  refine mul_le_of_le_one_right (abs_nonneg _) (exp_le_one_iff.2 ?_)
  have h1 := hb u (Finset.mem_range.1 hu)
  have h2 := rowDist_nonneg P.c.e (x.e i) u
  have : 0 ≤ P.beta.e 0 u * rowDist P.c.e (x.e i) u := mul_nonneg h1 h2
  unfold rowDist at this
  linarith

/-- C311: with positive widths, beyond some distance from all centres the answer is the bias, up to any given deviation. -/
theorem C311_far_partial {h : Nat} {P : Params} (hP : Shaped h P) (hb : ∀ u < h, 0 < P.beta.e 0 u) (eps : ℝ) (heps : 0 < eps) :
    ∃ R : ℝ, ∀ x : Mat, x.cols = 2 → ∃ yp cache, forward x P = .ok (yp, cache) ∧
      ∀ i, (∀ u < h, R ≤ ∑ l ∈ range 2, (x.e i l - P.c.e u l) ^ 2) → |yp.e i 0 - P.b.e 0 0| ≤ eps := by
  have key : ∃ R : ℝ, ∀ d : ℕ → ℝ, (∀ u < h, R ≤ d u) → ∑ u ∈ range h, |P.w.e 0 u| * exp (-P.beta.e 0 u * d u) ≤ eps := by
    have t : Tendsto (fun r : ℝ => ∑ u ∈ range h, |P.w.e 0 u| * exp (-P.beta.e 0 u * r)) atTop (𝓝 (∑ u ∈ range h, |P.w.e 0 u| * 0)) := by
      refine tendsto_finset_sum _ fun u hu => Tendsto.const_mul _ ?_
      refine tendsto_exp_atBot.comp ?_
      exact Tendsto.const_mul_atTop_of_neg (neg_lt_zero.2 (hb u (Finset.mem_range.1 hu))) tendsto_id
    simp only [mul_zero, Finset.sum_const_zero] at t
    obtain ⟨R, hR⟩ := (((tendsto_order.1 t).2 eps heps).and (eventually_ge_atTop 0)).exists
    refine ⟨R, fun d hd => le_trans (Finset.sum_le_sum fun u hu => ?_) hR.1.le⟩
    refine mul_le_mul_of_nonneg_left (exp_le_exp.2 ?_) (abs_nonneg _)
    have := mul_le_mul_of_nonneg_left (hd u (Finset.mem_range.1 hu)) (hb u (Finset.mem_range.1 hu)).le
    linarith
  obtain ⟨R, hR⟩ := key
  refine ⟨R, fun x hx => ?_⟩
  obtain ⟨yp, cache, h1, -, -, h4⟩ := C92_forward_partial hP x hx
  refine ⟨yp, cache, h1, fun i hi => ?_⟩
  rw [h4 i, output, add_sub_cancel_right]
  refine (Finset.abs_sum_le_sum_abs _ _).trans (le_trans (Finset.sum_le_sum fun u hu => ?_) (hR _ hi))
  rw [abs_mul, abs_of_pos (exp_pos _)]

lemma quad_atTop (p q r : ℝ) (hp : 0 < p) : Tendsto (fun t : ℝ => p * t ^ 2 + q * t + r) atTop atTop := by
  have e : (fun t : ℝ => p * t ^ 2 + q * t + r) = fun t => t * (p * t + q) + r := by funext t; ring
  rw [e]
  refine tendsto_atTop_add_const_right _ _ (Tendsto.atTop_mul_atTop₀ tendsto_id ?_)
  exact tendsto_atTop_add_const_right _ _ (Tendsto.const_mul_atTop hp tendsto_id)

/-- The row `(t, 0)`. -/
noncomputable def axisRow (t : ℝ) : ℕ → ℝ := fun l => if l = 0 then t else 0

lemma rowDist_axis (c : ℕ → ℕ → ℝ) (t : ℝ) (u : Nat) : rowDist c (axisRow t) u = t ^ 2 + (-2 * c u 0) * t + (c u 0 ^ 2 + c u 1 ^ 2) := by
  unfold rowDist axisRow
  rw [Finset.sum_range_succ, Finset.sum_range_one]
  simp
  ring

/-- C311 fails: a hidden unit with a negative width and a non-zero weight makes the output unbounded (if no other unit in use has a width as negative). -/
theorem C311_unbounded {h : Nat} {P : Params} (hP : Shaped h P) (u : Nat) (hu : u < h) (hb : P.beta.e 0 u < 0) (hw : P.w.e 0 u ≠ 0)
    (hmin : ∀ v < h, v ≠ u → P.w.e 0 v ≠ 0 → P.beta.e 0 u < P.beta.e 0 v) (M : ℝ) :
    ∃ x yp cache, x.rows = 1 ∧ x.cols = 2 ∧ forward x P = .ok (yp, cache) ∧ M < |yp.e 0 0| := by
  let f : ℝ → ℝ := fun t => P.w.e 0 u + ∑ v ∈ (range h).erase u, P.w.e 0 v * exp (-(P.beta.e 0 v * rowDist P.c.e (axisRow t) v - P.beta.e 0 u * rowDist P.c.e (axisRow t) u))
  have hf : Tendsto f atTop (𝓝 (P.w.e 0 u + ∑ v ∈ (range h).erase u, 0)) := by
    refine tendsto_const_nhds.add (tendsto_finset_sum _ fun v hv => ?_)
    obtain ⟨hv1, hv2⟩ := Finset.mem_erase.1 hv
    by_cases h0 : P.w.e 0 v = 0
    · simp only [h0, zero_mul]; exact tendsto_const_nhds
    · have hlt := hmin v (Finset.mem_range.1 hv2) hv1 h0
      rw [show (0 : ℝ) = P.w.e 0 v * 0 by ring]
      refine Tendsto.const_mul _ (tendsto_exp_neg_atTop_nhds_zero.comp ?_)
      have e : (fun t : ℝ => P.beta.e 0 v * rowDist P.c.e (axisRow t) v - P.beta.e 0 u * rowDist P.c.e (axisRow t) u) =
          fun t => (P.beta.e 0 v - P.beta.e 0 u) * t ^ 2 + (P.beta.e 0 v * (-2 * P.c.e v 0) - P.beta.e 0 u * (-2 * P.c.e u 0)) * t +
            (P.beta.e 0 v * (P.c.e v 0 ^ 2 + P.c.e v 1 ^ 2) - P.beta.e 0 u * (P.c.e u 0 ^ 2 + P.c.e u 1 ^ 2)) := by
        funext t
        rw [rowDist_axis, rowDist_axis]
        ring
      rw [e]
      exact quad_atTop _ _ _ (sub_pos.2 hlt)
  rw [Finset.sum_const_zero, add_zero] at hf
  have hg : Tendsto (fun t : ℝ => exp (-P.beta.e 0 u * rowDist P.c.e (axisRow t) u)) atTop atTop := by
    refine tendsto_exp_atTop.comp ?_
    refine Tendsto.const_mul_atTop (neg_pos.2 hb) ?_
    have e : (fun t : ℝ => rowDist P.c.e (axisRow t) u) = fun t => 1 * t ^ 2 + (-2 * P.c.e u 0) * t + (P.c.e u 0 ^ 2 + P.c.e u 1 ^ 2) := by
      funext t; rw [rowDist_axis]; ring
    rw [e]
    exact quad_atTop _ _ _ one_pos
  have hout : ∀ t, output h 2 (P.w.e 0) (P.beta.e 0) (P.b.e 0 0) P.c.e (axisRow t) = exp (-P.beta.e 0 u * rowDist P.c.e (axisRow t) u) * f t + P.b.e 0 0 := by
    intro t
    have e0 : output h 2 (P.w.e 0) (P.beta.e 0) (P.b.e 0 0) P.c.e (axisRow t) =
        (∑ v ∈ range h, P.w.e 0 v * exp (-P.beta.e 0 v * rowDist P.c.e (axisRow t) v)) + P.b.e 0 0 := rfl
    rw [e0]
    congr 1
    rw [← Finset.add_sum_erase _ _ (Finset.mem_range.2 hu)]
    show _ = exp (-P.beta.e 0 u * rowDist P.c.e (axisRow t) u) * (P.w.e 0 u + ∑ v ∈ (range h).erase u, _)
    rw [mul_add, Finset.mul_sum]
    congr 1
    · rw [mul_comm]
    · refine Finset.sum_congr rfl fun v _ => ?_
      rw [mul_left_comm, ← exp_add]
      congr 2
      ring
  have hab : Tendsto (fun t => exp (-P.beta.e 0 u * rowDist P.c.e (axisRow t) u) * |f t|) atTop atTop :=
    Tendsto.atTop_mul_pos (abs_pos.2 hw) hg hf.abs
  obtain ⟨t, ht⟩ := (hab.eventually_gt_atTop (M + |P.b.e 0 0|)).exists
  obtain ⟨yp, cache, h1, -, -, h4⟩ := C92_forward_partial hP ⟨1, 2, fun _ => axisRow t⟩ rfl
  refine ⟨⟨1, 2, fun _ => axisRow t⟩, yp, cache, rfl, rfl, h1, ?_⟩
  rw [h4 0]
  show M < |output h 2 (P.w.e 0) (P.beta.e 0) (P.b.e 0 0) P.c.e (axisRow t)|
  rw [hout]
  have a1 := abs_sub_abs_le_abs_sub (exp (-P.beta.e 0 u * rowDist P.c.e (axisRow t) u) * f t) (-P.b.e 0 0)
  rw [sub_neg_eq_add, abs_neg, abs_mul, abs_of_pos (exp_pos _)] at a1
  linarith

/-- C311 fails after the first epoch already: the initialiser draws widths of both signs, and an epoch on labels that are not all zero (none negative)
leaves the most negative width and gives its unit a positive weight. -/
theorem C311_first_epoch (lr : ℝ) (hlr : 0 < lr) (h : Nat) (r s : ℕ → ℕ → ℝ) (x y : Mat) (hx : x.cols = 2) (hyr : y.rows = x.rows) (hyc : y.cols = 1)
    (u : Nat) (hu : u < h) (hneg : s 0 u < 0) (hmin : ∀ v < h, v ≠ u → s 0 u < s 0 v) (hy : ∀ i < x.rows, 0 ≤ y.e i 0) (hpos : ∃ i < x.rows, 0 < y.e i 0)
    (M : ℝ) : ∃ P', step lr x (.mat y) (init h r s) = .ok P' ∧
      ∃ z yp cache, z.rows = 1 ∧ z.cols = 2 ∧ forward z P' = .ok (yp, cache) ∧ M < |yp.e 0 0| := by
  obtain ⟨P', e, c', hw', hb', hbeta'⟩ := step_eq (init_shaped h r s) x y hx hyr hyc lr
  have h0 : ∀ z, output h 2 ((init h r s).w.e 0) ((init h r s).beta.e 0) ((init h r s).b.e 0 0) (init h r s).c.e z = 0 := by
    intro z
    unfold output
    simp [init]
  have hbeta : ∀ v < h, P'.beta.e 0 v = s 0 v := by
    intro v hv
    rw [hbeta' v hv, Finset.sum_eq_zero fun i _ => by rw [h0]; ring]
    simp [init]
  have hn : (0 : ℝ) < x.rows := by
    obtain ⟨i, hi, -⟩ := hpos
    exact_mod_cast (by omega : 0 < x.rows)
  have hwpos : 0 < P'.w.e 0 u := by
    rw [hw' u hu]
    have e1 : (init h r s).w.e 0 u = 0 := rfl
    rw [e1]
    have e2 : ∑ i ∈ range x.rows, (output h 2 ((init h r s).w.e 0) ((init h r s).beta.e 0) ((init h r s).b.e 0 0) (init h r s).c.e (x.e i) - y.e i 0) *
        exp (-(init h r s).beta.e 0 u * dd x (init h r s) i u) = -∑ i ∈ range x.rows, y.e i 0 * exp (-(init h r s).beta.e 0 u * dd x (init h r s) i u) := by
      rw [← Finset.sum_neg_distrib]
      exact Finset.sum_congr rfl fun i _ => by rw [h0]; ring
    rw [e2]
    have : 0 < ∑ i ∈ range x.rows, y.e i 0 * exp (-(init h r s).beta.e 0 u * dd x (init h r s) i u) := by
      obtain ⟨i, hi, hyi⟩ := hpos
      refine Finset.sum_pos' (fun j hj => mul_nonneg (hy j (Finset.mem_range.1 hj)) (exp_pos _).le) ⟨i, Finset.mem_range.2 hi, mul_pos hyi (exp_pos _)⟩
    have := div_pos this hn
    have := mul_pos hlr this
    rw [neg_div, mul_neg, zero_sub, neg_neg]
    exact this
  have hsh : Shaped h P' := by
    obtain ⟨yp, cache, g, h1, h2, a1, a2, a3, a4, a5, a6, -⟩ := backward_eq (init_shaped h r s) x y hx hyr hyc
    unfold step at e
    simp only [h1, h2, update] at e
    rw [subInPlace, if_pos (by rw [a1, a2]; simp [init])] at e
    simp only [] at e
    rw [subInPlace, if_pos (by rw [a3, a4]; simp [init])] at e
    simp only [] at e
    rw [subInPlace, if_pos (by rw [a5, a6]; simp [init])] at e
    injection e with e
    subst e
    exact init_shaped h r s
  refine ⟨P', e, C311_unbounded hsh u hu (by rw [hbeta u hu]; exact hneg) hwpos.ne' (fun v hv hne _ => ?_) M⟩
  rw [hbeta u hu, hbeta v hv]
  exact hmin v hv hne

/-- Two samples with labels 0 and 1 and two hidden units with the widths 1 and -1. -/
example (M : ℝ) : ∃ P', step 1 ⟨2, 2, fun i _ => i⟩ (.mat ⟨2, 1, fun i _ => i⟩) (init 2 (fun _ _ => 0) fun _ u => 1 - 2 * u) = .ok P' ∧
    ∃ z yp cache, z.rows = 1 ∧ z.cols = 2 ∧ forward z P' = .ok (yp, cache) ∧ M < |yp.e 0 0| :=
  C311_first_epoch 1 one_pos 2 (fun _ _ => 0) (fun _ u => 1 - 2 * u) ⟨2, 2, fun i _ => i⟩ ⟨2, 1, fun i _ => i⟩ rfl rfl rfl 1 (by norm_num) (by norm_num) (fun v hv hne => by
    have : v = 0 := by omega
    subst this; norm_num) (fun i _ => by positivity) ⟨1, by decide, by norm_num⟩ M

/-- The same network with the widths 1 and 2 meets the hypotheses of the two positive statements. -/
example : Shaped 2 (init 2 (fun _ _ => 0) fun _ u => u + 1) ∧ ∀ u < 2, 0 < (init 2 (fun _ _ => 0) fun _ u => (u : ℝ) + 1).beta.e 0 u :=
  ⟨init_shaped _ _ _, fun u _ => by simp only [init]; positivity⟩

end CML.RBF
