import Verif.Spec.Kernels
import Mathlib.Algebra.BigOperators.Ring.Finset
import Mathlib.Algebra.Order.BigOperators.Ring.Finset
import Mathlib.Algebra.Order.BigOperators.Group.Finset
import Mathlib.Analysis.SpecialFunctions.Exponential
import Mathlib.Analysis.SpecialFunctions.Trigonometric.DerivHyp
import Mathlib.Analysis.Complex.ExponentialBounds
import Mathlib.Topology.Algebra.InfiniteSum.Order
import Mathlib.Tactic.Ring
import Mathlib.Tactic.Linarith
import Mathlib.Tactic.NormNum
import Mathlib.Tactic.FieldSimp
import Mathlib.Tactic.Positivity

set_option linter.unusedSectionVars false

/-! # Properties C60 and C98 of the kernels -/

namespace CML.Kern

variable {d : Nat}

theorem dot_comm (x y : Fin d → ℝ) : dot x y = dot y x := Finset.sum_congr rfl fun i _ => mul_comm _ _

/-- All kernels are symmetric. -/
theorem C60_symmetric (gamma beta theta : ℝ) (degree : Nat) :
    Symm (linear (d := d)) ∧ Symm (poly (d := d) gamma degree) ∧ Symm (rbf (d := d) gamma) ∧ Symm (sigmoidKernel (d := d) gamma beta theta) := by
  refine ⟨fun x y => dot_comm x y, fun x y => by rw [poly, poly, dot_comm], fun x y => ?_, fun x y => by rw [sigmoidKernel, sigmoidKernel, dot_comm]⟩
  unfold rbf
  congr 3
  exact Finset.sum_congr rfl fun i _ => by ring

theorem psd_pow (k : Nat) (n : Nat) (x : Fin n → Fin d → ℝ) (c : Fin n → ℝ) : 0 ≤ ∑ i, ∑ j, c i * c j * dot (x i) (x j) ^ k := by
  have h : ∀ i j, c i * c j * dot (x i) (x j) ^ k = ∑ f : Fin k → Fin d, (c i * ∏ l, x i (f l)) * (c j * ∏ l, x j (f l)) := by
    intro i j
    rw [dot, ← Fin.prod_const, Finset.prod_univ_sum, Finset.mul_sum]
    simp only [Fintype.piFinset_univ]
    refine Finset.sum_congr rfl fun f _ => ?_
    rw [Finset.prod_mul_distrib]
    ring
  simp only [h]
  have : ∑ i, ∑ j, ∑ f : Fin k → Fin d, (c i * ∏ l, x i (f l)) * (c j * ∏ l, x j (f l)) = ∑ f : Fin k → Fin d, (∑ i, c i * ∏ l, x i (f l)) ^ 2 := by
    calc _ = ∑ i, ∑ f : Fin k → Fin d, ∑ j, (c i * ∏ l, x i (f l)) * (c j * ∏ l, x j (f l)) := Finset.sum_congr rfl fun i _ => Finset.sum_comm
      _ = ∑ f : Fin k → Fin d, ∑ i, ∑ j, (c i * ∏ l, x i (f l)) * (c j * ∏ l, x j (f l)) := Finset.sum_comm
      _ = _ := Finset.sum_congr rfl fun f _ => by rw [sq, Finset.sum_mul_sum]
  rw [this]
  exact Finset.sum_nonneg fun f _ => sq_nonneg _

theorem psd_exp (g : ℝ) (hg : 0 ≤ g) (n : Nat) (x : Fin n → Fin d → ℝ) (c : Fin n → ℝ) : 0 ≤ ∑ i, ∑ j, c i * c j * Real.exp (g * dot (x i) (x j)) := by
  have hs : HasSum (fun k : Nat => ∑ i, ∑ j, c i * c j * ((g * dot (x i) (x j)) ^ k / (k.factorial : ℝ))) (∑ i, ∑ j, c i * c j * Real.exp (g * dot (x i) (x j))) := by
    refine hasSum_sum fun i _ => hasSum_sum fun j _ => HasSum.mul_left _ ?_
    rw [Real.exp_eq_exp_ℝ]
    exact NormedSpace.expSeries_div_hasSum_exp _
  refine hs.nonneg fun k => ?_
  have : ∑ i, ∑ j, c i * c j * ((g * dot (x i) (x j)) ^ k / (k.factorial : ℝ)) = g ^ k / (k.factorial : ℝ) * ∑ i, ∑ j, c i * c j * dot (x i) (x j) ^ k := by
    rw [Finset.mul_sum]
    refine Finset.sum_congr rfl fun i _ => ?_
    rw [Finset.mul_sum]
    exact Finset.sum_congr rfl fun j _ => by rw [mul_pow]; ring
  rw [this]
  exact mul_nonneg (by positivity) (psd_pow k n x c)

theorem rbf_eq (g : ℝ) (x y : Fin d → ℝ) : rbf g x y = Real.exp (-g * dot x x) * Real.exp (-g * dot y y) * Real.exp (2 * g * dot x y) := by
  rw [← Real.exp_add, ← Real.exp_add, rbf]
  congr 1
  unfold dot
  rw [Finset.mul_sum, Finset.mul_sum, Finset.mul_sum, ← Finset.sum_add_distrib, ← Finset.sum_add_distrib, mul_neg, Finset.mul_sum, ← Finset.sum_neg_distrib]
  exact Finset.sum_congr rfl fun i _ => by ring

/-- All Gram matrices of the linear kernel, of the polynomial kernel of any degree with `γ ≥ 0`, and of the RBF kernel with `γ ≥ 0`
are positive semidefinite. -/
theorem C60_psd (gamma : ℝ) (hg : 0 ≤ gamma) (degree : Nat) : PSD (linear (d := d)) ∧ PSD (poly (d := d) gamma degree) ∧ PSD (rbf (d := d) gamma) := by
  refine ⟨fun n x c => ?_, fun n x c => ?_, fun n x c => ?_⟩
  · have := psd_pow 1 n x c
    simp only [pow_one] at this
    exact this
  · have : ∑ i, ∑ j, c i * c j * poly gamma degree (x i) (x j) = gamma * ∑ i, ∑ j, c i * c j * dot (x i) (x j) ^ degree := by
      rw [Finset.mul_sum]
      refine Finset.sum_congr rfl fun i _ => ?_
      rw [Finset.mul_sum]
      exact Finset.sum_congr rfl fun j _ => by rw [poly]; ring
    rw [this]
    exact mul_nonneg hg (psd_pow degree n x c)
  · have := psd_exp (2 * gamma) (by linarith) n x (fun i => c i * Real.exp (-gamma * dot (x i) (x i)))
    refine this.trans_eq ?_
    refine Finset.sum_congr rfl fun i _ => Finset.sum_congr rfl fun j _ => ?_
    rw [rbf_eq]
    ring

/-- Values of the RBF kernel lie in `(0, 1]` for `γ ≥ 0`; for `γ > 0` the value is 1 exactly for equal rows. -/
theorem C60_rbf_range (gamma : ℝ) (hg : 0 ≤ gamma) (x y : Fin d → ℝ) :
    0 < rbf gamma x y ∧ rbf gamma x y ≤ 1 ∧ (0 < gamma → (rbf gamma x y = 1 ↔ x = y)) := by
  have hs : 0 ≤ ∑ i, (y i - x i) ^ 2 := Finset.sum_nonneg fun i _ => sq_nonneg _
  refine ⟨Real.exp_pos _, ?_, fun hg' => ?_⟩
  · rw [rbf, Real.exp_le_one_iff]
    nlinarith
  · rw [rbf, Real.exp_eq_one_iff, mul_neg, neg_eq_zero, mul_eq_zero, or_iff_right hg'.ne', Finset.sum_eq_zero_iff_of_nonneg (fun i _ => sq_nonneg _)]
    constructor
    · intro h
      funext i
      have := h i (Finset.mem_univ i)
      have := pow_eq_zero_iff (two_ne_zero) |>.1 this
      linarith
    · rintro rfl i _
      simp

/-- The curvature used by SMO is not negative for every kernel with positive semidefinite Gram matrices, in particular for the linear,
polynomial and RBF kernels. -/
theorem C60_curvature (k : (Fin d → ℝ) → (Fin d → ℝ) → ℝ) (hk : PSD k) (hs : Symm k) (x y : Fin d → ℝ) : 0 ≤ curvature k x y := by
  have := hk 2 ![x, y] ![1, -1]
  simp only [Fin.sum_univ_two, Matrix.cons_val_zero, Matrix.cons_val_one] at this
  unfold curvature
  rw [hs y x] at this
  linarith

/-- The curvature is the squared distance for the linear kernel, and `2 (1 - k(x, y))` for the RBF kernel, so that it is zero
exactly for equal rows. -/
theorem C60_curvature_values (gamma : ℝ) (x y : Fin d → ℝ) :
    curvature linear x y = ∑ i, (x i - y i) ^ 2 ∧ curvature (rbf gamma) x y = 2 * (1 - rbf gamma x y) := by
  constructor
  · unfold curvature linear dot
    rw [Finset.mul_sum, ← Finset.sum_add_distrib, ← Finset.sum_sub_distrib]
    exact Finset.sum_congr rfl fun i _ => by ring
  · have h1 : ∀ z : Fin d → ℝ, rbf gamma z z = 1 := fun z => by simp [rbf]
    rw [curvature, h1, h1]
    ring

/-! ## C98 the sigmoid kernel -/

theorem tanh_two_gt : (9 : ℝ) / 10 < Real.tanh 2 := by
  have e1 := Real.exp_one_gt_d9
  have h2 : (7 : ℝ) < Real.exp 2 := by
    have : Real.exp 2 = Real.exp 1 * Real.exp 1 := by rw [← Real.exp_add]; norm_num
    rw [this]
    nlinarith
  have h3 : Real.exp (-2) < 1 / 7 := by
    rw [Real.exp_neg, ← one_div]
    exact one_div_lt_one_div_of_lt (by norm_num) h2
  rw [Real.tanh_eq_sinh_div_cosh, Real.sinh_eq, Real.cosh_eq, lt_div_iff₀ (by positivity)]
  linarith

/-- With its default parameters the sigmoid kernel has Gram matrices with negative diagonal: `k(0, 0) = tanh(-1) < 0`, in every dimension. -/
theorem C98_not_psd : ¬ PSD (sigmoidKernel (d := d) 1 1 (-1)) := by
  intro h
  have := h 1 ![fun _ => 0] ![1]
  simp only [Fin.sum_univ_one, Matrix.cons_val_zero, sigmoidKernel, dot, mul_zero, Finset.sum_const_zero, zero_add, one_mul, mul_one] at this
  rw [Real.tanh_neg] at this
  have : Real.tanh 1 ≤ 0 := by linarith
  rw [Real.tanh_eq_sinh_div_cosh] at this
  have hp : 0 < Real.sinh 1 / Real.cosh 1 := div_pos (Real.sinh_pos_iff.2 one_pos) (Real.cosh_pos 1)
  linarith

/-- Also the curvature used by SMO can be negative: for the rows `1` and `3` with the default parameters. -/
theorem C98_negative_curvature : ∃ x y : Fin 1 → ℝ, curvature (sigmoidKernel 1 1 (-1)) x y < 0 := by
  refine ⟨![1], ![3], ?_⟩
  have h2 := tanh_two_gt
  have h8 : Real.tanh 8 < 1 := Real.tanh_lt_one 8
  simp only [curvature, sigmoidKernel, dot, Fin.sum_univ_one, Matrix.cons_val_zero, one_mul]
  norm_num
  linarith

/-- What does hold for every parameter: the sigmoid kernel is symmetric and bounded by `|γ|`. -/
theorem C98_bounded_partial (gamma beta theta : ℝ) (x y : Fin d → ℝ) :
    sigmoidKernel gamma beta theta x y = sigmoidKernel gamma beta theta y x ∧ |sigmoidKernel gamma beta theta x y| ≤ |gamma| := by
  refine ⟨(C60_symmetric gamma beta theta 1).2.2.2 x y, ?_⟩
  rw [sigmoidKernel, abs_mul]
  refine mul_le_of_le_one_right (abs_nonneg _) ?_
  rw [abs_le]
  exact ⟨(Real.neg_one_lt_tanh _).le, (Real.tanh_lt_one _).le⟩

end CML.Kern
