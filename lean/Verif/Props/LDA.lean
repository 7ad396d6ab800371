import Verif.Spec.LDA
import Mathlib.Algebra.Order.Ring.Rat
import Mathlib.Algebra.Field.Rat
import Mathlib.Algebra.Order.BigOperators.Group.List
import Mathlib.Algebra.BigOperators.Group.List.Basic
import Mathlib.Algebra.BigOperators.Ring.Finset
import Mathlib.LinearAlgebra.Matrix.Notation
import Mathlib.Tactic.NormNum
import Mathlib.Tactic.Linarith
import Mathlib.Tactic.Ring
import Mathlib.Tactic.FieldSimp
import Mathlib.Tactic.LinearCombination
import Mathlib.Tactic.FinCases
import Mathlib.Data.Fin.VecNotation
import Mathlib.Algebra.BigOperators.Fin

set_option linter.unusedSectionVars false

/-! # Properties C44 - C46, C81, C82 (linear discriminant analysis) -/

namespace CML.LDA
open Finset Matrix

variable {K : Type*} [Field K] [LinearOrder K] [IsStrictOrderedRing K] {d : Nat}

theorem classScatter_eq (X : List (Fin d → K)) (mu : Fin d → K) :
    classScatter X mu = ((deviations X mu).map outer).sum := by
  induction X with
  | nil => ext a b; simp [classScatter, deviations]
  | cons r X ih =>
    have h : classScatter (r :: X) mu = outer (r - mu) + classScatter X mu := by
      ext a b; simp [classScatter, outer]
    rw [h, ih]; simp [deviations]

theorem outer_quad (u v : Fin d → K) : u ⬝ᵥ (outer v *ᵥ u) = (u ⬝ᵥ v) * (u ⬝ᵥ v) := by
  have h : outer v *ᵥ u = (v ⬝ᵥ u) • v := by
    ext i
    simp only [mulVec, dotProduct, outer, Pi.smul_apply, smul_eq_mul, Finset.sum_mul]
    exact Finset.sum_congr rfl fun j _ => by ring
  rw [h, dotProduct_smul, smul_eq_mul, dotProduct_comm v u]

theorem outer_psd (v : Fin d → K) : IsPSD (outer v) := by
  refine ⟨by ext a b; simp [outer, mul_comm], fun u => ?_⟩
  rw [outer_quad]; exact mul_self_nonneg _

theorem psd_add {A B : Matrix (Fin d) (Fin d) K} (hA : IsPSD A) (hB : IsPSD B) : IsPSD (A + B) := by
  refine ⟨by rw [transpose_add, hA.1, hB.1], fun v => ?_⟩
  rw [add_mulVec, dotProduct_add]
  exact add_nonneg (hA.2 v) (hB.2 v)

theorem psd_sum (L : List (Matrix (Fin d) (Fin d) K)) (h : ∀ A ∈ L, IsPSD A) : IsPSD L.sum := by
  induction L with
  | nil => refine ⟨by simp, fun v => by simp⟩
  | cons A L ih =>
    rw [List.sum_cons]
    exact psd_add (h A (by simp)) (ih fun B hB => h B (by simp [hB]))

/-- C44: the scatter matrix is the sum of the outer products of the deviations, over the rows of both classes. -/
theorem C44_sum_of_outer_products (X0 X1 : List (Fin d → K)) (mu0 mu1 : Fin d → K) :
    scatter X0 X1 mu0 mu1 = ((deviations X0 mu0).map outer).sum + ((deviations X1 mu1).map outer).sum := by
  rw [scatter, classScatter_eq, classScatter_eq]

/-- C44: the scatter matrix is symmetric positive semidefinite. -/
theorem C44_scatter_psd (X0 X1 : List (Fin d → K)) (mu0 mu1 : Fin d → K) : IsPSD (scatter X0 X1 mu0 mu1) := by
  rw [C44_sum_of_outer_products]
  refine psd_add (psd_sum _ ?_) (psd_sum _ ?_) <;>
  · intro A hA
    obtain ⟨v, _, rfl⟩ := List.mem_map.1 hA
    exact outer_psd v

/-- C44: a direction on which the data of both classes are not constant has positive scatter, so that the matrix can only be
singular when the deviations of all rows are orthogonal to some direction. -/
theorem C44_definite (X0 X1 : List (Fin d → K)) (mu0 mu1 v : Fin d → K)
    (h : ∃ r ∈ deviations X0 mu0 ++ deviations X1 mu1, v ⬝ᵥ r ≠ 0) : 0 < v ⬝ᵥ (scatter X0 X1 mu0 mu1 *ᵥ v) := by
  have key : ∀ L : List (Fin d → K), v ⬝ᵥ ((L.map outer).sum *ᵥ v) = (L.map fun r => (v ⬝ᵥ r) * (v ⬝ᵥ r)).sum := by
    intro L
    induction L with
    | nil => simp
    | cons r L ih =>
      rw [List.map_cons, List.sum_cons, add_mulVec, dotProduct_add, ih, List.map_cons, List.sum_cons]
      rw [outer_quad]
  rw [C44_sum_of_outer_products, ← List.sum_append, ← List.map_append, key]
  obtain ⟨r, hr, hne⟩ := h
  have hnn : ∀ z ∈ (deviations X0 mu0 ++ deviations X1 mu1).map (fun r => (v ⬝ᵥ r) * (v ⬝ᵥ r)), (0 : K) ≤ z := by
    intro z hz
    obtain ⟨s, _, rfl⟩ := List.mem_map.1 hz
    exact mul_self_nonneg _
  exact lt_of_lt_of_le (mul_self_pos.2 hne) (List.single_le_sum hnn _ (List.mem_map.2 ⟨r, hr, rfl⟩))

/-- C44: the means that `fit` computes are the centres of gravity of the classes. -/
theorem C44_means (X : List (Fin d → K)) (v : Fin d → K) (h : colMean X = some v) : IsCentroid X v := by
  unfold colMean at h
  split at h
  · simp at h
  · rename_i hne
    injection h with h
    refine ⟨by rintro rfl; simp at hne, ?_⟩
    ext j
    have e : ∀ Y : List (Fin d → K), (deviations Y v).sum j = (Y.map fun r => r j).sum - Y.length * v j := by
      intro Y
      induction Y with
      | nil => simp [deviations]
      | cons r Y ih =>
        have : (deviations (r :: Y) v).sum j = (r j - v j) + (deviations Y v).sum j := by simp [deviations]
        rw [this, ih]; simp; ring
    rw [e, ← h]
    have : (X.length : K) ≠ 0 := by exact_mod_cast hne
    field_simp
    simp

example : colMean [![(1 : ℚ), 2], ![3, 6]] = some ![2, 4] := by decide +kernel

/-- C45: the deprecated `get_w` solves `S_w w = mu_0 - mu_1`; it fails exactly for singular matrices. -/
theorem C45_get_w_solves (S : Matrix (Fin d) (Fin d) K) (mu0 mu1 : Fin d → K) :
    (S.det ≠ 0 → ∃ w, getW S mu0 mu1 = .ok w ∧ S *ᵥ w = mu0 - mu1) ∧ (S.det = 0 → getW S mu0 mu1 = .error .valueError) := by
  refine ⟨fun h => ⟨_, by rw [getW, if_neg h], ?_⟩, fun h => by rw [getW, if_pos h]⟩
  rw [mulVec_mulVec, mul_nonsing_inv _ (isUnit_iff_ne_zero.2 h), one_mulVec]

theorem pseudoInv_eq (r : SVD K d) : pseudoInv r = Matrix.diagonal fun i => r.Vt i i * (r.Sigma i)⁻¹ * r.U i i := by
  ext i j
  by_cases h : i = j
  · subst h; simp [pseudoInv, invDiag]
  · simp [pseudoInv, invDiag, h]

/-- C45: for every decomposition that keeps the contract of LAPACK, `get_w_v2` fails exactly for the singular matrices, like `get_w`. -/
theorem C45_v2_singular (svd : Matrix (Fin d) (Fin d) K → SVD K d) (S : Matrix (Fin d) (Fin d) K) (mu0 mu1 : Fin d → K)
    (hsvd : IsSVD S (svd S)) :
    (S.det = 0 → getWV2 svd S mu0 mu1 = .error .valueError) ∧ (S.det ≠ 0 → ∃ w, getWV2 svd S mu0 mu1 = .ok w) := by
  have hdet : S.det = 0 ↔ ∃ i, (svd S).Sigma i = 0 := by
    have hU : (svd S).U.det ≠ 0 := by
      intro h
      have := congrArg Matrix.det hsvd.orthU
      rw [det_mul, det_transpose, h] at this
      simp at this
    have hV : (svd S).Vt.det ≠ 0 := by
      intro h
      have := congrArg Matrix.det hsvd.orthV
      rw [det_mul, det_transpose, h] at this
      simp at this
    conv_lhs => rw [← hsvd.prod]
    rw [det_mul, det_mul, det_diagonal, mul_eq_zero, mul_eq_zero, Finset.prod_eq_zero_iff]
    simp [hU, hV]
  constructor
  · intro h; rw [getWV2, if_pos (hdet.1 h)]
  · intro h; exact ⟨_, by rw [getWV2, if_neg fun h' => h (hdet.2 h')]⟩

/-- C45 is false of `get_w_v2`, the function that `fit` uses: for EVERY scatter matrix that is not diagonal, whatever
decomposition is returned, there are class means for which the result is not a solution. -/
theorem C45_v2_violated (svd : Matrix (Fin d) (Fin d) K → SVD K d) (S : Matrix (Fin d) (Fin d) K) (a b : Fin d) (hab : a ≠ b)
    (hS : S a b ≠ 0) : ∃ mu0 mu1, ∀ w, getWV2 svd S mu0 mu1 = .ok w → S *ᵥ w ≠ mu0 - mu1 := by
  by_contra hcon
  push Not at hcon
  have hdiag : S * pseudoInv (svd S) = 1 := by
    apply Matrix.ext_of_mulVec_single
    intro i
    obtain ⟨w, hw, hs⟩ := hcon (Pi.single i 1) 0
    rw [getWV2] at hw
    split at hw
    · simp at hw
    · injection hw with hw
      rw [← hw, mulVec_mulVec, sub_zero] at hs
      rw [hs, one_mulVec]
  rw [pseudoInv_eq] at hdiag
  have hab' := congrFun (congrFun hdiag a) b
  have hbb := congrFun (congrFun hdiag b) b
  rw [mul_diagonal] at hab' hbb
  rw [one_apply_ne hab] at hab'
  rw [one_apply_eq] at hbb
  rcases mul_eq_zero.1 hab' with h | h
  · exact hS h
  · rw [h, mul_zero] at hbb
    exact zero_ne_one hbb

/-- C45 for the Python backend, the part that holds: when both factors of the decomposition are diagonal (which for a
scatter matrix means: uncorrelated features, in the order of descending variance) the vector is a solution. -/
theorem C45_v2_partial (svd : Matrix (Fin d) (Fin d) K → SVD K d) (S : Matrix (Fin d) (Fin d) K) (mu0 mu1 : Fin d → K)
    (hsvd : IsSVD S (svd S)) (hU : ∀ i j, i ≠ j → (svd S).U i j = 0) (hV : ∀ i j, i ≠ j → (svd S).Vt i j = 0)
    (hdet : ∀ i, (svd S).Sigma i ≠ 0) : ∃ w, getWV2 svd S mu0 mu1 = .ok w ∧ S *ᵥ w = mu0 - mu1 := by
  refine ⟨_, by rw [getWV2, if_neg (by push Not; exact hdet)], ?_⟩
  rw [mulVec_mulVec]
  suffices h : S * pseudoInv (svd S) = 1 by rw [h, one_mulVec]
  generalize svd S = r at *
  have eU : r.U = Matrix.diagonal fun i => r.U i i := by
    ext i j
    by_cases h : i = j
    · subst h; simp
    · simp [h, hU i j h]
  have eV : r.Vt = Matrix.diagonal fun i => r.Vt i i := by
    ext i j
    by_cases h : i = j
    · subst h; simp
    · simp [h, hV i j h]
  have hu : ∀ i, r.U i i * r.U i i = 1 := by
    intro i
    have := congrFun (congrFun hsvd.orthU i) i
    rw [eU, diagonal_transpose, diagonal_mul_diagonal, diagonal_apply_eq, one_apply_eq] at this
    exact this
  have hv : ∀ i, r.Vt i i * r.Vt i i = 1 := by
    intro i
    have := congrFun (congrFun hsvd.orthV i) i
    rw [eV, diagonal_transpose, diagonal_mul_diagonal, diagonal_apply_eq, one_apply_eq] at this
    exact this
  rw [pseudoInv_eq]
  conv_lhs => rw [← hsvd.prod]
  rw [eU, eV, diagonal_mul_diagonal, diagonal_mul_diagonal, diagonal_mul_diagonal, ← diagonal_one]
  congr 1
  ext i
  have := hdet i
  show _ = (1 : K)
  rw [diagonal_apply_eq, diagonal_apply_eq]
  calc _ = (r.U i i * r.U i i) * (r.Vt i i * r.Vt i i) * (r.Sigma i * (r.Sigma i)⁻¹) := by ring
    _ = 1 := by rw [hu, hv, mul_inv_cancel₀ this]; ring

/-- C45 for one feature: whatever decomposition is returned, the vector is a solution. -/
theorem C45_v2_one_feature_partial (svd : Matrix (Fin 1) (Fin 1) K → SVD K 1) (S : Matrix (Fin 1) (Fin 1) K) (mu0 mu1 : Fin 1 → K)
    (hsvd : IsSVD S (svd S)) (hS : S 0 0 ≠ 0) : ∃ w, getWV2 svd S mu0 mu1 = .ok w ∧ S *ᵥ w = mu0 - mu1 := by
  refine C45_v2_partial svd S mu0 mu1 hsvd (fun i j h => absurd (Subsingleton.elim i j) h)
    (fun i j h => absurd (Subsingleton.elim i j) h) fun i h => hS ?_
  have := congrFun (congrFun hsvd.prod 0) 0
  rw [Subsingleton.elim i 0] at h
  rw [← this]
  simp [Matrix.mul_apply, h]

/-- A decomposition that meets the hypotheses of `C45_v2_partial`. -/
example : IsSVD (!![(3 : ℚ), 0; 0, 2]) ⟨1, ![3, 2], 1⟩ := by
  refine ⟨by simp, by simp, ?_, ?_, ?_⟩
  · intro i; fin_cases i <;> norm_num
  · intro i j h; fin_cases i <;> fin_cases j <;> first | (exfalso; revert h; decide) | norm_num
  · ext i j; fin_cases i <;> fin_cases j <;> simp

/-- For two uncorrelated features of which the second varies more, every decomposition exchanges the axes, and the elementwise
product is zero. -/
theorem svd_swap {a b : K} (ha : 0 < a) (hb : a < b) (r : SVD K 2) (h : IsSVD (!![a, 0; 0, b]) r) :
    r.U 0 0 = 0 ∧ r.U 1 1 = 0 := by
  have hV : r.Vt * r.Vtᵀ = 1 := h.orthV
  have hSS : (!![a, 0; 0, b]) * (!![a, 0; 0, b])ᵀ * r.U = r.U * Matrix.diagonal fun i => r.Sigma i * r.Sigma i := by
    rw [← h.prod, transpose_mul, transpose_mul, diagonal_transpose]
    calc r.U * diagonal r.Sigma * r.Vt * (r.Vtᵀ * (diagonal r.Sigma * r.Uᵀ)) * r.U
        = r.U * diagonal r.Sigma * (r.Vt * r.Vtᵀ) * diagonal r.Sigma * (r.Uᵀ * r.U) := by simp only [Matrix.mul_assoc]
      _ = r.U * (diagonal r.Sigma * diagonal r.Sigma) := by rw [hV, h.orthU]; simp only [Matrix.mul_one, Matrix.mul_assoc]
      _ = _ := by rw [diagonal_mul_diagonal]
  have hsq : (!![a, 0; 0, b]) * (!![a, 0; 0, b])ᵀ = !![a * a, 0; 0, b * b] := by
    ext i j; fin_cases i <;> fin_cases j <;> simp [Matrix.mul_apply, Fin.sum_univ_two]
  rw [hsq] at hSS
  have e : ∀ i j, (!![a * a, 0; 0, b * b] * r.U) i j = (r.U * Matrix.diagonal fun i => r.Sigma i * r.Sigma i) i j :=
    fun i j => by rw [hSS]
  have h00 := e 0 0
  have h01 := e 0 1
  have h10 := e 1 0
  have h11 := e 1 1
  simp [Matrix.mul_apply, Fin.sum_univ_two, Matrix.diagonal] at h00 h01 h10 h11
  have o : ∀ i j, (r.Uᵀ * r.U) i j = (1 : Matrix (Fin 2) (Fin 2) K) i j := fun i j => by rw [h.orthU]
  have o00 := o 0 0
  have o11 := o 1 1
  have o01 := o 0 1
  simp [Matrix.mul_apply, Fin.sum_univ_two] at o00 o11 o01
  have hs := h.sorted 0 1 (by decide)
  have n1 := h.nonneg 1
  have hba : a * a < b * b := by nlinarith
  have hσ : r.Sigma 1 * r.Sigma 1 ≤ r.Sigma 0 * r.Sigma 0 := by nlinarith
  have u00 : r.U 0 0 = 0 := by
    by_contra hne
    have s0 : r.Sigma 0 * r.Sigma 0 = a * a := by
      apply mul_left_cancel₀ hne; linarith
    have u10 : r.U 1 0 = 0 := by
      by_contra h1
      have : r.Sigma 0 * r.Sigma 0 = b * b := by
        apply mul_left_cancel₀ h1; linarith
      linarith
    have u01 : r.U 0 1 = 0 := by
      rw [u10, zero_mul, add_zero] at o01
      exact (mul_eq_zero.1 o01).resolve_left hne
    have u11 : r.U 1 1 ≠ 0 := by
      intro h1
      rw [u01, h1] at o11
      simp at o11
    have : r.Sigma 1 * r.Sigma 1 = b * b := by
      apply mul_left_cancel₀ u11; linarith
    linarith
  refine ⟨u00, ?_⟩
  have u10 : r.U 1 0 ≠ 0 := by
    intro h1
    rw [u00, h1] at o00
    simp at o00
  rw [u00, zero_mul, zero_add] at o01
  exact (mul_eq_zero.1 o01).resolve_left u10

/-- C45 is false of `get_w_v2` already for two uncorrelated features: when the second one varies more than the first, the
vector is zero for all class means, whatever decomposition is returned. -/
theorem C45_v2_zero {a b : K} (ha : 0 < a) (hb : a < b) (svd : Matrix (Fin 2) (Fin 2) K → SVD K 2)
    (h : IsSVD (!![a, 0; 0, b]) (svd !![a, 0; 0, b])) (mu0 mu1 w : Fin 2 → K)
    (hw : getWV2 svd (!![a, 0; 0, b]) mu0 mu1 = .ok w) : w = 0 := by
  obtain ⟨h0, h1⟩ := svd_swap ha hb _ h
  rw [getWV2] at hw
  split at hw
  · simp at hw
  · injection hw with hw
    rw [← hw, pseudoInv_eq]
    ext i
    rw [mulVec_diagonal]
    fin_cases i
    · simp [h0]
    · simp [h1]

/-- A decomposition that meets the hypotheses of `C45_v2_zero`. -/
example : IsSVD (!![(2 : ℚ), 0; 0, 8]) ⟨!![0, 1; 1, 0], ![8, 2], !![0, 1; 1, 0]⟩ := by
  refine ⟨by decide +kernel, by decide +kernel, ?_, ?_, by decide +kernel⟩
  · intro i; fin_cases i <;> norm_num
  · intro i j h; fin_cases i <;> fin_cases j <;> first | (exfalso; revert h; decide) | norm_num

/-- C45 is false of the C++ backend for every single feature whose scatter is not 1: the scatter multiplies instead of
dividing. -/
theorem C45_cc_violated (svd : Matrix (Fin 1) (Fin 1) K → SVD K 1) (S : Matrix (Fin 1) (Fin 1) K) (mu0 mu1 : Fin 1 → K)
    (h : IsSVD S (svd S)) (hS : S 0 0 ≠ 1) (hpos : 0 < S 0 0) (hmu : mu0 ≠ mu1) : S *ᵥ getWCC svd S mu0 mu1 ≠ mu0 - mu1 := by
  have hU := congrFun (congrFun h.orthU 0) 0
  have hV := congrFun (congrFun h.orthV 0) 0
  have hp := congrFun (congrFun h.prod 0) 0
  simp [Matrix.mul_apply] at hU hV hp
  intro hcon
  have hc := congrFun hcon 0
  have hd : mu0 0 - mu1 0 ≠ 0 := by
    intro h0
    exact hmu (funext fun i => by rw [Subsingleton.elim i 0]; exact sub_eq_zero.1 h0)
  simp [getWCC, mulVec, dotProduct, Matrix.mul_apply] at hc
  have e : S 0 0 * ((svd S).Vt 0 0 * (svd S).Sigma 0 * (svd S).U 0 0) = 1 := by
    apply mul_right_cancel₀ hd
    linear_combination hc
  have e2 : S 0 0 * S 0 0 = 1 := by
    rw [← e]
    linear_combination (-S 0 0) * hp
  have : (S 0 0 - 1) * (S 0 0 + 1) = 0 := by linear_combination e2
  rcases mul_eq_zero.1 this with h | h
  · exact hS (sub_eq_zero.1 h)
  · linarith

example : IsSVD (!![(2 : ℚ)]) ⟨1, ![2], 1⟩ := by
  refine ⟨by simp, by simp, ?_, ?_, ?_⟩
  · intro i; fin_cases i; norm_num
  · intro i j _; fin_cases i; fin_cases j; norm_num
  · ext i j; fin_cases i; fin_cases j; simp

/-- C46: `predict` answers one label per row; it is 1 exactly when the projection of the row is strictly nearer to the
projected centre of class 1, and 0 otherwise. -/
theorem C46_nearer_centre (w mu0 mu1 : Fin d → K) (x : List (Fin d → K)) :
    (predict ⟨some w, some mu0, some mu1⟩ x).length = x.length ∧
    ∀ (i : Nat) (r : Fin d → K), x[i]? = some r →
      (projDist w r mu1 < projDist w r mu0 → (predict ⟨some w, some mu0, some mu1⟩ x)[i]? = some 1) ∧
      (projDist w r mu0 ≤ projDist w r mu1 → (predict ⟨some w, some mu0, some mu1⟩ x)[i]? = some 0) := by
  refine ⟨by simp [predict], fun i r hr => ?_⟩
  have e : (predict ⟨some w, some mu0, some mu1⟩ x)[i]? = some (predictRow w mu0 mu1 r) := by
    simp [predict, hr]
  rw [e]
  unfold projDist predictRow
  rw [dotProduct_comm w r]
  refine ⟨fun h => by simp only [gt_iff_lt, if_pos h], fun h => by simp only [gt_iff_lt, if_neg (not_lt.2 h)]⟩

/-- C46: only the line spanned by the projection vector matters. -/
theorem C46_scale_invariant (w mu0 mu1 : Fin d → K) (c : K) (hc : c ≠ 0) (x : List (Fin d → K)) :
    predict ⟨some (c • w), some mu0, some mu1⟩ x = predict ⟨some w, some mu0, some mu1⟩ x := by
  unfold predict
  refine List.map_congr_left fun r _ => ?_
  simp only [predictRow, dotProduct_smul, smul_dotProduct, smul_eq_mul, ← mul_sub, abs_mul, gt_iff_lt,
    mul_lt_mul_iff_right₀ (abs_pos.2 hc)]

/-- C46: the decision is linear: class 1 is an open half space (or nothing), bounded by the hyperplane through the middle of
the centres. -/
theorem C46_half_space (w mu0 mu1 r : Fin d → K) :
    predict ⟨some w, some mu0, some mu1⟩ [r] = [1] ↔
      (w ⬝ᵥ (mu0 - mu1)) * (2 * (w ⬝ᵥ r) - w ⬝ᵥ (mu0 + mu1)) < 0 := by
  simp only [predict, List.map_cons, List.map_nil, predictRow, gt_iff_lt]
  rw [dotProduct_sub, dotProduct_add, dotProduct_comm r w]
  have key : (|w ⬝ᵥ r - w ⬝ᵥ mu1| < |w ⬝ᵥ r - w ⬝ᵥ mu0|) ↔
      (w ⬝ᵥ mu0 - w ⬝ᵥ mu1) * (2 * (w ⬝ᵥ r) - (w ⬝ᵥ mu0 + w ⬝ᵥ mu1)) < 0 := by
    rw [← sq_lt_sq]
    constructor <;> intro h <;> nlinarith
  rw [← key]
  split <;> simp_all

/-- C81: with the exact projection vector (`get_w_v1`) and classes that are distinguishable, both class means are classified
correctly. -/
theorem C81_means_classified (X0 X1 : List (Fin d → K)) (mu0 mu1 w : Fin d → K) (hne : mu0 ≠ mu1)
    (hw : getW (scatter X0 X1 mu0 mu1) mu0 mu1 = .ok w) : predict ⟨some w, some mu0, some mu1⟩ [mu0, mu1] = [0, 1] := by
  have hdet : (scatter X0 X1 mu0 mu1).det ≠ 0 := by
    intro h; rw [getW, if_pos h] at hw; simp at hw
  obtain ⟨w', hw', hs⟩ := (C45_get_w_solves (scatter X0 X1 mu0 mu1) mu0 mu1).1 hdet
  rw [hw] at hw'
  injection hw' with hw'
  subst hw'
  have hpos : 0 < w ⬝ᵥ (mu0 - mu1) := by
    rw [← hs]
    have hnn := (C44_scatter_psd X0 X1 mu0 mu1).2 w
    refine lt_of_le_of_ne hnn fun h0 => ?_
    have horth : ∀ r ∈ deviations X0 mu0 ++ deviations X1 mu1, w ⬝ᵥ r = 0 := by
      by_contra hcon
      push Not at hcon
      exact absurd h0.symm (ne_of_gt (C44_definite X0 X1 mu0 mu1 w hcon))
    have hz : scatter X0 X1 mu0 mu1 *ᵥ w = 0 := by
      rw [C44_sum_of_outer_products, ← List.sum_append, ← List.map_append]
      have : ∀ L : List (Fin d → K), (∀ r ∈ L, w ⬝ᵥ r = 0) → (L.map outer).sum *ᵥ w = 0 := by
        intro L
        induction L with
        | nil => simp
        | cons r L ih =>
          intro h
          rw [List.map_cons, List.sum_cons, add_mulVec, ih fun s hs => h s (by simp [hs]), add_zero]
          have h : outer r *ᵥ w = (w ⬝ᵥ r) • r := by
            ext i
            simp only [mulVec, dotProduct, outer, Pi.smul_apply, smul_eq_mul, Finset.sum_mul]
            exact Finset.sum_congr rfl fun j _ => by ring
          rw [h, ‹∀ s ∈ r :: L, w ⬝ᵥ s = 0› r (by simp), zero_smul]
      exact this _ horth
    rw [hz] at hs
    exact hne (sub_eq_zero.1 hs.symm)
  have hlt : projDist w mu0 mu0 ≤ projDist w mu0 mu1 := by simp [projDist]
  have hlt' : projDist w mu1 mu1 < projDist w mu1 mu0 := by
    rw [dotProduct_sub] at hpos
    simp only [projDist, sub_self, abs_zero, abs_pos]
    intro h; linarith
  have h0 := ((C46_nearer_centre w mu0 mu1 [mu0, mu1]).2 0 mu0 rfl).2 hlt
  have h1 := ((C46_nearer_centre w mu0 mu1 [mu0, mu1]).2 1 mu1 rfl).1 hlt'
  simp only [predict, List.map_cons, List.map_nil] at h0 h1 ⊢
  simp at h0 h1
  rw [h0, h1]

/-- Two classes whose scatter matrix is invertible. -/
example : (scatter [![(0 : ℚ), 1], ![0, -1]] [![5, 0], ![3, 0]] ![0, 0] ![4, 0]).det = 4 := by
  rw [det_fin_two]; decide +kernel

/-- C81 is false of the Python backend as shipped: on this separable data set (the second feature varies more), for every
decomposition, `predict` answers 0 for all rows, the mean of class 1 among them. -/
theorem C81_violated (svd : Matrix (Fin 2) (Fin 2) ℚ → SVD ℚ 2) (h : IsSVD (!![2, 0; 0, 8]) (svd !![2, 0; 0, 8]))
    (m : Trained ℚ 2)
    (hm : fit (getWV2 svd) [![1, 0], ![-1, 0], ![0, 12], ![0, 8]] [0, 0, 1, 1] = .ok m) :
    m.mu0 = some ![0, 0] ∧ m.mu1 = some ![0, 10] ∧ predict m [![0, 0], ![0, 10]] = [0, 0] := by
  have e0 : colMean (rowsOf [![(1 : ℚ), 0], ![-1, 0], ![0, 12], ![0, 8]] [0, 0, 1, 1] 0) = some ![0, 0] := by decide +kernel
  have e1 : colMean (rowsOf [![(1 : ℚ), 0], ![-1, 0], ![0, 12], ![0, 8]] [0, 0, 1, 1] 1) = some ![0, 10] := by decide +kernel
  have es : scatter (rowsOf [![(1 : ℚ), 0], ![-1, 0], ![0, 12], ![0, 8]] [0, 0, 1, 1] 0)
      (rowsOf [![1, 0], ![-1, 0], ![0, 12], ![0, 8]] [0, 0, 1, 1] 1) ![0, 0] ![0, 10] = !![2, 0; 0, 8] := by decide +kernel
  rw [fit, if_neg (by simp)] at hm
  simp only [e0, e1, Option.getD_some, es, Option.isSome_some, Bool.and_self, if_true] at hm
  split at hm
  · simp at hm
  · rename_i w hw
    injection hm with hm
    have := C45_v2_zero (by norm_num) (by norm_num) svd h _ _ _ hw
    subst this
    subst hm
    exact ⟨rfl, rfl, by decide +kernel⟩

/-- The hypotheses of `C81_violated` are met: such a decomposition exists and `fit` succeeds with it. -/
example : ∃ m, fit (getWV2 fun _ => ⟨!![0, 1; 1, 0], ![8, 2], !![0, 1; 1, 0]⟩) [![(1 : ℚ), 0], ![-1, 0], ![0, 12], ![0, 8]]
    [0, 0, 1, 1] = .ok m := by
  have hs : ¬∃ i, (![(8 : ℚ), 2]) i = 0 := by decide +kernel
  rw [fit, if_neg (by simp)]
  simp only [getWV2, if_neg hs]
  exact ⟨_, rfl⟩

/-- C82 is false: a model trained on rows of class 1 only predicts class 0 for every row, its training data included. -/
theorem C82_violated (gw : Matrix (Fin d) (Fin d) K → (Fin d → K) → (Fin d → K) → Except PyErr (Fin d → K))
    (x : List (Fin d → K)) (m : Trained K d) (hm : fit gw x (x.map fun _ => 1) = .ok m) (z : List (Fin d → K)) :
    predict m z = z.map fun _ => 0 := by
  have e : rowsOf x (x.map fun _ => 1) 0 = [] := by
    unfold rowsOf
    rw [List.map_eq_nil_iff, List.filter_eq_nil_iff]
    intro p hp
    have := (List.of_mem_zip hp).2
    simp at this
    simp [this.2]
  rw [fit, if_neg (by simp)] at hm
  have : colMean ([] : List (Fin d → K)) = none := by simp [colMean]
  simp only [e, this] at hm
  split at hm
  · simp at hm
  · injection hm with hm
    subst hm
    simp [predict]

/-- C82: a model trained on rows of one class, either one, has NaN as projection vector, no mean for the other class, and predicts class 0
for every row; hence it is right on class 0. -/
theorem C82_one_class (gw : Matrix (Fin d) (Fin d) K → (Fin d → K) → (Fin d → K) → Except PyErr (Fin d → K))
    (x : List (Fin d → K)) (y : List Int) (m : Trained K d) (hm : fit gw x y = .ok m)
    (h : rowsOf x y 0 = [] ∨ rowsOf x y 1 = []) (z : List (Fin d → K)) :
    m.w = none ∧ predict m z = z.map fun _ => 0 := by
  rw [fit] at hm
  split at hm
  · simp at hm
  · have e : colMean ([] : List (Fin d → K)) = none := by simp [colMean]
    rcases h with h | h
    all_goals
      simp only [h, e] at hm
      split at hm
      · simp at hm
      · injection hm with hm
        subst hm
        simp [predict]

/-- C82: labels and rows of different number are refused with `IndexError`. -/
theorem C82_lengths (gw : Matrix (Fin d) (Fin d) K → (Fin d → K) → (Fin d → K) → Except PyErr (Fin d → K))
    (x : List (Fin d → K)) (y : List Int) (h : x.length ≠ y.length) : fit gw x y = .error .indexError := by
  rw [fit, if_pos h]

/-- Non-vacuity of `C82_one_class`: two rows of class 0 in one dimension (a projection function that succeeds). -/
example : ∃ m, fit (fun _ a b => .ok (a - b)) [![(1 : ℚ)], ![3]] [0, 0] = .ok m ∧ rowsOf [![(1 : ℚ)], ![3]] [0, 0] 1 = [] :=
  ⟨_, rfl, by decide +kernel⟩

/-- C82, the part that holds: with both classes present the trained model holds both means, each the centre of gravity of the
rows of its class. -/
theorem C82_two_classes_partial (gw : Matrix (Fin d) (Fin d) K → (Fin d → K) → (Fin d → K) → Except PyErr (Fin d → K))
    (x : List (Fin d → K)) (y : List Int) (m : Trained K d) (hm : fit gw x y = .ok m) (h0 : rowsOf x y 0 ≠ [])
    (h1 : rowsOf x y 1 ≠ []) : ∃ w mu0 mu1, m = ⟨some w, some mu0, some mu1⟩ ∧ IsCentroid (rowsOf x y 0) mu0 ∧
      IsCentroid (rowsOf x y 1) mu1 ∧ gw (scatter (rowsOf x y 0) (rowsOf x y 1) mu0 mu1) mu0 mu1 = .ok w := by
  have hs : ∀ X : List (Fin d → K), X ≠ [] → ∃ v, colMean X = some v := by
    intro X hX
    exact ⟨_, by rw [colMean, if_neg (by simpa using hX)]⟩
  obtain ⟨v0, e0⟩ := hs _ h0
  obtain ⟨v1, e1⟩ := hs _ h1
  rw [fit] at hm
  split at hm
  · simp at hm
  · simp only [e0, e1, Option.getD_some, Option.isSome_some, Bool.and_self, if_true] at hm
    split at hm
    · simp at hm
    · rename_i w hw
      injection hm with hm
      exact ⟨w, v0, v1, hm.symm, C44_means _ _ e0, C44_means _ _ e1, hw⟩

end CML.LDA
