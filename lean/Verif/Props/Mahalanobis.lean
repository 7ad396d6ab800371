import Verif.Spec.Pooled
import Verif.Props.Fisher
import Verif.Props.Regions

set_option linter.unusedSectionVars false

/-! # Property C340: linear discriminant analysis and the Mahalanobis distance

linear_discriminant_analysis.py:31-84, ops.py:550-624, gaussian_mixture.py:141-172.
-/

namespace CML.LDA
open Finset Matrix

variable {K : Type*} [Field K] [LinearOrder K] [IsStrictOrderedRing K] {d : Nat}

/-- What the second distance has over the first is linear in the row. -/
lemma maha_diff {S : Matrix (Fin d) (Fin d) K} (hsym : Sᵀ = S) (hdet : S.det ≠ 0) (mu0 mu1 w : Fin d → K) (hw : S *ᵥ w = mu0 - mu1) (r : Fin d → K) :
    maha S r mu1 - maha S r mu0 = 2 * (w ⬝ᵥ r) - w ⬝ᵥ (mu0 + mu1) := by
  have hT : (S⁻¹)ᵀ = S⁻¹ := by rw [transpose_nonsing_inv, hsym]
  have hw' : S⁻¹ *ᵥ (mu0 - mu1) = w := by rw [← hw, mulVec_mulVec, nonsing_inv_mul _ (isUnit_iff_ne_zero.2 hdet), one_mulVec]
  have e : r - mu1 = (r - mu0) + (mu0 - mu1) := by abel
  have hs : (mu0 - mu1) ⬝ᵥ (S⁻¹ *ᵥ (r - mu0)) = w ⬝ᵥ (r - mu0) := by
    rw [dotProduct_mulVec, ← mulVec_transpose, hT, hw']
  unfold maha
  rw [e, mulVec_add, hw', add_dotProduct, dotProduct_add, dotProduct_add, hs, dotProduct_comm (r - mu0) w, dotProduct_comm (mu0 - mu1) w]
  simp only [dotProduct_sub, dotProduct_add]
  ring

/-- **C340** (a projection vector that solves its equation). Every row is answered by the class whose centre is nearer in the Mahalanobis distance of the pooled scatter matrix; a tie is answered
by 0. Missing: the same for the functions the engines use (`C340_violated`, C45, C147). -/
theorem C340_mahalanobis_partial (X0 X1 : List (Fin d → K)) (mu0 mu1 w : Fin d → K) (hdet : (pooled X0 X1 mu0 mu1).det ≠ 0) (hw : pooled X0 X1 mu0 mu1 *ᵥ w = mu0 - mu1)
    (x : List (Fin d → K)) :
    predict ⟨some w, some mu0, some mu1⟩ x = x.map fun r => if maha (pooled X0 X1 mu0 mu1) r mu1 < maha (pooled X0 X1 mu0 mu1) r mu0 then 1 else 0 := by
  have hpsd : IsPSD (pooled X0 X1 mu0 mu1) := by
    have := C44_scatter_psd X0 X1 mu0 mu1
    rwa [C44_sum_of_outer_products] at this
  unfold predict
  refine List.map_congr_left fun r _ => ?_
  have h1 := C46_half_space w mu0 mu1 r
  simp only [predict, List.map_cons, List.map_nil, List.cons.injEq, and_true] at h1
  have h01 : predictRow w mu0 mu1 r = 1 ∨ predictRow w mu0 mu1 r = 0 := by
    simp only [predictRow]; split <;> simp
  have hd := maha_diff hpsd.1 hdet mu0 mu1 w hw r
  have hiff : predictRow w mu0 mu1 r = 1 ↔ maha (pooled X0 X1 mu0 mu1) r mu1 < maha (pooled X0 X1 mu0 mu1) r mu0 := by
    rw [h1, ← sub_neg (a := maha (pooled X0 X1 mu0 mu1) r mu1), hd]
    by_cases hw0 : w = 0
    · subst hw0; simp
    · have hpos : 0 < w ⬝ᵥ (mu0 - mu1) := by rw [← hw]; exact form_pos hpsd hdet hw0
      constructor
      · intro h
        by_contra hn
        exact absurd (mul_nonneg hpos.le (not_lt.1 hn)) (not_le.2 h)
      · exact fun h => mul_neg_of_pos_of_neg hpos h
  show predictRow w mu0 mu1 r = _
  by_cases h : maha (pooled X0 X1 mu0 mu1) r mu1 < maha (pooled X0 X1 mu0 mu1) r mu0
  · rw [if_pos h]; exact hiff.2 h
  · rw [if_neg h]; exact h01.resolve_left fun h' => h (hiff.1 h')

/-- The same for a model trained by `fit` with a projection function that solves its equation. -/
theorem C340_fit_partial (gw : Matrix (Fin d) (Fin d) K → (Fin d → K) → (Fin d → K) → Except PyErr (Fin d → K))
    (hgw : ∀ S a b w, gw S a b = .ok w → S.det ≠ 0 ∧ S *ᵥ w = a - b) (x : List (Fin d → K)) (y : List Int) (m : Trained K d) (hf : fit gw x y = .ok m)
    (h0 : rowsOf x y 0 ≠ []) (h1 : rowsOf x y 1 ≠ []) : ∃ mu0 mu1, IsCentroid (rowsOf x y 0) mu0 ∧ IsCentroid (rowsOf x y 1) mu1 ∧
      ∀ z, predict m z = z.map fun r =>
        if maha (pooled (rowsOf x y 0) (rowsOf x y 1) mu0 mu1) r mu1 < maha (pooled (rowsOf x y 0) (rowsOf x y 1) mu0 mu1) r mu0 then 1 else 0 := by
  have hs : ∀ X : List (Fin d → K), X ≠ [] → ∃ v, colMean X = some v := fun X hX => ⟨_, by rw [colMean, if_neg (by simpa using hX)]⟩
  obtain ⟨mu0, e0⟩ := hs _ h0
  obtain ⟨mu1, e1⟩ := hs _ h1
  refine ⟨mu0, mu1, C44_means _ _ e0, C44_means _ _ e1, fun z => ?_⟩
  unfold fit at hf
  split at hf
  · simp at hf
  · dsimp only at hf
    rw [e0, e1] at hf
    simp only [Option.getD_some] at hf
    split at hf
    · simp at hf
    · rename_i w hw
      obtain ⟨hdet, hsol⟩ := hgw _ _ _ _ hw
      rw [C44_sum_of_outer_products] at hdet hsol
      injection hf with hf
      subst hf
      exact C340_mahalanobis_partial _ _ mu0 mu1 w hdet hsol z

/-- The hypothesis on the projection function holds for `get_w_v1` of the backend. -/
example : ∀ (S : Matrix (Fin d) (Fin d) K) (a b w : Fin d → K), getW S a b = .ok w → S.det ≠ 0 ∧ S *ᵥ w = a - b := fun _ _ _ _ h => getW_ok h

/-- **C340** (violated by the Python engine). On this data set the centre of class 1 is answered by 0, whatever decomposition is returned, although its distance from class 1 is 0 and its
distance from class 0 is not. -/
theorem C340_violated (svd : Matrix (Fin 2) (Fin 2) ℚ → SVD ℚ 2) (h : IsSVD (!![2, 0; 0, 8]) (svd !![2, 0; 0, 8])) (m : Trained ℚ 2)
    (hm : fit (getWV2 svd) [![1, 0], ![-1, 0], ![0, 12], ![0, 8]] [0, 0, 1, 1] = .ok m) :
    predict m [![0, 10]] = [0] ∧ maha (!![2, 0; 0, 8] : Matrix (Fin 2) (Fin 2) ℚ) ![0, 10] ![0, 10] < maha (!![2, 0; 0, 8] : Matrix (Fin 2) (Fin 2) ℚ) ![0, 10] ![0, 0] := by
  obtain ⟨-, -, h3⟩ := C81_violated svd h m hm
  refine ⟨?_, ?_⟩
  · simp only [predict, List.map_cons, List.map_nil, List.cons.injEq] at h3 ⊢
    exact h3.2
  · have : (!![2, 0; 0, 8] : Matrix (Fin 2) (Fin 2) ℚ)⁻¹ = !![1 / 2, 0; 0, 1 / 8] :=
      Matrix.inv_eq_right_inv (by ext i j; fin_cases i <;> fin_cases j <;> norm_num [Matrix.mul_apply, Fin.sum_univ_two])
    unfold maha
    rw [this]
    norm_num [mulVec, dotProduct, Fin.sum_univ_two]

/-- **C340** (and the Gaussian mixture). A mixture of two components with the centres of the classes as means, equal coefficients and the pooled scatter, divided by any number, as common
covariance assigns the rows as linear discriminant analysis with a projection vector that solves its equation. -/
theorem C340_mixture_partial (X0 X1 : List (Fin d → ℝ)) (mu0 mu1 w : Fin d → ℝ) (hdet : 0 < (pooled X0 X1 mu0 mu1).det) (hw : pooled X0 X1 mu0 mu1 *ᵥ w = mu0 - mu1) (N : ℝ) (hN : 0 < N)
    {n : Nat} (x : Fin n → Fin d → ℝ) :
    ∃ c, GMM.predict (GMM.normalDensity id) ⟨fun i : Fin 2 => if i = 0 then mu0 else mu1, fun _ a b => pooled X0 X1 mu0 mu1 a b / N, fun _ => 1 / 2⟩ x = some c ∧
      ∀ j, predict ⟨some w, some mu0, some mu1⟩ [x j] = [if c j = some 1 then 1 else 0] ∧ (c j = some 0 ∨ c j = some 1) := by
  set S := pooled X0 X1 mu0 mu1 with hSdef
  have hof : (Matrix.of fun a b => S a b / N) = N⁻¹ • S := by
    ext a b; simp [div_eq_inv_mul]
  have hpos : 0 < (Matrix.of fun a b => S a b / N).det := by
    rw [hof, Matrix.det_smul]; positivity
  have hinv : (Matrix.of fun a b => S a b / N)⁻¹ = N • S⁻¹ := by
    rw [hof]
    refine Matrix.inv_eq_right_inv ?_
    rw [smul_mul_smul_comm, inv_mul_cancel₀ hN.ne', one_smul, mul_nonsing_inv _ (isUnit_iff_ne_zero.2 hdet.ne')]
  have hm : ∀ r m : Fin d → ℝ, dotProduct (r - m) ((Matrix.of fun a b => S a b / N)⁻¹.mulVec (r - m)) = N * maha S r m := by
    intro r m
    rw [hinv, smul_mulVec, dotProduct_smul, smul_eq_mul]; rfl
  obtain ⟨c, hc, h⟩ := GMM.C339_nearest (k := 2) ⟨fun i : Fin 2 => if i = 0 then mu0 else mu1, fun _ a b => S a b / N, fun _ => 1 / 2⟩ (by decide) (1 / 2) (by norm_num) (fun _ => rfl)
    (fun a b => S a b / N) hpos (fun _ => rfl) x
  refine ⟨c, hc, fun j => ?_⟩
  obtain ⟨i, h1, h2, h3⟩ := h j
  simp only [hm, mul_le_mul_iff_right₀ hN, mul_lt_mul_iff_right₀ hN] at h2 h3
  rw [C340_mahalanobis_partial X0 X1 mu0 mu1 w hdet.ne' hw [x j], h1]
  match i, h2, h3 with
  | 0, h2, _ =>
    have := h2 1
    simp only [if_true, Fin.isValue, one_ne_zero, if_false] at this
    refine ⟨?_, Or.inl rfl⟩
    simp only [List.map_cons, List.map_nil]
    rw [if_neg (not_lt.2 this), if_neg (by simp)]
  | 1, _, h3 =>
    have := h3 0 (by decide)
    simp only [if_true, Fin.isValue, one_ne_zero, if_false] at this
    refine ⟨?_, Or.inr rfl⟩
    simp only [List.map_cons, List.map_nil]
    rw [if_pos this, if_pos (by simp)]

/-- Non-vacuity of `C340_mahalanobis_partial` and `C340_mixture_partial`: two classes and the vector that solves their equation. -/
example : (0 : ℚ) < (pooled [![(0 : ℚ), 1], ![0, -1]] [![5, 0], ![3, 0]] ![0, 0] ![4, 0]).det ∧
    pooled [![(0 : ℚ), 1], ![0, -1]] [![5, 0], ![3, 0]] ![0, 0] ![4, 0] *ᵥ ![-2, 0] = ![0, 0] - ![4, 0] := by
  refine ⟨by rw [det_fin_two]; decide +kernel, by decide +kernel⟩

end CML.LDA
