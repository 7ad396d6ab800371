import Verif.Spec.Fisher
import Verif.Props.CCLDA

set_option linter.unusedSectionVars false

/-! # Property C226 (the direction of linear discriminant analysis maximises Fisher's criterion) -/

namespace CML.LDA
open Finset Matrix

variable {K : Type*} [Field K] [LinearOrder K] [IsStrictOrderedRing K] {d : Nat}

theorem spread_eq (v : Fin d → K) (X : List (Fin d → K)) (mu : Fin d → K) : spread v X mu = v ⬝ᵥ (classScatter X mu *ᵥ v) := by
  rw [classScatter_eq]
  induction X with
  | nil => simp [spread, deviations]
  | cons r X ih =>
    have h1 : spread v (r :: X) mu = (v ⬝ᵥ r - v ⬝ᵥ mu) ^ 2 + spread v X mu := by simp [spread]
    have h2 : deviations (r :: X) mu = (r - mu) :: deviations X mu := by simp [deviations]
    rw [h1, ih, h2, List.map_cons, List.sum_cons, add_mulVec, dotProduct_add, outer_quad, dotProduct_sub]
    ring

theorem within_eq (X0 X1 : List (Fin d → K)) (mu0 mu1 v : Fin d → K) :
    within X0 X1 mu0 mu1 v = v ⬝ᵥ (scatter X0 X1 mu0 mu1 *ᵥ v) := by
  rw [within, spread_eq, spread_eq, scatter, add_mulVec, dotProduct_add]

theorem psd_symm {S : Matrix (Fin d) (Fin d) K} (hS : Sᵀ = S) (u v : Fin d → K) : u ⬝ᵥ (S *ᵥ v) = v ⬝ᵥ (S *ᵥ u) := by
  rw [dotProduct_mulVec, ← mulVec_transpose, hS, dotProduct_comm]

/-- A positive semidefinite form that vanishes on `v` kills `v`. -/
theorem psd_zero {S : Matrix (Fin d) (Fin d) K} (hS : IsPSD S) (v : Fin d → K) (h : v ⬝ᵥ (S *ᵥ v) = 0) : S *ᵥ v = 0 := by
  have key : ∀ u : Fin d → K, u ⬝ᵥ (S *ᵥ v) = 0 := by
    intro u
    set q := u ⬝ᵥ (S *ᵥ v) with hq
    set a := u ⬝ᵥ (S *ᵥ u) with ha
    have ha0 : 0 ≤ a := hS.2 u
    have hall : ∀ t : K, 0 ≤ t * t * a + 2 * (t * q) := by
      intro t
      have := hS.2 (t • u + v)
      rw [mulVec_add, mulVec_smul, add_dotProduct, dotProduct_add, dotProduct_add, smul_dotProduct, smul_dotProduct, dotProduct_smul, dotProduct_smul, h, psd_symm hS.1 v u] at this
      simp only [smul_eq_mul] at this
      linarith
    by_contra hne
    have h1 := hall (-q / (a + 1))
    have hp : 0 < a + 1 := by linarith
    have e : -q / (a + 1) * (-q / (a + 1)) * a + 2 * (-q / (a + 1) * q) = - (q * q) * (a + 2) / ((a + 1) * (a + 1)) := by
      field_simp; ring
    rw [e] at h1
    have : - (q * q) * (a + 2) / ((a + 1) * (a + 1)) < 0 := by
      apply div_neg_of_neg_of_pos
      · have : 0 < q * q := mul_self_pos.2 hne
        nlinarith
      · positivity
    linarith
  ext i
  have := key (Pi.single i 1)
  simpa using this

theorem getW_ok {S : Matrix (Fin d) (Fin d) K} {mu0 mu1 w : Fin d → K} (hw : getW S mu0 mu1 = .ok w) :
    S.det ≠ 0 ∧ S *ᵥ w = mu0 - mu1 := by
  have hdet : S.det ≠ 0 := by
    intro h; rw [getW, if_pos h] at hw; simp at hw
  obtain ⟨w', hw', hs⟩ := (C45_get_w_solves S mu0 mu1).1 hdet
  rw [hw] at hw'
  injection hw' with hw'
  subst hw'
  exact ⟨hdet, hs⟩

theorem form_pos {S : Matrix (Fin d) (Fin d) K} (hS : IsPSD S) (hdet : S.det ≠ 0) {v : Fin d → K} (hv : v ≠ 0) : 0 < v ⬝ᵥ (S *ᵥ v) := by
  refine lt_of_le_of_ne (hS.2 v) fun h => hv ?_
  have hz := psd_zero hS v h.symm
  have : S⁻¹ *ᵥ (S *ᵥ v) = 0 := by rw [hz, mulVec_zero]
  rwa [mulVec_mulVec, nonsing_inv_mul _ (isUnit_iff_ne_zero.2 hdet), one_mulVec] at this

/-- C226: the vector of `get_w` is a best direction of Fisher's criterion, whenever the classes have different centres. -/
theorem C226_get_w (X0 X1 : List (Fin d → K)) (mu0 mu1 w : Fin d → K) (hne : mu0 ≠ mu1)
    (hw : getW (scatter X0 X1 mu0 mu1) mu0 mu1 = .ok w) : BestDirection X0 X1 mu0 mu1 w := by
  have hS := C44_scatter_psd X0 X1 mu0 mu1
  obtain ⟨hdet, hs⟩ := getW_ok hw
  unfold BestDirection fisher
  simp only [within_eq]
  set S := scatter X0 X1 mu0 mu1
  have hw0 : w ≠ 0 := by
    rintro rfl
    rw [mulVec_zero] at hs
    exact hne (sub_eq_zero.1 hs.symm)
  have hpos := form_pos hS hdet hw0
  refine ⟨hpos, fun v hv => ?_⟩
  have e : ∀ u : Fin d → K, u ⬝ᵥ mu0 - u ⬝ᵥ mu1 = u ⬝ᵥ (S *ᵥ w) := fun u => by rw [hs, dotProduct_sub]
  rw [e, e, div_le_div_iff₀ hv hpos]
  set q := w ⬝ᵥ (S *ᵥ w) with hq
  set p := v ⬝ᵥ (S *ᵥ w) with hp
  have h0 := hS.2 (q • v - p • w)
  rw [mulVec_sub, mulVec_smul, mulVec_smul, sub_dotProduct, dotProduct_sub, dotProduct_sub, smul_dotProduct, smul_dotProduct, smul_dotProduct, smul_dotProduct,
    dotProduct_smul, dotProduct_smul, dotProduct_smul, dotProduct_smul, psd_symm hS.1 w v, ← hp, ← hq] at h0
  simp only [smul_eq_mul] at h0
  have h1 : 0 ≤ q * (q * (v ⬝ᵥ (S *ᵥ v)) - p * p) := by
    refine h0.trans_eq ?_; ring
  have h2 : 0 ≤ q * (v ⬝ᵥ (S *ᵥ v)) - p * p := nonneg_of_mul_nonneg_right h1 hpos
  nlinarith

/-- C226: it is the only one, up to its length and sign. -/
theorem C226_unique (X0 X1 : List (Fin d → K)) (mu0 mu1 w : Fin d → K) (hne : mu0 ≠ mu1)
    (hw : getW (scatter X0 X1 mu0 mu1) mu0 mu1 = .ok w) (v : Fin d → K) :
    BestDirection X0 X1 mu0 mu1 v ↔ ∃ c : K, c ≠ 0 ∧ v = c • w := by
  have hS := C44_scatter_psd X0 X1 mu0 mu1
  obtain ⟨hdet, hs⟩ := getW_ok hw
  have hbest := C226_get_w X0 X1 mu0 mu1 w hne hw
  unfold BestDirection fisher at *
  simp only [within_eq] at *
  set S := scatter X0 X1 mu0 mu1
  have e : ∀ u : Fin d → K, u ⬝ᵥ mu0 - u ⬝ᵥ mu1 = u ⬝ᵥ (S *ᵥ w) := fun u => by rw [hs, dotProduct_sub]
  simp only [e] at *
  constructor
  · rintro ⟨hv, hmax⟩
    have h1 := hmax w hbest.1
    set q := w ⬝ᵥ (S *ᵥ w) with hq
    set p := v ⬝ᵥ (S *ᵥ w) with hp
    set a := v ⬝ᵥ (S *ᵥ v) with ha
    have hq0 := hbest.1
    rw [div_le_div_iff₀ hq0 hv] at h1
    have h2 : q * a ≤ p * p := by
      have : q * (q * a) ≤ q * (p * p) := by nlinarith
      exact le_of_mul_le_mul_left this hq0
    have hz : (q • v - p • w) ⬝ᵥ (S *ᵥ (q • v - p • w)) = 0 := by
      refine le_antisymm ?_ (hS.2 _)
      rw [mulVec_sub, mulVec_smul, mulVec_smul, sub_dotProduct, dotProduct_sub, dotProduct_sub, smul_dotProduct, smul_dotProduct, smul_dotProduct, smul_dotProduct,
        dotProduct_smul, dotProduct_smul, dotProduct_smul, dotProduct_smul, psd_symm hS.1 w v, ← hp, ← hq, ← ha]
      simp only [smul_eq_mul]
      have : q * (q * a) - q * (p * p) ≤ 0 := by nlinarith
      linarith
    have hv0 : q • v - p • w = 0 := by
      by_contra hne0
      exact absurd hz (ne_of_gt (form_pos hS hdet hne0))
    have hp0 : p ≠ 0 := by
      intro h0
      rw [h0] at h2
      have := mul_pos hq0 hv
      linarith
    refine ⟨p / q, div_ne_zero hp0 hq0.ne', ?_⟩
    have : v = q⁻¹ • (p • w) := by
      rw [← sub_eq_zero.1 hv0, smul_smul, inv_mul_cancel₀ hq0.ne', one_smul]
    rw [this, smul_smul, div_eq_inv_mul]
  · rintro ⟨c, hc, rfl⟩
    have e1 : (c • w) ⬝ᵥ (S *ᵥ (c • w)) = c * c * (w ⬝ᵥ (S *ᵥ w)) := by
      rw [mulVec_smul, smul_dotProduct, dotProduct_smul, smul_eq_mul, smul_eq_mul]; ring
    have e2 : (c • w) ⬝ᵥ (S *ᵥ w) = c * (w ⬝ᵥ (S *ᵥ w)) := by rw [smul_dotProduct, smul_eq_mul]
    have hcc : 0 < c * c := mul_self_pos.2 hc
    rw [e1, e2]
    refine ⟨mul_pos hcc hbest.1, fun u hu => (hbest.2 u hu).trans_eq ?_⟩
    have := hbest.1
    field_simp

/-- C226 for a trained model: `fit` with the exact projection function leaves a best direction of the data it has seen. -/
theorem C226_fit (x : List (Fin d → K)) (y : List Int) (m : Trained K d) (mu0 mu1 : Fin d → K) (hf : fit getW x y = .ok m)
    (h0 : m.mu0 = some mu0) (h1 : m.mu1 = some mu1) (hne : mu0 ≠ mu1) :
    ∃ w, m.w = some w ∧ BestDirection (rowsOf x y 0) (rowsOf x y 1) mu0 mu1 w := by
  unfold fit at hf
  split at hf
  · simp at hf
  · dsimp only at hf
    cases e0 : colMean (rowsOf x y 0) with
    | none =>
      rw [e0] at hf
      split at hf
      · simp at hf
      · injection hf with hf; subst hf; simp at h0
    | some a =>
      cases e1 : colMean (rowsOf x y 1) with
      | none =>
        rw [e1] at hf
        split at hf
        · simp at hf
        · injection hf with hf; subst hf; simp at h1
      | some b =>
        rw [e0, e1] at hf
        simp only [Option.getD_some] at hf
        split at hf
        · simp at hf
        · rename_i w hw
          injection hf with hf
          subst hf
          simp only [Option.some.injEq] at h0 h1
          subst h0; subst h1
          exact ⟨w, rfl, C226_get_w _ _ _ _ _ hne hw⟩

/-- A training set of correlated features on which `fit` succeeds with different centres. -/
example : ∃ m, fit getW [(![0, 0] : Fin 2 → ℚ), ![2, 1], ![1, 2], ![4, 0], ![6, 1], ![5, 2]] [0, 0, 0, 1, 1, 1] = .ok m ∧
    m.mu0 = some ![1, 1] ∧ m.mu1 = some ![5, 1] := by
  have e0 : rowsOf [(![0, 0] : Fin 2 → ℚ), ![2, 1], ![1, 2], ![4, 0], ![6, 1], ![5, 2]] [0, 0, 0, 1, 1, 1] 0 = [![0, 0], ![2, 1], ![1, 2]] := rfl
  have e1 : rowsOf [(![0, 0] : Fin 2 → ℚ), ![2, 1], ![1, 2], ![4, 0], ![6, 1], ![5, 2]] [0, 0, 0, 1, 1, 1] 1 = [![4, 0], ![6, 1], ![5, 2]] := rfl
  have m0 : colMean [(![0, 0] : Fin 2 → ℚ), ![2, 1], ![1, 2]] = some ![1, 1] := by decide +kernel
  have m1 : colMean [(![4, 0] : Fin 2 → ℚ), ![6, 1], ![5, 2]] = some ![5, 1] := by decide +kernel
  have hd : (scatter [(![0, 0] : Fin 2 → ℚ), ![2, 1], ![1, 2]] [![4, 0], ![6, 1], ![5, 2]] ![1, 1] ![5, 1]).det ≠ 0 := by
    rw [det_fin_two]; decide +kernel
  unfold fit
  rw [if_neg (by decide)]
  simp only [e0, e1, m0, m1, Option.getD_some]
  rw [getW, if_neg hd]
  exact ⟨_, rfl, rfl, rfl⟩

/-! ## What the engines compute -/

theorem scatter_shifted (X0 X1 : List (Fin d → K)) (mu0 mu1 t : Fin d → K) :
    scatter X0 (shifted t X1) mu0 (mu1 + t) = scatter X0 X1 mu0 mu1 := by
  unfold scatter shifted
  congr 1
  ext a b
  simp [classScatter, Function.comp_def]

/-- C226 is false of the Python engine: for EVERY two classes whose features are correlated within the classes, whatever decomposition is returned, there is a
distance of the classes for which the vector of the trained model is not a best direction. -/
theorem C226_python_violated (svd : Matrix (Fin d) (Fin d) K → SVD K d) (X0 X1 : List (Fin d → K)) (mu0 mu1 : Fin d → K)
    (hdet : (scatter X0 X1 mu0 mu1).det ≠ 0) (a b : Fin d) (hab : a ≠ b) (hS : scatter X0 X1 mu0 mu1 a b ≠ 0) :
    ∃ t, mu0 ≠ mu1 + t ∧ ∀ w, getWV2 svd (scatter X0 (shifted t X1) mu0 (mu1 + t)) mu0 (mu1 + t) = .ok w →
      ¬ BestDirection X0 (shifted t X1) mu0 (mu1 + t) w := by
  refine ⟨mu0 - mu1 - Pi.single b 1, ?_, ?_⟩
  · intro h
    have := congrFun h b
    simp at this
    linarith
  · set t := mu0 - mu1 - Pi.single b 1 with ht
    have hd : mu0 - (mu1 + t) = Pi.single b 1 := by rw [ht]; abel
    have hne : mu0 ≠ mu1 + t := by
      intro h
      rw [sub_eq_zero.2 h] at hd
      have := congrFun hd b
      simp at this
    intro w hw hbest
    obtain ⟨v, hv, hs⟩ := (C45_get_w_solves (scatter X0 (shifted t X1) mu0 (mu1 + t)) mu0 (mu1 + t)).1 (by rwa [scatter_shifted])
    obtain ⟨c, hc, hwc⟩ := (C226_unique X0 (shifted t X1) mu0 (mu1 + t) v hne hv w).1 hbest
    rw [getWV2] at hw
    split at hw
    · simp at hw
    · injection hw with hw
      rw [scatter_shifted] at hs hw
      rw [hd] at hs hw
      have e : scatter X0 X1 mu0 mu1 *ᵥ w = c • Pi.single b 1 := by rw [hwc, mulVec_smul, hs]
      rw [← hw, pseudoInv_eq, diagonal_mulVec_single, mul_one, mulVec_single] at e
      have ea := congrFun e a
      have eb := congrFun e b
      simp [Pi.single_apply, hab] at ea eb
      rcases ea with h | h
      · grind
      · grind

/-- The hypotheses are met by two correlated classes. -/
example : (scatter [(![0, 0] : Fin 2 → ℚ), ![2, 1], ![1, 2]] [![4, 0], ![6, 1], ![5, 2]] ![1, 1] ![5, 1]) 0 1 ≠ 0 ∧
    (scatter [(![0, 0] : Fin 2 → ℚ), ![2, 1], ![1, 2]] [![4, 0], ![6, 1], ![5, 2]] ![1, 1] ![5, 1]).det ≠ 0 := by
  constructor
  · decide +kernel
  · rw [det_fin_two]; decide +kernel

/-- C226 is false of the C++ engine: for two uncorrelated features of different spread, whatever decomposition is returned, the vector is NEVER a best direction
unless the centres agree in one of the features. -/
theorem C226_cc_violated (svd : Matrix (Fin 2) (Fin 2) K → SVD K 2) (X0 X1 : List (Fin 2 → K)) (mu0 mu1 : Fin 2 → K) (a b : K) (ha : 0 < a) (hb : 0 < b)
    (hab : a ≠ b) (hS : scatter X0 X1 mu0 mu1 = !![a, 0; 0, b]) (h : IsSVD (!![a, 0; 0, b]) (svd !![a, 0; 0, b])) (h0 : mu0 0 ≠ mu1 0)
    (h1 : mu0 1 ≠ mu1 1) : ¬ BestDirection X0 X1 mu0 mu1 (getWCC svd (scatter X0 X1 mu0 mu1) mu0 mu1) := by
  intro hbest
  have hdet : (scatter X0 X1 mu0 mu1).det ≠ 0 := by
    rw [hS, det_fin_two]; simp; exact ⟨ha.ne', hb.ne'⟩
  obtain ⟨v, hv, hs⟩ := (C45_get_w_solves (scatter X0 X1 mu0 mu1) mu0 mu1).1 hdet
  obtain ⟨c, hc, hwc⟩ := (C226_unique X0 X1 mu0 mu1 v (fun hh => h0 (by rw [hh])) hv _).1 hbest
  rw [hS] at hwc hs
  apply CC.C147_wrong_line ha hb hab svd h mu0 mu1 h0 h1 c⁻¹
  rw [hwc, smul_smul, inv_mul_cancel₀ hc, one_smul, hs]

/-- C226, the part that holds on the Python engine: uncorrelated features in the order of descending variance (both factors of the decomposition diagonal). -/
theorem C226_python_partial (svd : Matrix (Fin d) (Fin d) K → SVD K d) (X0 X1 : List (Fin d → K)) (mu0 mu1 w : Fin d → K) (hne : mu0 ≠ mu1)
    (hsvd : IsSVD (scatter X0 X1 mu0 mu1) (svd (scatter X0 X1 mu0 mu1)))
    (hU : ∀ i j, i ≠ j → (svd (scatter X0 X1 mu0 mu1)).U i j = 0) (hV : ∀ i j, i ≠ j → (svd (scatter X0 X1 mu0 mu1)).Vt i j = 0)
    (hw : getWV2 svd (scatter X0 X1 mu0 mu1) mu0 mu1 = .ok w) : BestDirection X0 X1 mu0 mu1 w := by
  have hdet : (scatter X0 X1 mu0 mu1).det ≠ 0 := by
    intro h
    rw [(C45_v2_singular svd _ mu0 mu1 hsvd).1 h] at hw
    simp at hw
  have hsig : ∀ i, (svd (scatter X0 X1 mu0 mu1)).Sigma i ≠ 0 := by
    intro i hi
    rw [getWV2, if_pos ⟨i, hi⟩] at hw
    simp at hw
  obtain ⟨w', hw', hs'⟩ := C45_v2_partial svd _ mu0 mu1 hsvd hU hV hsig
  rw [hw] at hw'
  injection hw' with hw'
  subst hw'
  apply C226_get_w _ _ _ _ _ hne
  rw [getW, if_neg hdet, ← hs', mulVec_mulVec, nonsing_inv_mul _ (isUnit_iff_ne_zero.2 hdet), one_mulVec]

end CML.LDA
