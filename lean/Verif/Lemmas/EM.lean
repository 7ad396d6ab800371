import Verif.Lemmas.GMM
import Verif.Spec.EM
import Mathlib.Analysis.Matrix.Order
import Mathlib.Analysis.Matrix.PosDef
import Mathlib.Analysis.SpecialFunctions.Log.Basic
import Mathlib.Tactic.LinearCombination

/-! # Lemmas for the monotonicity of the EM algorithm -/

set_option linter.unusedSectionVars false

namespace CML.GMM
open Finset Matrix

variable {n k d : Nat}

/-- `log det T - log det S ≤ tr (S⁻¹ T) - d` for positive definite matrices. -/
theorem log_det_le (S T : Matrix (Fin d) (Fin d) ℝ) (hS : S.PosDef) (hT : T.PosDef) :
    Real.log T.det + d ≤ Real.log S.det + (S⁻¹ * T).trace := by
  open scoped MatrixOrder in
  obtain ⟨B, hB⟩ := CStarAlgebra.nonneg_iff_eq_star_mul_self.mp hS.inv.posSemidef.nonneg
  rw [Matrix.star_eq_conjTranspose] at hB
  have hSd := hS.det_pos
  have hTd := hT.det_pos
  have hBd : B.det * B.det = (S.det)⁻¹ := by
    have := congrArg Matrix.det hB
    rw [Matrix.det_mul, Matrix.det_conjTranspose, Matrix.det_nonsing_inv] at this
    simpa using this.symm
  have hM0 : (B * T * Bᴴ).PosSemidef := hT.posSemidef.mul_mul_conjTranspose_same B
  have hMd : (B * T * Bᴴ).det = T.det / S.det := by
    rw [Matrix.det_mul, Matrix.det_mul, Matrix.det_conjTranspose]
    simp only [star_trivial]
    rw [show B.det * T.det * B.det = B.det * B.det * T.det by ring, hBd]
    field_simp
  have hM : (B * T * Bᴴ).PosDef := hM0.posDef_iff_det_ne_zero.2 (by rw [hMd]; positivity)
  have htr : (B * T * Bᴴ).trace = (S⁻¹ * T).trace := by
    rw [hB, Matrix.mul_assoc, Matrix.trace_mul_comm, Matrix.mul_assoc, ← Matrix.trace_mul_comm]
  have h1 : Real.log (B * T * Bᴴ).det ≤ (B * T * Bᴴ).trace - d := by
    rw [hM.1.det_eq_prod_eigenvalues, hM.1.trace_eq_sum_eigenvalues]
    simp only [RCLike.ofReal_real_eq_id, id]
    rw [Real.log_prod fun i _ => (hM.eigenvalues_pos i).ne']
    calc ∑ i, Real.log (hM.1.eigenvalues i) ≤ ∑ i, (hM.1.eigenvalues i - 1) :=
          sum_le_sum fun i _ => Real.log_le_sub_one_of_pos (hM.eigenvalues_pos i)
      _ = _ := by simp [sum_sub_distrib]
  rw [hMd, Real.log_div hTd.ne' hSd.ne', htr] at h1
  linarith

/-- Quadratic form of a matrix. -/
def qf (A : Matrix (Fin d) (Fin d) ℝ) (v : Fin d → ℝ) : ℝ := ∑ a, ∑ b, v a * A a b * v b

theorem qf_eq (A : Matrix (Fin d) (Fin d) ℝ) (v : Fin d → ℝ) : qf A v = v ⬝ᵥ A *ᵥ v := by
  simp only [qf, dotProduct, mulVec, mul_sum]
  exact sum_congr rfl fun a _ => sum_congr rfl fun b _ => by ring

theorem qf_nonneg {A : Matrix (Fin d) (Fin d) ℝ} (hA : A.PosSemidef) (v : Fin d → ℝ) : 0 ≤ qf A v := by
  rw [qf_eq]
  have := hA.dotProduct_mulVec_nonneg v
  simpa using this

/-- Weighted sums of quadratic forms are traces, and the weighted mean is the best centre. -/
theorem sum_qf (A : Matrix (Fin d) (Fin d) ℝ) (x : Fin n → Fin d → ℝ) (w : Fin n → ℝ) (N : ℝ) (hN : N = ∑ j, w j)
    (m : Fin d → ℝ) (hm : ∀ a, N * m a = ∑ j, w j * x j a) (S : Matrix (Fin d) (Fin d) ℝ)
    (hS : ∀ a b, N * S a b = ∑ j, w j * ((x j a - m a) * (x j b - m b))) (c : Fin d → ℝ) :
    ∑ j, w j * qf A (fun a => x j a - c a) = N * (A * S).trace + N * qf A (fun a => m a - c a) := by
  have hz : ∀ a, ∑ j, w j * (x j a - m a) = 0 := by
    intro a
    simp only [mul_sub, sum_sub_distrib, ← sum_mul]
    rw [← hm, ← hN]; ring
  have hS' : ∀ a b, S a b = S a b := fun _ _ => rfl
  have key : ∀ a b, ∑ j, w j * ((x j a - c a) * A a b * (x j b - c b)) =
      A a b * (N * S b a) + N * ((m a - c a) * A a b * (m b - c b)) := by
    intro a b
    have e : ∀ j, w j * ((x j a - c a) * A a b * (x j b - c b)) =
        A a b * (w j * ((x j b - m b) * (x j a - m a))) + A a b * (m b - c b) * (w j * (x j a - m a)) +
        A a b * (m a - c a) * (w j * (x j b - m b)) + (m a - c a) * A a b * (m b - c b) * w j := by
      intro j; ring
    simp only [e, sum_add_distrib, ← mul_sum]
    rw [hz, hz, ← hS, ← hN]; ring
  have e1 : ∑ j, w j * qf A (fun a => x j a - c a) = ∑ a, ∑ b, ∑ j, w j * ((x j a - c a) * A a b * (x j b - c b)) := by
    simp only [qf, mul_sum]
    rw [sum_comm]
    refine sum_congr rfl fun a _ => ?_
    rw [sum_comm]
  rw [e1]
  simp only [key, sum_add_distrib, qf, mul_sum, Matrix.trace, Matrix.diag, Matrix.mul_apply]
  congr 1
  refine sum_congr rfl fun a _ => sum_congr rfl fun b _ => by ring

/-- The density the code computes is the textbook one. -/
theorem normalDensity_eq (u m : Fin d → ℝ) (s : Fin d → Fin d → ℝ) (hs : 0 < (Matrix.of s).det) :
    normalDensity id u m s = some (gaussian m (Matrix.of s) u) := by
  have hpi : (0 : ℝ) < 2 * Real.pi := by positivity
  have e : 1 / (Real.sqrt (Matrix.det (Matrix.of s)) * (2 * Real.pi) ^ ((d : ℝ) / 2)) *
      Real.exp (-1 / 2 * ∑ a, ∑ b, (u a - m a) * (Matrix.of s)⁻¹ a b * (u b - m b)) = gaussian m (Matrix.of s) u := by
    unfold gaussian
    rw [← qf_eq, mul_comm ((2 * Real.pi) ^ d), Real.sqrt_mul hs.le]
    have h2 : Real.sqrt ((2 * Real.pi) ^ d) = (2 * Real.pi) ^ ((d : ℝ) / 2) := by
      rw [Real.sqrt_eq_rpow, ← Real.rpow_natCast, ← Real.rpow_mul hpi.le]
      congr 1; ring
    rw [h2, div_mul_eq_mul_div, one_mul]
    congr 2
    simp only [qf, Pi.sub_apply]; ring
  unfold normalDensity
  rw [if_neg (not_le.2 hs)]
  simp only [id]
  rw [e, if_neg]
  have : 0 < gaussian m (Matrix.of s) u := by unfold gaussian; positivity
  exact this.ne'

theorem gaussian_pos (m : Fin d → ℝ) (S : Matrix (Fin d) (Fin d) ℝ) (hS : 0 < S.det) (u : Fin d → ℝ) :
    0 < gaussian m S u := by unfold gaussian; positivity

theorem log_gaussian (m : Fin d → ℝ) (S : Matrix (Fin d) (Fin d) ℝ) (hS : 0 < S.det) (u : Fin d → ℝ) :
    Real.log (gaussian m S u) = -(1/2) * qf S⁻¹ (fun a => u a - m a) - (1/2) * Real.log S.det
      - (1/2) * Real.log ((2 * Real.pi) ^ d) := by
  have h1 : (0 : ℝ) < (2 * Real.pi) ^ d := by positivity
  unfold gaussian
  rw [Real.log_div (Real.exp_ne_zero _) (by positivity), Real.log_exp, Real.log_sqrt (by positivity),
    Real.log_mul h1.ne' hS.ne', ← qf_eq]
  have : qf S⁻¹ (u - m) = qf S⁻¹ (fun a => u a - m a) := rfl
  rw [this]; ring

theorem normalDensity_some {u m : Fin d → ℝ} {s : Fin d → Fin d → ℝ} {p : ℝ} (h : normalDensity id u m s = some p) :
    0 < (Matrix.of s).det ∧ p = gaussian m (Matrix.of s) u := by
  by_cases hs : 0 < (Matrix.of s).det
  · rw [normalDensity_eq u m s hs] at h
    exact ⟨hs, (Option.some.inj h).symm⟩
  · unfold normalDensity at h
    rw [if_pos (not_lt.1 hs)] at h
    simp at h

/-- The minorisation of the log-likelihood (Jensen's inequality), for one sample. -/
theorem jensen_row (r s g : Fin k → ℝ) (hr : ∀ i, 0 < r i) (hs : ∀ i, 0 < s i)
    (hg : ∀ i, g i = r i / ∑ i, r i) (hk : 0 < ∑ i, r i) (hk' : 0 < ∑ i, s i) :
    ∑ i, g i * (Real.log (s i) - Real.log (r i)) ≤ Real.log (∑ i, s i) - Real.log (∑ i, r i) := by
  have hg1 : ∑ i, g i = 1 := by simp only [hg]; rw [← sum_div, div_self hk.ne']
  have hgp : ∀ i, 0 < g i := fun i => by rw [hg]; exact div_pos (hr i) hk
  have key : ∀ i, g i * (Real.log (s i) - Real.log (r i)) ≤
      g i * (Real.log (∑ i, s i) - Real.log (∑ i, r i)) + (s i / ∑ i, s i - g i) := by
    intro i
    have h1 : Real.log ((s i / ∑ i, s i) / g i) ≤ (s i / ∑ i, s i) / g i - 1 :=
      Real.log_le_sub_one_of_pos (div_pos (div_pos (hs i) hk') (hgp i))
    have h2 : Real.log ((s i / ∑ i, s i) / g i) = Real.log (s i) - Real.log (∑ i, s i) -
        (Real.log (r i) - Real.log (∑ i, r i)) := by
      rw [Real.log_div (div_pos (hs i) hk').ne' (hgp i).ne', Real.log_div (hs i).ne' hk'.ne', hg i,
        Real.log_div (hr i).ne' hk.ne']
    rw [h2] at h1
    have h3 := mul_le_mul_of_nonneg_left h1 (hgp i).le
    have h4 : g i * (s i / (∑ i, s i) / g i - 1) = s i / (∑ i, s i) - g i := by
      have := (hgp i).ne'; field_simp
    rw [h4] at h3
    linarith
  calc _ ≤ ∑ i, (g i * (Real.log (∑ i, s i) - Real.log (∑ i, r i)) + (s i / ∑ i, s i - g i)) :=
        sum_le_sum fun i _ => key i
    _ = _ := by
      rw [sum_add_distrib, ← sum_mul, sum_sub_distrib, ← sum_div, hg1, div_self hk'.ne']; ring

/-- Gibbs' inequality. -/
theorem gibbs (b a : Fin k → ℝ) (hb : ∀ i, 0 < b i) (ha : ∀ i, 0 < a i) (hsb : ∑ i, b i = 1) (hsa : ∑ i, a i = 1) :
    0 ≤ ∑ i, b i * (Real.log (b i) - Real.log (a i)) := by
  have key : ∀ i, b i - a i ≤ b i * (Real.log (b i) - Real.log (a i)) := by
    intro i
    have h1 := Real.log_le_sub_one_of_pos (div_pos (ha i) (hb i))
    rw [Real.log_div (ha i).ne' (hb i).ne'] at h1
    have h3 := mul_le_mul_of_nonneg_left h1 (hb i).le
    have h4 : b i * (a i / b i - 1) = a i - b i := by have := (hb i).ne'; field_simp
    rw [h4] at h3
    linarith
  have := sum_le_sum (s := univ) fun i _ => key i
  rw [sum_sub_distrib, hsa, hsb] at this
  linarith

/-- Weighted mean and covariance maximise the weighted Gaussian log-likelihood. -/
theorem gaussian_mle (x : Fin n → Fin d → ℝ) (w : Fin n → ℝ) (N : ℝ) (hN : N = ∑ j, w j) (hN0 : 0 < N)
    (m : Fin d → ℝ) (hm : ∀ a, N * m a = ∑ j, w j * x j a) (S : Matrix (Fin d) (Fin d) ℝ)
    (hS : ∀ a b, N * S a b = ∑ j, w j * ((x j a - m a) * (x j b - m b))) (hSp : S.PosDef)
    (c : Fin d → ℝ) (T : Matrix (Fin d) (Fin d) ℝ) (hT : T.PosDef) :
    0 ≤ ∑ j, w j * (Real.log (gaussian m S (x j)) - Real.log (gaussian c T (x j))) := by
  have h1 := sum_qf S⁻¹ x w N hN m hm S hS m
  have h2 := sum_qf T⁻¹ x w N hN m hm S hS c
  have hu : IsUnit S.det := hSp.det_pos.ne'.isUnit
  have h0 : qf S⁻¹ (fun a => m a - m a) = 0 := by simp [qf]
  rw [h0, Matrix.nonsing_inv_mul S hu, Matrix.trace_one, Fintype.card_fin] at h1
  have hq := qf_nonneg hT.inv.posSemidef (fun a => m a - c a)
  have hl := log_det_le T S hT hSp
  have e : ∑ j, w j * (Real.log (gaussian m S (x j)) - Real.log (gaussian c T (x j))) =
      -(1/2) * ∑ j, w j * qf S⁻¹ (fun a => x j a - m a) + (1/2) * ∑ j, w j * qf T⁻¹ (fun a => x j a - c a)
        + (1/2) * N * (Real.log T.det - Real.log S.det) := by
    rw [hN, mul_sum, mul_sum, mul_assoc, sum_mul, mul_sum, ← sum_add_distrib, ← sum_add_distrib]
    refine sum_congr rfl fun j _ => ?_
    rw [log_gaussian m S hSp.det_pos, log_gaussian c T hT.det_pos]; ring
  rw [e, h1, h2]
  have : 0 ≤ N * ((T⁻¹ * S).trace + qf T⁻¹ (fun a => m a - c a) + Real.log T.det - Real.log S.det - d) :=
    mul_nonneg hN0.le (by linarith)
  nlinarith [this]

end CML.GMM
