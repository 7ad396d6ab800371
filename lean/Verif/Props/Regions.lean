import Verif.Props.EM
import Verif.Spec.Convex
import Mathlib.LinearAlgebra.Matrix.Determinant.Basic

set_option linter.unusedSectionVars false

/-! # Property C339: the regions of a Gaussian mixture

gaussian_mixture.py:141-172, ops.py:335-349, 409-439, 473-498.
-/

namespace CML.GMM
open Finset Matrix

variable {n k d : Nat}

/-- With positive coefficients and invertible covariances every row gets the first component with the largest weighted density. -/
lemma gm_predict (P : Params ℝ k d) (hk : k ≠ 0) (ha : ∀ i, 0 < P.alpha i) (hS : ∀ i, 0 < (Matrix.of (P.sigma i)).det) (x : Fin n → Fin d → ℝ) :
    ∃ c, predict (normalDensity id) P x = some c ∧ ∀ j, ∃ i : Fin k, c j = some i.val ∧
      (∀ l, P.alpha l * gaussian (P.mu l) (Matrix.of (P.sigma l)) (x j) ≤ P.alpha i * gaussian (P.mu i) (Matrix.of (P.sigma i)) (x j)) ∧
      ∀ l < i, P.alpha l * gaussian (P.mu l) (Matrix.of (P.sigma l)) (x j) < P.alpha i * gaussian (P.mu i) (Matrix.of (P.sigma i)) (x j) := by
  have hM : ∀ j, 0 < ∑ l, P.alpha l * gaussian (P.mu l) (Matrix.of (P.sigma l)) (x j) := by
    intro j
    have : Nonempty (Fin k) := ⟨⟨0, Nat.pos_of_ne_zero hk⟩⟩
    exact sum_pos (fun l _ => mul_pos (ha l) (gaussian_pos _ _ (hS l) _)) univ_nonempty
  have hpost : posterior (normalDensity id) x P = some fun j i => P.alpha i * gaussian (P.mu i) (Matrix.of (P.sigma i)) (x j) /
      ∑ l, P.alpha l * gaussian (P.mu l) (Matrix.of (P.sigma l)) (x j) := by
    unfold posterior
    have e : ∀ j i, normalDensity id (x j) (P.mu i) (P.sigma i) = some (gaussian (P.mu i) (Matrix.of (P.sigma i)) (x j)) := fun j i => C120_density _ _ _ (hS i)
    simp only [e, Option.getD_some, mixtureDensity]
    rw [if_neg (by simp), if_neg]
    rintro ⟨j, hj⟩
    exact (hM j).ne' hj
  have hpred : ∃ c, predict (normalDensity id) P x = some c := by
    unfold predict; rw [hpost]; exact ⟨_, rfl⟩
  obtain ⟨c, hc⟩ := hpred
  refine ⟨c, hc, fun j => ?_⟩
  obtain ⟨g, hg, i, h1, h2, h3⟩ := C72_predict_largest_posterior (normalDensity id) P x c hc hk j
  rw [hpost] at hg
  cases hg
  refine ⟨i, h1, fun l => ?_, fun l hl => ?_⟩
  · exact (div_le_div_iff_of_pos_right (hM j)).1 (h2 l)
  · exact (div_lt_div_iff_of_pos_right (hM j)).1 (h3 l hl)

/-- The exponent of the normal density, negated and doubled. -/
private noncomputable def quad (T : Matrix (Fin d) (Fin d) ℝ) (m u : Fin d → ℝ) : ℝ := ∑ a, ∑ b, (u a - m a) * T a b * (u b - m b)

private lemma quad_mix (T : Matrix (Fin d) (Fin d) ℝ) (m m' u v w : Fin d → ℝ) (t : ℝ) (hw : ∀ i, w i = (1 - t) * u i + t * v i) :
    quad T m w - quad T m' w = (1 - t) * (quad T m u - quad T m' u) + t * (quad T m v - quad T m' v) := by
  unfold quad
  simp only [← Finset.sum_sub_distrib, Finset.mul_sum, ← Finset.sum_add_distrib]
  refine Finset.sum_congr rfl fun a _ => Finset.sum_congr rfl fun b _ => ?_
  rw [hw a, hw b]; ring

private lemma quad_dot (T : Matrix (Fin d) (Fin d) ℝ) (m u : Fin d → ℝ) : dotProduct (u - m) (T.mulVec (u - m)) = quad T m u := by
  simp only [quad, dotProduct, mulVec, Pi.sub_apply, Finset.mul_sum]
  exact Finset.sum_congr rfl fun a _ => Finset.sum_congr rfl fun b _ => by ring

private lemma weighted (S : Matrix (Fin d) (Fin d) ℝ) (a : ℝ) (ha : 0 < a) (m u : Fin d → ℝ) :
    a * gaussian m S u = Real.exp (Real.log a - quad S⁻¹ m u / 2) * (1 / Real.sqrt ((2 * Real.pi) ^ d * S.det)) := by
  unfold gaussian
  rw [quad_dot, sub_eq_add_neg, Real.exp_add, Real.exp_log ha, neg_div]
  ring

private lemma weighted_le (S : Matrix (Fin d) (Fin d) ℝ) (hS : 0 < S.det) (a b : ℝ) (ha : 0 < a) (hb : 0 < b) (m m' u : Fin d → ℝ) :
    (a * gaussian m S u ≤ b * gaussian m' S u ↔ Real.log a - quad S⁻¹ m u / 2 ≤ Real.log b - quad S⁻¹ m' u / 2) ∧
    (a * gaussian m S u < b * gaussian m' S u ↔ Real.log a - quad S⁻¹ m u / 2 < Real.log b - quad S⁻¹ m' u / 2) := by
  have hz : 0 < 1 / Real.sqrt ((2 * Real.pi) ^ d * S.det) := by positivity
  rw [weighted S a ha, weighted S b hb]
  exact ⟨(mul_le_mul_iff_left₀ hz).trans Real.exp_le_exp, (mul_lt_mul_iff_left₀ hz).trans Real.exp_lt_exp⟩

/-- **C339** (common covariance). If all components have the same covariance, the rows of every component form a convex set: a row between two rows of a component belongs to it. -/
theorem C339_common (P : Params ℝ k d) (hk : k ≠ 0) (ha : ∀ i, 0 < P.alpha i) (S : Fin d → Fin d → ℝ) (hS : 0 < (Matrix.of S).det) (hP : ∀ i, P.sigma i = S) (x : Fin n → Fin d → ℝ) :
    ∃ c, predict (normalDensity id) P x = some c ∧ ∀ j1 j2 j3, Between (x j1) (x j2) (x j3) → c j1 = c j2 → c j3 = c j1 := by
  obtain ⟨c, hc, h⟩ := gm_predict P hk ha (fun i => by rw [hP]; exact hS) x
  refine ⟨c, hc, fun j1 j2 j3 hb he => ?_⟩
  obtain ⟨t, t0, t1, hw⟩ := hb
  obtain ⟨i, h1, h2, h3⟩ := h j1
  obtain ⟨i', h1', h2', h3'⟩ := h j2
  obtain ⟨l, g1, g2, g3⟩ := h j3
  have hii : i' = i := by
    rw [h1, h1'] at he
    exact (Fin.ext (Option.some.inj he)).symm
  subst hii
  simp only [hP] at h2 h3 h2' h3' g2 g3
  rw [h1, g1]
  congr 2
  -- the lead of a component over another along the segment
  have key : ∀ p q : Fin k, (Real.log (P.alpha p) - quad (Matrix.of S)⁻¹ (P.mu p) (x j3) / 2) - (Real.log (P.alpha q) - quad (Matrix.of S)⁻¹ (P.mu q) (x j3) / 2) =
      (1 - t) * ((Real.log (P.alpha p) - quad (Matrix.of S)⁻¹ (P.mu p) (x j1) / 2) - (Real.log (P.alpha q) - quad (Matrix.of S)⁻¹ (P.mu q) (x j1) / 2)) +
      t * ((Real.log (P.alpha p) - quad (Matrix.of S)⁻¹ (P.mu p) (x j2) / 2) - (Real.log (P.alpha q) - quad (Matrix.of S)⁻¹ (P.mu q) (x j2) / 2)) := by
    intro p q
    linear_combination (-1 / 2) * quad_mix (Matrix.of S)⁻¹ (P.mu p) (P.mu q) (x j1) (x j2) (x j3) t hw
  have hle : ∀ p q u, (P.alpha p * gaussian (P.mu p) (Matrix.of S) u ≤ P.alpha q * gaussian (P.mu q) (Matrix.of S) u ↔ _) ∧ _ :=
    fun p q u => weighted_le (Matrix.of S) hS (P.alpha p) (P.alpha q) (ha p) (ha q) (P.mu p) (P.mu q) u
  have conv : ∀ a b : ℝ, a < 0 → b < 0 → (1 - t) * a + t * b < 0 := by
    intro a b ha hb
    rcases t0.lt_or_eq with h | h
    · have := mul_neg_of_pos_of_neg h hb
      have := mul_nonpos_of_nonneg_of_nonpos (sub_nonneg.2 t1) ha.le
      linarith
    · subst h; simpa using ha
  have conv' : ∀ a b : ℝ, a ≤ 0 → b ≤ 0 → (1 - t) * a + t * b ≤ 0 := by
    intro a b ha hb
    have := mul_nonpos_of_nonneg_of_nonpos t0 hb
    have := mul_nonpos_of_nonneg_of_nonpos (sub_nonneg.2 t1) ha
    linarith
  rcases lt_trichotomy l i' with hlt | heq | hgt
  · -- `l` comes before: it lost strictly at both ends, so it loses strictly between
    have a1 := ((hle l i' (x j1)).2).1 (h3 l hlt)
    have a2 := ((hle l i' (x j2)).2).1 (h3' l hlt)
    have a3 := ((hle i' l (x j3)).1).1 (g2 i')
    have := conv _ _ (sub_neg.2 a1) (sub_neg.2 a2)
    rw [← key l i'] at this
    linarith
  · rw [heq]
  · have a1 := ((hle l i' (x j1)).1).1 (h2 l)
    have a2 := ((hle l i' (x j2)).1).1 (h2' l)
    have a3 := ((hle i' l (x j3)).2).1 (g3 i' hgt)
    have := conv' _ _ (sub_nonpos.2 a1) (sub_nonpos.2 a2)
    rw [← key l i'] at this
    linarith

/-- **C339** (common covariance and common coefficient). Then every row belongs to the first component whose mean is nearest in the Mahalanobis distance of the covariance. -/
theorem C339_nearest (P : Params ℝ k d) (hk : k ≠ 0) (a : ℝ) (ha : 0 < a) (hPa : ∀ i, P.alpha i = a) (S : Fin d → Fin d → ℝ) (hS : 0 < (Matrix.of S).det) (hP : ∀ i, P.sigma i = S)
    (x : Fin n → Fin d → ℝ) :
    ∃ c, predict (normalDensity id) P x = some c ∧ ∀ j, ∃ i : Fin k, c j = some i.val ∧
      (∀ l, dotProduct (x j - P.mu i) ((Matrix.of S)⁻¹.mulVec (x j - P.mu i)) ≤ dotProduct (x j - P.mu l) ((Matrix.of S)⁻¹.mulVec (x j - P.mu l))) ∧
      ∀ l < i, dotProduct (x j - P.mu i) ((Matrix.of S)⁻¹.mulVec (x j - P.mu i)) < dotProduct (x j - P.mu l) ((Matrix.of S)⁻¹.mulVec (x j - P.mu l)) := by
  obtain ⟨c, hc, h⟩ := gm_predict P hk (fun i => by rw [hPa]; exact ha) (fun i => by rw [hP]; exact hS) x
  refine ⟨c, hc, fun j => ?_⟩
  obtain ⟨i, h1, h2, h3⟩ := h j
  simp only [hP, hPa] at h2 h3
  refine ⟨i, h1, fun l => ?_, fun l hl => ?_⟩
  · have := ((weighted_le (Matrix.of S) hS a a ha ha (P.mu l) (P.mu i) (x j)).1).1 (h2 l)
    rw [quad_dot, quad_dot]; linarith
  · have := ((weighted_le (Matrix.of S) hS a a ha ha (P.mu l) (P.mu i) (x j)).2).1 (h3 l hl)
    rw [quad_dot, quad_dot]; linarith

private lemma gaussian_one (m v u : ℝ) : gaussian (d := 1) (fun _ => m) (Matrix.of fun _ _ => v) (fun _ => u) =
    Real.exp (-((u - m) ^ 2 / v) / 2) / Real.sqrt (2 * Real.pi * v) := by
  unfold gaussian
  have hinv : (Matrix.of fun _ _ : Fin 1 => v)⁻¹ = Matrix.of fun _ _ => v⁻¹ := by
    ext a b
    rw [Matrix.inv_def, Matrix.det_fin_one, Matrix.adjugate_fin_one]
    fin_cases a; fin_cases b
    simp
  rw [hinv, Matrix.det_fin_one]
  simp only [dotProduct, mulVec, Pi.sub_apply, Finset.univ_unique, Finset.sum_singleton, Matrix.of_apply, pow_one]
  congr 3
  congr 1
  ring

/-- **C339** (different covariances). A region need not be convex: two components with mean 0, variances 1 and 4 and equal coefficients; the rows -2 and 2 belong to the wide component, the row 0
between them to the narrow one. -/
theorem C339_not_convex : ∃ (P : Params ℝ 2 1) (x : Fin 3 → Fin 1 → ℝ) (c : Fin 3 → Option Nat), (∀ i, 0 < P.alpha i) ∧ (∀ i, 0 < (Matrix.of (P.sigma i)).det) ∧
    predict (normalDensity id) P x = some c ∧ Between (x 0) (x 1) (x 2) ∧ c 0 = some 1 ∧ c 1 = some 1 ∧ c 2 = some 0 := by
  let P : Params ℝ 2 1 := ⟨fun _ _ => 0, fun i _ _ => if i = 0 then 1 else 4, fun _ => 1 / 2⟩
  let x : Fin 3 → Fin 1 → ℝ := fun j _ => if j = 0 then -2 else if j = 1 then 2 else 0
  have ha : ∀ i, 0 < P.alpha i := fun i => by norm_num [P]
  have hS : ∀ i, 0 < (Matrix.of (P.sigma i)).det := fun i => by
    rw [Matrix.det_fin_one]; fin_cases i <;> norm_num [P]
  obtain ⟨c, hc, h⟩ := gm_predict P (by decide) ha hS x
  have hr : 0 < Real.sqrt (2 * Real.pi) := by positivity
  have g0 : ∀ u : ℝ, gaussian (P.mu 0) (Matrix.of (P.sigma 0)) (fun _ => u) = Real.exp (-(u ^ 2) / 2) / Real.sqrt (2 * Real.pi) := by
    intro u
    have := gaussian_one 0 1 u
    simp only [sub_zero, div_one, mul_one] at this
    exact this
  have g1 : ∀ u : ℝ, gaussian (P.mu 1) (Matrix.of (P.sigma 1)) (fun _ => u) = Real.exp (-(u ^ 2 / 4) / 2) / Real.sqrt (2 * Real.pi) / 2 := by
    intro u
    have := gaussian_one 0 4 u
    simp only [sub_zero] at this
    rw [Real.sqrt_mul (by positivity), show Real.sqrt 4 = 2 by rw [show (4 : ℝ) = 2 ^ 2 by norm_num, Real.sqrt_sq (by norm_num)]] at this
    rw [div_div]
    exact this
  have he : (2 : ℝ) < Real.exp (3 / 2) := by
    have := Real.add_one_le_exp (3 / 2 : ℝ)
    linarith
  have hwide : ∀ u : ℝ, u ^ 2 = 4 → P.alpha 0 * gaussian (P.mu 0) (Matrix.of (P.sigma 0)) (fun _ => u) < P.alpha 1 * gaussian (P.mu 1) (Matrix.of (P.sigma 1)) (fun _ => u) := by
    intro u hu
    rw [g0, g1, hu]
    refine mul_lt_mul_of_pos_left ?_ (ha 0)
    rw [div_right_comm, div_lt_div_iff_of_pos_right hr, lt_div_iff₀ (by norm_num)]
    have : Real.exp (-(4 / 4) / 2 : ℝ) = Real.exp (-4 / 2) * Real.exp (3 / 2) := by rw [← Real.exp_add]; norm_num
    rw [this]
    exact mul_lt_mul_of_pos_left he (Real.exp_pos _)
  have hnarrow : P.alpha 1 * gaussian (P.mu 1) (Matrix.of (P.sigma 1)) (fun _ => (0 : ℝ)) < P.alpha 0 * gaussian (P.mu 0) (Matrix.of (P.sigma 0)) (fun _ => (0 : ℝ)) := by
    rw [g0, g1]
    refine mul_lt_mul_of_pos_left ?_ (ha 0)
    rw [show (-(0 ^ 2 / 4) / 2 : ℝ) = 0 by norm_num, show (-(0 ^ 2) / 2 : ℝ) = 0 by norm_num, Real.exp_zero]
    exact half_lt_self (by positivity)
  have wide : ∀ j, (∃ u : ℝ, u ^ 2 = 4 ∧ x j = fun _ => u) → c j = some 1 := by
    rintro j ⟨u, hu, hx⟩
    obtain ⟨i, h1, h2, -⟩ := h j
    rw [h1]
    rw [hx] at h2
    match i, h2 with
    | 0, h2 => exact absurd (h2 1) (not_le.2 (hwide u hu))
    | 1, _ => rfl
  refine ⟨P, x, c, ha, hS, hc, ⟨1 / 2, by norm_num, by norm_num, fun i => by
    rw [show x 0 i = -2 by simp [x], show x 1 i = 2 by simp [x], show x 2 i = 0 by simp [x]]; norm_num⟩, wide 0 ⟨-2, by norm_num, by funext; simp [x]⟩,
    wide 1 ⟨2, by norm_num, by funext; simp [x]⟩, ?_⟩
  obtain ⟨i, h1, h2, -⟩ := h 2
  rw [h1]
  have hx : x 2 = fun _ => (0 : ℝ) := by funext; simp [x]
  rw [hx] at h2
  match i, h2 with
  | 0, _ => rfl
  | 1, h2 => exact absurd (h2 0) (not_le.2 hnarrow)

/-- Non-vacuity of `C339_common` and `C339_nearest`: two components with the initial covariance 0.1. -/
example : ∃ P : Params ℝ 2 1, (∀ i, 0 < P.alpha i) ∧ (∀ i, P.alpha i = 1 / 2) ∧ (∀ i, P.sigma i = fun _ _ => 1 / 10) ∧ 0 < (Matrix.of fun _ _ : Fin 1 => (1 / 10 : ℝ)).det ∧
    P.mu 0 ≠ P.mu 1 :=
  ⟨⟨fun i _ => i.val, fun _ _ _ => 1 / 10, fun _ => 1 / 2⟩, fun _ => by norm_num, fun _ => rfl, fun _ => rfl, by rw [Matrix.det_fin_one]; norm_num, fun h => by
    have := congrFun h 0
    simp at this⟩

end CML.GMM
