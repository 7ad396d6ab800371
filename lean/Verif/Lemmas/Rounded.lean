import Verif.Spec.Rounded
import Verif.Lemmas.Rounding

set_option linter.unusedSectionVars false

namespace CML.Float

variable {K : Type*} [Field K] [LinearOrder K] [IsStrictOrderedRing K] [FloorRing K]

theorem ulpExp_small {p : Nat} {emin : Int} {x : K} (hx : 0 < |x|) (h : |x| < 2 ^ (emin + p - 1)) : ulpExp p emin x = emin := by
  have hl : Int.log 2 |x| < emin + p - 1 := by
    rw [← Int.lt_zpow_iff_log_lt (by norm_num) hx]
    simpa using h
  exact max_eq_right (by omega)

/-- The errors of rounding to nearest: sums of two numbers do not underflow. -/
theorem rne_hasError {p : Nat} (hp : 1 ≤ p) (emin : Int) : HasError (rne p emin : K → K) (1 / 2 ^ p) (2 ^ emin / 2) where
  add x y hx hy := by
    obtain ⟨m, k, hk, -, rfl⟩ := (rne_fixed_iff hp emin x).1 hx
    obtain ⟨m', k', hk', -, rfl⟩ := (rne_fixed_iff hp emin y).1 hy
    obtain ⟨a, ha⟩ := int_of_exp_le (K := K) hk
    obtain ⟨b, hb⟩ := int_of_exp_le (K := K) hk'
    have hs := two_zpow_pos (K := K) emin
    rw [div_eq_iff hs.ne'] at ha hb
    have hxy : (m : K) * 2 ^ k + m' * 2 ^ k' = ((m * 2 ^ a + m' * 2 ^ b : Int) : K) * 2 ^ emin := by rw [ha, hb]; push_cast; ring
    rw [hxy]
    generalize m * 2 ^ a + m' * 2 ^ b = M
    by_cases h : |((M : Int) : K) * 2 ^ emin| < 2 ^ (emin + p - 1)
    · have hM : |M| ≤ 2 ^ p := by
        rw [abs_mul, abs_of_pos hs, add_sub_assoc, zpow_add₀ (by norm_num), mul_comm, mul_lt_mul_iff_right₀ hs] at h
        have e : (2 : K) ^ ((p : Int) - 1) = ((2 ^ (p - 1) : Int) : K) := by
          rw [show ((p : Int) - 1) = ((p - 1 : Nat) : Int) by omega, zpow_natCast]; push_cast; rfl
        rw [e, ← Int.cast_abs, Int.cast_lt] at h
        exact h.le.trans (pow_le_pow_right₀ (by norm_num) (by omega))
      rw [rne_exact hp le_rfl M hM, sub_self, abs_zero]
      positivity
    · exact rne_precision p emin _ (Or.inr (not_lt.1 h))
  any x := by
    have hs := two_zpow_pos (K := K) emin
    rcases eq_or_ne x 0 with rfl | h0
    · simp [rne_zero]; positivity
    by_cases h : |x| < 2 ^ (emin + p - 1)
    · have := rne_error p emin x
      rw [ulpExp_small (abs_pos.2 h0) h] at this
      have h2 : (0 : K) ≤ 1 / 2 ^ p * |x| := by positivity
      linarith
    · have := rne_precision p emin x (Or.inr (not_lt.1 h))
      have h2 : (0 : K) ≤ 2 ^ emin / 2 := by positivity
      linarith

/-- Exactly the results up to half of the smallest number become 0. -/
theorem rne_eq_zero_iff {p : Nat} (hp : 2 ≤ p) (emin : Int) (x : K) : rne p emin x = 0 ↔ |x| ≤ 2 ^ emin / 2 := by
  have hs := two_zpow_pos (K := K) emin
  rcases eq_or_ne x 0 with rfl | h0
  · simp [rne_zero]; positivity
  constructor
  · intro h
    by_contra hlt
    rw [not_le] at hlt
    by_cases hb : |x| < 2 ^ (emin + p - 1)
    · have := rne_error p emin x
      rw [ulpExp_small (abs_pos.2 h0) hb, h, zero_sub, abs_neg] at this
      linarith
    · have h1 := rne_precision p emin x (Or.inr (not_lt.1 hb))
      rw [h, zero_sub, abs_neg] at h1
      have h2 : (2 : K) ^ 1 ≤ 2 ^ p := pow_le_pow_right₀ (by norm_num) (by omega)
      have h3 : (1 : K) / 2 ^ p ≤ 1 / 2 := one_div_le_one_div_of_le (by norm_num) (by linarith)
      have h4 := mul_le_mul_of_nonneg_right h3 (abs_nonneg x)
      have := abs_pos.2 h0
      linarith
  · intro h
    have hb : |x| < 2 ^ (emin + p - 1) := by
      have : (2 : K) ^ emin ≤ 2 ^ (emin + p - 1) := zpow_le_zpow_right₀ (by norm_num) (by omega)
      linarith
    rw [rne_eq, ulpExp_small (abs_pos.2 h0) hb, nearest_unique _ 0, Int.cast_zero, zero_mul]
    · rw [Int.cast_zero, sub_zero, abs_mul, abs_div, abs_of_pos hs, abs_two, ← mul_div_assoc, div_le_one hs]; linarith
    · simp

theorem f32_hasError : HasError (f32 : K → K) (1 / 2 ^ 24) (2 ^ (-149 : Int) / 2) := rne_hasError (by norm_num) _
theorem f64_hasError : HasError (f64 : K → K) (1 / 2 ^ 53) (2 ^ (-1074 : Int) / 2) := rne_hasError (by norm_num) _

/-- Every number of single precision is one of double precision. -/
theorem f32_f64 : IsWider (f32 : K → K) f64 where
  ofNarrow := f32_isRounding
  ofWide := f64_isRounding
  number x h := by
    obtain ⟨m, k, hk, hm, rfl⟩ := (rne_fixed_iff (by norm_num) _ x).1 h
    exact rne_exact (by norm_num) (by omega) m (hm.trans (pow_le_pow_right₀ (by norm_num) (by norm_num)))

/-- The rounding of a rational number is the same among the rational numbers and among the numbers of `K`. -/
theorem rne_cast (p : Nat) (emin : Int) (q : ℚ) : rne p emin (q : K) = ((rne p emin q : ℚ) : K) := by
  have hlog : Int.log 2 |(q : K)| = Int.log 2 |q| := by
    rw [← Rat.cast_abs]
    unfold Int.log
    have h1 : (1 ≤ ((|q| : ℚ) : K)) ↔ 1 ≤ |q| := by exact_mod_cast Rat.cast_le (K := K) (p := 1) (q := |q|)
    simp only [h1, ← Rat.cast_inv, ← Int.floor_toNat, ← Int.ceil_toNat, Rat.floor_cast, Rat.ceil_cast]
  have hn : ∀ r : ℚ, nearest ((r : ℚ) : K) = nearest r := by
    intro r
    have e : (2 : K) * ((r : K) - ((⌊r⌋ : Int) : K)) = ((2 * (r - ⌊r⌋) : ℚ) : K) := by push_cast; ring
    have h1 : ((((2 * (r - ⌊r⌋)) : ℚ) : K) < 1) ↔ 2 * (r - ⌊r⌋) < 1 := by exact_mod_cast Rat.cast_lt (K := K) (p := 2 * (r - ⌊r⌋)) (q := 1)
    have h2 : (1 < (((2 * (r - ⌊r⌋)) : ℚ) : K)) ↔ 1 < 2 * (r - ⌊r⌋) := by exact_mod_cast Rat.cast_lt (K := K) (q := 2 * (r - ⌊r⌋)) (p := 1)
    simp only [nearest, Rat.floor_cast, e, h1, h2]
  simp only [rne, hlog]
  have e : (q : K) / 2 ^ max (Int.log 2 |q| - p + 1) emin = ((q / 2 ^ max (Int.log 2 |q| - p + 1) emin : ℚ) : K) := by push_cast; rfl
  rw [e, hn]
  push_cast; rfl

theorem f32_cast (q : ℚ) : f32 (q : K) = ((f32 q : ℚ) : K) := rne_cast _ _ q
theorem f64_cast (q : ℚ) : f64 (q : K) = ((f64 q : ℚ) : K) := rne_cast _ _ q

end CML.Float
