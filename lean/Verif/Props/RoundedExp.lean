import Verif.Props.Rounded
import Mathlib.Analysis.SpecialFunctions.Log.Basic
import Mathlib.Analysis.Complex.ExponentialBounds

set_option linter.unusedSectionVars false

/-! # Property C277 with the correctly rounded exponential function of single precision -/

namespace CML.Float
open Real

/-- `np.exp` of single precision, correctly rounded. -/
noncomputable def exp32 (x : ℝ) : ℝ := f32 (exp x)

theorem exp32_isExp : IsExp f32 exp32 where
  mono _ _ h := f32_isRounding.mono _ _ (exp_le_exp.2 h)
  nonneg _ := f32_isRounding.nonneg (exp_pos _).le
  zero := by rw [exp32, exp_zero, f32_isRounding.one]
  number _ := f32_isRounding.idem _

/-- It is 0 up to `-150 log 2`, about -103.97. -/
theorem exp32_eq_zero_iff (x : ℝ) : exp32 x = 0 ↔ x ≤ -(150 * log 2) := by
  unfold exp32 f32
  rw [rne_eq_zero_iff (by norm_num), abs_of_pos (exp_pos x)]
  have e : (2 : ℝ) ^ (-149 : Int) / 2 = exp (-(150 * log 2)) := by
    rw [show -(150 * log 2) = ((-150 : Int) : ℝ) * log 2 by push_cast; ring, ← Real.log_zpow, exp_log (by positivity)]
    rw [show (-150 : Int) = -149 - 1 by norm_num, zpow_sub_one₀ (by norm_num), div_eq_mul_inv]
  rw [e, exp_le_exp]

/-- C277 fails: in single precision a row of the result is NaN exactly if all its entries are more than about 103.97 below the largest entry of the *whole*
matrix, whatever their differences in the row. -/
theorem C277_nan_iff {m n : Nat} {o : Order n} (ho : o.Complete) (z : Fin m → Fin (n) → ℝ) {M : ℝ} (hM : IsLargest z M) (i : Fin m) (j : Fin n) :
    ∃ s, softmax f32 exp32 o z = .ok s ∧ (s i j = none ↔ ∀ l, f32 (z i l - M) ≤ -(150 * log 2)) := by
  obtain ⟨s, hs, h⟩ := C277_rows_partial f32_isRounding exp32_isExp ho z hM
  refine ⟨s, hs, fun hj => ?_, fun hall => (h i).2.1 (fun l => (exp32_eq_zero_iff _).2 (hall l)) j⟩
  by_contra hne
  push Not at hne
  obtain ⟨l, hl⟩ := hne
  obtain ⟨w, hw, -⟩ := (h i).1 ⟨l, fun h0 => absurd ((exp32_eq_zero_iff _).1 h0) (not_le.2 hl)⟩ j
  rw [hj] at hw
  cases hw

/-- C277 fails for every row that lies 104 or more below the largest entry of the matrix. -/
theorem C277_lost {m n : Nat} {o : Order n} (ho : o.Complete) (z : Fin m → Fin (n) → ℝ) {M : ℝ} (hM : IsLargest z M) (i : Fin m)
    (hi : ∀ l, z i l ≤ M - 104) (j : Fin n) : ∃ s, softmax f32 exp32 o z = .ok s ∧ s i j = none := by
  obtain ⟨s, hs, h⟩ := C277_nan_iff ho z hM i j
  refine ⟨s, hs, h.2 fun l => ?_⟩
  have h1 : f32 (z i l - M) ≤ f32 (-104 : ℝ) := f32_isRounding.mono _ _ (by linarith [hi l])
  have h2 : f32 (-104 : ℝ) = -104 := by
    have := f32_cast (K := ℝ) (-104)
    rw [show f32 (-104 : ℚ) = -104 by decide +kernel] at this
    exact_mod_cast this
  have := Real.log_two_lt_d9
  rw [h2] at h1
  linarith

/-- A matrix of two rows: the first is fine, the second is lost, although alone it is fine. -/
example : ∃ s s' : _, softmax f32 exp32 (.add (.entry 0) (.entry 1)) ![![0, 0], ![-200, (-201 : ℝ)]] = .ok s ∧ s 1 0 = none ∧
    softmax f32 exp32 (.add (.entry 0) (.entry 1)) ![![-200, (-201 : ℝ)]] = .ok s' ∧ ∃ w, s' 0 0 = some w := by
  have ho : Order.Complete (.add (.entry 0) (.entry 1) : Order 2) := by unfold Order.Complete; decide
  obtain ⟨s, hs, h⟩ := C277_lost ho ![![0, 0], ![-200, (-201 : ℝ)]] (M := 0)
    ⟨⟨0, 0, rfl⟩, by intro i j; fin_cases i <;> fin_cases j <;> norm_num⟩ 1 (by intro l; fin_cases l <;> norm_num) 0
  obtain ⟨s', w, hs', h', -⟩ := C277_largest_row_partial f32_isRounding (f32_hasError (K := ℝ)) (by norm_num) (by norm_num) exp32_isExp ho
    ![![-200, (-201 : ℝ)]] (M := -200) ⟨⟨0, 0, rfl⟩, by intro i j; fin_cases i; fin_cases j <;> norm_num⟩ 0 ⟨0, rfl⟩
  exact ⟨s, s', hs, h, hs', w 0, (h' 0).1⟩

/-- C277 fails for the order: two different inputs less than 2⁻²⁵ apart, next to the maximum, have equal results, so the position of the largest result
need not be that of the largest input. -/
theorem C277_tie : ∃ s, softmax f32 exp32 (.add (.entry 0) (.entry 1)) ![![-(1 / 2 ^ 30), (0 : ℝ)]] = .ok s ∧ s 0 0 = some (1 / 2) ∧ s 0 1 = some (1 / 2) := by
  have cast : ∀ q r : ℚ, f32 q = r → f32 (q : ℝ) = r := fun q r h => by rw [f32_cast, h]
  have hM : IsLargest ![![-(1 / 2 ^ 30), (0 : ℝ)]] 0 := ⟨⟨0, 1, rfl⟩, by intro i j; fin_cases i; fin_cases j <;> norm_num⟩
  refine ⟨_, softmax_ok f32 exp32 _ _ hM, ?_⟩
  have e1 : f32 (-(1 / 2 ^ 30) : ℝ) = -(1 / 2 ^ 30) := by have h := cast (-(1 / 2 ^ 30)) (-(1 / 2 ^ 30)) (by decide +kernel); push_cast at h; exact h
  have e2 : exp32 (-(1 / 2 ^ 30)) = 1 := by
    unfold exp32
    have h1 : (1 - 1 / 2 ^ 30 : ℝ) ≤ exp (-(1 / 2 ^ 30)) := by
      have := add_one_le_exp (-(1 / 2 ^ 30) : ℝ); linarith
    have h2 := f32_isRounding.mono _ _ h1
    have h3 : f32 (1 - 1 / 2 ^ 30 : ℝ) = 1 := by have h := cast (1 - 1 / 2 ^ 30) 1 (by decide +kernel); push_cast at h; exact h
    rw [h3] at h2
    exact le_antisymm (f32_isRounding.le_one (exp_le_one_iff.2 (by norm_num))) h2
  have e3 : f32 (1 + 1 : ℝ) = 2 := by have h := cast 2 2 (by decide +kernel); rw [one_add_one_eq_two]; push_cast at h; exact h
  have e4 : f32 (1 / 2 : ℝ) = 1 / 2 := by have h := cast (1 / 2) (1 / 2) (by decide +kernel); push_cast at h; exact h
  have e0 : f32 (0 : ℝ) = 0 := f32_isRounding.zero
  have hrow : ∀ j : Fin 2, exp32 (f32 ((![![-(1 / 2 ^ 30), (0 : ℝ)]] : Fin 1 → Fin 2 → ℝ) 0 j - 0)) = 1 := by
    intro j
    fin_cases j
    · show exp32 (f32 (-(1 / 2 ^ 30) - 0)) = 1
      rw [sub_zero, e1, e2]
    · show exp32 (f32 (0 - 0)) = 1
      rw [sub_zero, e0, exp32_isExp.zero]
  have hs : ∀ j : Fin 2, softmaxRow f32 exp32 (.add (.entry 0) (.entry 1)) 0 ((![![-(1 / 2 ^ 30), (0 : ℝ)]] : Fin 1 → Fin 2 → ℝ) 0) j = some (1 / 2) := by
    intro j
    simp only [softmaxRow, shares, flDiv, Order.sum, hrow, e3]
    rw [if_neg two_ne_zero, e4]
  exact ⟨hs 0, hs 1⟩

/-! ## C281: the sigmoid -/

/-- C281 (part): in every rounding the sigmoid is a number between 0 and 1, does not decrease, and is at least (at most) the rounded 1/2 for non-negative (non-positive)
arguments. -/
theorem C281_range_partial {K : Type*} [Field K] [LinearOrder K] [IsStrictOrderedRing K] {fl ex : K → K} (hfl : IsRounding fl) (hex : IsExp fl ex) (z : K) :
    ∃ w, sigmoid fl ex z = some w ∧ 0 ≤ w ∧ w ≤ 1 ∧ IsNumber fl w ∧ (0 ≤ z → fl (1 / 2) ≤ w) ∧ (z ≤ 0 → w ≤ fl (1 / 2)) ∧
      ∀ z' w', z ≤ z' → sigmoid fl ex z' = some w' → w ≤ w' := by
  have hd : ∀ z, 1 ≤ fl (1 + ex (-z)) := fun z => by
    have := hfl.mono 1 (1 + ex (-z)) (by linarith [hex.nonneg (-z)])
    rwa [hfl.one] at this
  have hs : ∀ z, sigmoid fl ex z = some (fl (1 / fl (1 + ex (-z)))) := fun z => if_neg (by have := hd z; linarith)
  have h2 : fl 2 = 2 := by have := hfl.twice 1 hfl.one; rwa [mul_one] at this
  have hmono : ∀ z z', z ≤ z' → fl (1 / fl (1 + ex (-z))) ≤ fl (1 / fl (1 + ex (-z'))) := fun z z' h => by
    refine hfl.mono _ _ (one_div_le_one_div_of_le (by linarith [hd z']) (hfl.mono _ _ ?_))
    have := hex.mono (-z') (-z) (by linarith)
    linarith
  have h0 : fl (1 / fl (1 + ex (-0))) = fl (1 / 2) := by rw [neg_zero, hex.zero, one_add_one_eq_two, h2]
  refine ⟨_, hs z, hfl.nonneg (one_div_nonneg.2 (by linarith [hd z])), hfl.le_one ((div_le_one (by linarith [hd z])).2 (hd z)), hfl.idem _,
    fun h => ?_, fun h => ?_, fun z' w' h hw => ?_⟩
  · rw [← h0]; exact hmono 0 z h
  · rw [← h0]; exact hmono z 0 h
  · rw [hs z'] at hw
    rw [← Option.some.inj hw]
    exact hmono z z' h

theorem f32_real (q r : ℚ) (h : f32 q = r) : f32 (q : ℝ) = r := by rw [f32_cast, h]

/-- C281 fails: in single precision the sigmoid is exactly 1 from 18 on. -/
theorem C281_saturates (z : ℝ) (hz : 18 ≤ z) : sigmoid f32 exp32 z = some 1 := by
  have h1 : exp32 (-z) ≤ 1 / 2 ^ 24 := by
    have h2 : exp (-z) ≤ 1 / 2 ^ 25 := by
      have e : (1 / 2 ^ 25 : ℝ) = exp (-(25 * log 2)) := by
        rw [exp_neg, show (25 * log 2 : ℝ) = ((25 : Nat) : ℝ) * log 2 by push_cast; rfl, ← Real.log_pow, exp_log (by positivity), one_div]
      rw [e, exp_le_exp]
      have := Real.log_two_lt_d9
      linarith
    have h3 := f32_isRounding.mono _ _ h2
    have h4 : f32 (1 / 2 ^ 25 : ℝ) = 1 / 2 ^ 25 := by have h := f32_real (1 / 2 ^ 25) (1 / 2 ^ 25) (by decide +kernel); push_cast at h; exact h
    unfold exp32
    rw [h4] at h3
    have : (1 / 2 ^ 25 : ℝ) ≤ 1 / 2 ^ 24 := by norm_num
    exact h3.trans this
  have h5 : f32 (1 + exp32 (-z)) = 1 := by
    apply le_antisymm
    · have := f32_isRounding.mono (1 + exp32 (-z)) (1 + 1 / 2 ^ 24) (by linarith)
      have h4 : f32 (1 + 1 / 2 ^ 24 : ℝ) = 1 := by have h := f32_real (1 + 1 / 2 ^ 24) 1 (by decide +kernel); push_cast at h; exact h
      rwa [h4] at this
    · have := f32_isRounding.mono 1 (1 + exp32 (-z)) (by linarith [exp32_isExp.nonneg (-z)])
      rwa [f32_isRounding.one] at this
  unfold sigmoid flDiv
  rw [h5, if_neg one_ne_zero, div_one, f32_isRounding.one]

/-- C281 fails: for small negative arguments it is exactly 1/2, which counts as the positive class. -/
theorem C281_half (z : ℝ) (h0 : z ≤ 0) (hz : -(1 / 2 ^ 25) ≤ z) : sigmoid f32 exp32 z = some (1 / 2) := by
  have h1 : exp32 (-z) = 1 := by
    apply le_antisymm
    · have h2 : exp (-z) ≤ 1 + 1 / 2 ^ 24 := by
        have := Real.abs_exp_sub_one_le (x := -z) (by rw [abs_of_nonneg (by linarith)]; norm_num at hz ⊢; linarith)
        rw [abs_of_nonneg (a := -z) (by linarith)] at this
        have := (abs_le.1 this).2
        norm_num at hz ⊢
        linarith
      have h3 := f32_isRounding.mono _ _ h2
      have h4 : f32 (1 + 1 / 2 ^ 24 : ℝ) = 1 := by have h := f32_real (1 + 1 / 2 ^ 24) 1 (by decide +kernel); push_cast at h; exact h
      rwa [h4] at h3
    · have := exp32_isExp.mono 0 (-z) (by linarith)
      rwa [exp32_isExp.zero] at this
  have h2 : f32 (1 + 1 : ℝ) = 2 := by have h := f32_real 2 2 (by decide +kernel); rw [one_add_one_eq_two]; push_cast at h; exact h
  have h3 : f32 (1 / 2 : ℝ) = 1 / 2 := by have h := f32_real (1 / 2) (1 / 2) (by decide +kernel); push_cast at h; exact h
  unfold sigmoid flDiv
  rw [h1, h2, if_neg two_ne_zero, h3]

end CML.Float
