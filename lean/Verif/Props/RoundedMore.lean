import Verif.Lemmas.Rounded
import Mathlib.Algebra.Order.BigOperators.Group.List

set_option linter.unusedSectionVars false

/-! # Properties C283, C284: accuracies and standardization in floating point -/

namespace CML.Float

variable {K : Type*} [Field K] [LinearOrder K] [IsStrictOrderedRing K] {fl wide : K → K}

/-! ## C283 -/

theorem ratio_bounds {k n : Nat} (hn : 0 < n) (hk : k ≤ n) : (0 : K) ≤ (k : K) / n ∧ (k : K) / n ≤ 1 := by
  have hn' : (0 : K) < n := Nat.cast_pos.2 hn
  exact ⟨by positivity, (div_le_one hn').2 (Nat.cast_le.2 hk)⟩

theorem ratio_gap {k k' n : Nat} (hn : 0 < n) (hk : k < k') : (k : K) / n + 1 / n ≤ (k' : K) / n := by
  have hn' : (0 : K) < n := Nat.cast_pos.2 hn
  rw [← add_div]
  refine div_le_div_of_nonneg_right ?_ hn'.le
  exact_mod_cast hk

/-- C283: the computed accuracy is between 0 and 1; 0 exactly without correct answers, 1 exactly if all are correct, and it compares as the numbers of correct answers,
as long as the rounding errors are small against `1 / n`. -/
theorem C283_accuracy (hw : IsRounding wide) {u eta : K} (he : HasError wide u eta) (hu : 0 ≤ u) {n : Nat} (hn : 0 < n) (hsmall : 2 * (u + eta) < 1 / n)
    (k : Nat) (hk : k ≤ n) :
    0 ≤ accuracy wide k n ∧ accuracy wide k n ≤ 1 ∧ (accuracy wide k n = 1 ↔ k = n) ∧ (accuracy wide k n = 0 ↔ k = 0) ∧
    ∀ k', k' ≤ n → (accuracy wide k n < accuracy wide k' n ↔ k < k') := by
  have hn' : (n : K) ≠ 0 := (Nat.cast_pos.2 hn).ne'
  have hlt : ∀ k k', k ≤ n → k' ≤ n → k < k' → accuracy wide k n < accuracy wide k' n := by
    intro k k' hk hk' h
    obtain ⟨a1, a2⟩ := ratio_bounds (K := K) hn hk
    obtain ⟨b1, b2⟩ := ratio_bounds (K := K) hn hk'
    have hg := ratio_gap (K := K) hn h
    have e1 := (abs_le.1 (he.any ((k : K) / n))).2
    have e2 := (abs_le.1 (he.any ((k' : K) / n))).1
    rw [abs_of_nonneg a1] at e1
    rw [abs_of_nonneg b1] at e2
    have m1 := mul_le_mul_of_nonneg_left a2 hu
    have m2 := mul_le_mul_of_nonneg_left b2 hu
    unfold accuracy
    linarith
  have h1 : accuracy wide n n = 1 := by unfold accuracy; rw [div_self hn', hw.one]
  have h0 : accuracy wide 0 n = 0 := by unfold accuracy; rw [Nat.cast_zero, zero_div, hw.zero]
  obtain ⟨a1, a2⟩ := ratio_bounds (K := K) hn hk
  refine ⟨hw.nonneg a1, hw.le_one a2, ⟨fun h => ?_, fun h => h ▸ h1⟩, ⟨fun h => ?_, fun h => h ▸ h0⟩, fun k' hk' => ⟨fun h => ?_, hlt k k' hk hk'⟩⟩
  · by_contra hne
    have := hlt k n hk le_rfl (lt_of_le_of_ne hk hne)
    rw [h, h1] at this
    exact lt_irrefl _ this
  · by_contra hne
    have := hlt 0 k (Nat.zero_le _) hk (Nat.pos_of_ne_zero hne)
    rw [h, h0] at this
    exact lt_irrefl _ this
  · by_contra hge
    rcases (not_lt.1 hge).eq_or_lt with rfl | hgt
    · exact lt_irrefl _ h
    · exact lt_asymm h (hlt k' k hk' hk hgt)

/-- C283: the errors by which candidate stumps are compared order the candidates as exact arithmetic does. -/
theorem C283_stump_error (hw : IsRounding wide) {u eta : K} (he : HasError wide u eta) (hu : 0 ≤ u) {n : Nat} (hn : 0 < n) (hsmall : 4 * (u + eta) < 1 / n)
    (k k' : Nat) (hk : k ≤ n) (hk' : k' ≤ n) : stumpError wide k' n < stumpError wide k n ↔ k < k' := by
  have heta : 0 ≤ eta := by
    have := (abs_nonneg _).trans (he.any 0)
    rw [abs_zero, mul_zero, zero_add] at this
    exact this
  have hlt : ∀ k k', k ≤ n → k' ≤ n → k < k' → stumpError wide k' n < stumpError wide k n := by
    intro k k' hk hk' h
    obtain ⟨a1, a2⟩ := ratio_bounds (K := K) hn hk
    obtain ⟨b1, b2⟩ := ratio_bounds (K := K) hn hk'
    have hg := ratio_gap (K := K) hn h
    have e1 := (abs_le.1 (he.any ((k : K) / n))).2
    have e2 := (abs_le.1 (he.any ((k' : K) / n))).1
    rw [abs_of_nonneg a1] at e1
    rw [abs_of_nonneg b1] at e2
    have m1 := mul_le_mul_of_nonneg_left a2 hu
    have m2 := mul_le_mul_of_nonneg_left b2 hu
    have hs : 2 * (u + eta) < 1 / n := by linarith
    obtain ⟨p1, p2, -⟩ := C283_accuracy hw he hu hn hs k hk
    obtain ⟨q1, q2, -⟩ := C283_accuracy hw he hu hn hs k' hk'
    have f1 := (abs_le.1 (he.any (1 - accuracy wide k n))).1
    have f2 := (abs_le.1 (he.any (1 - accuracy wide k' n))).2
    rw [abs_of_nonneg (by linarith)] at f1 f2
    have n1 := mul_le_mul_of_nonneg_left (show 1 - accuracy wide k n ≤ 1 by linarith) hu
    have n2 := mul_le_mul_of_nonneg_left (show 1 - accuracy wide k' n ≤ 1 by linarith) hu
    unfold stumpError
    unfold accuracy at *
    linarith
  refine ⟨fun h => ?_, hlt k k' hk hk'⟩
  by_contra hge
  rcases (not_lt.1 hge).eq_or_lt with rfl | hgt
  · exact lt_irrefl _ h
  · exact lt_asymm h (hlt k' k hk' hk hgt)

/-- C283 in double precision, up to 2⁵⁰ samples. -/
theorem C283_f64 [FloorRing K] {n : Nat} (hn : 0 < n) (hbig : n ≤ 2 ^ 50) (k k' : Nat) (hk : k ≤ n) (hk' : k' ≤ n) :
    (accuracy (f64 : K → K) k n = 1 ↔ k = n) ∧ (accuracy (f64 : K → K) k n < accuracy f64 k' n ↔ k < k') ∧
    (stumpError (f64 : K → K) k' n < stumpError f64 k n ↔ k < k') := by
  have hn' : (0 : K) < n := Nat.cast_pos.2 hn
  have h1 : (1 : K) / 2 ^ 50 ≤ 1 / n := one_div_le_one_div_of_le hn' (by exact_mod_cast hbig)
  have h2 : (2 : K) ^ (-1074 : Int) ≤ 1 / 2 ^ 53 := by
    rw [show (1 : K) / 2 ^ 53 = 2 ^ (-53 : Int) by norm_num]
    exact zpow_le_zpow_right₀ (by norm_num) (by norm_num)
  have h3 : (4 : K) * (1 / 2 ^ 53 + 2 ^ (-1074 : Int) / 2) < 1 / n := by
    have : (4 : K) * (1 / 2 ^ 53 + (1 / 2 ^ 53) / 2) < 1 / 2 ^ 50 := by norm_num
    linarith
  have h5 : (0 : K) < 2 ^ (-1074 : Int) := two_zpow_pos _
  have h4 : (2 : K) * (1 / 2 ^ 53 + 2 ^ (-1074 : Int) / 2) < 1 / n := by
    have : (0 : K) < 1 / 2 ^ 53 := by positivity
    linarith
  obtain ⟨-, -, a, -, b⟩ := C283_accuracy f64_isRounding f64_hasError (by positivity) hn h4 k hk
  exact ⟨a, b k' hk', C283_stump_error f64_isRounding f64_hasError (by positivity) hn h3 k k' hk hk'⟩

example : accuracy (f64 : ℚ → ℚ) 2 3 = f64 (2 / 3) ∧ stumpError (f64 : ℚ → ℚ) 2 3 < stumpError f64 1 3 ∧ accuracy (f64 : ℚ → ℚ) 3 3 = 1 := by decide +kernel

/-! ## C284 -/

/-- Without rounding it is the exact model. -/
theorem standardize_id (x : List K) (hx : x ≠ []) : standardize id id List.sum x = (Prep.standardCall x).2 := by
  have hl : x.length ≠ 0 := fun h => hx (List.length_eq_zero_iff.1 h)
  have hl' : (x.length : K) ≠ 0 := Nat.cast_ne_zero.2 hl
  simp [standardize, Prep.standardCall, variance, mean, Prep.mean, Prep.var, Prep.npDiv, flDiv, hx, hl, hl', sq]

theorem sumLoop_ok (hfl : IsRounding fl) : SumOK (sumLoop fl) := by
  intro x hx
  unfold sumLoop
  have : ∀ (x : List K) (s : K), (∀ v ∈ x, 0 ≤ v) → 0 ≤ s → 0 ≤ x.foldl (fun s t => fl (s + t)) s := by
    intro x
    induction x with
    | nil => intro s _ h; exact h
    | cons a x ih =>
      intro s hx h
      exact ih _ (fun v hv => hx v (by simp [hv])) (hfl.nonneg (add_nonneg h (hx a (by simp))))
  exact this x 0 hx le_rfl

theorem variance_nonneg (hfl : IsRounding fl) (hw : IsRounding wide) {total : List K → K} (ht : SumOK total) (x : List K) : 0 ≤ variance fl wide total x := by
  unfold variance mean
  refine hfl.nonneg (hw.nonneg (div_nonneg (ht _ fun v hv => ?_) (Nat.cast_nonneg _)))
  obtain ⟨w, -, rfl⟩ := List.mem_map.1 hv
  exact hfl.nonneg (mul_self_nonneg _)

/-- C284 (part): in every rounding the scaled values of a row with computed variance other than 0 are numbers in the order of the values; with computed variance 0 none is. -/
theorem C284_order_partial (hfl : IsRounding fl) (hw : IsRounding wide) {total : List K → K} (ht : SumOK total) (x : List K) :
    (standardize fl wide total x).length = x.length ∧
    (variance fl wide total x = 0 → ∀ z ∈ standardize fl wide total x, z = none) ∧
    (variance fl wide total x ≠ 0 → ∀ (i j : Nat) (v v' : K), x[i]? = some v → x[j]? = some v' → v ≤ v' →
      ∃ z z', (standardize fl wide total x)[i]? = some (some z) ∧ (standardize fl wide total x)[j]? = some (some z') ∧ z ≤ z' ∧ fl z = z) := by
  refine ⟨by simp [standardize], fun h z hz => ?_, fun h i j v v' hv hv' hle => ?_⟩
  · obtain ⟨v, -, rfl⟩ := List.mem_map.1 hz
    exact if_pos h
  · have hc : ∀ (i : Nat) (v : K), x[i]? = some v → (standardize fl wide total x)[i]? = some (some (fl (fl (v - mean fl wide total x) / variance fl wide total x))) := by
      intro i v hv
      rw [standardize, List.getElem?_map, hv]
      simp [flDiv, h]
    refine ⟨_, _, hc i v hv, hc j v' hv', ?_, hfl.idem _⟩
    exact hfl.mono _ _ (div_le_div_of_nonneg_right (hfl.mono _ _ (by linarith)) (variance_nonneg hfl hw ht x))

/-- C284 (part): for one or two equal numbers the result is NaN, as in exact arithmetic. -/
theorem C284_two_equal_partial (hfl : IsWider fl wide) (c : K) (hc : IsNumber fl c) :
    standardize fl wide (sumLoop fl) [c] = [none] ∧ standardize fl wide (sumLoop fl) [c, c] = [none, none] := by
  have f := hfl.ofNarrow
  have h2 : fl (c + c) = 2 * c := by rw [← two_mul]; exact f.twice c hc
  have hc' : fl c = c := hc
  constructor
  · simp [standardize, variance, mean, sumLoop, flDiv, hc', f.zero, hfl.ofWide.zero]
  · simp [standardize, variance, mean, sumLoop, flDiv, hc', h2, f.zero, hfl.ofWide.zero]

/-- C284 fails: three equal numbers of single precision may be scaled to -8388608 each, because their computed mean is the next number. (Exact arithmetic: no number,
`C62_constant`.) -/
theorem C284_constant : standardize f32 f64 (sumLoop f32) [6291457 / 4194304, 6291457 / 4194304, (6291457 / 4194304 : ℚ)] =
    [some (-8388608), some (-8388608), some (-8388608)] ∧ f32 (6291457 / 4194304 : ℚ) = 6291457 / 4194304 := by decide +kernel

/-- Three different numbers. -/
example : standardize f32 f64 (sumLoop f32) [1, 2, (3 : ℚ)] = [some (f32 (-(1 / f32 (2 / 3)))), some 0, some (f32 (1 / f32 (2 / 3)))] := by decide +kernel

end CML.Float
