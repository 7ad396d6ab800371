import Verif.Spec.Rounding
import Mathlib.Tactic.Linarith
import Mathlib.Tactic.Ring
import Mathlib.Tactic.FieldSimp
import Mathlib.Tactic.Positivity
import Mathlib.Tactic.NormNum

set_option linter.unusedSectionVars false

namespace CML.Float

variable {K : Type*} [Field K] [LinearOrder K] [IsStrictOrderedRing K] [FloorRing K]

section
variable {L : Type*} [Field L] [LinearOrder L] [IsStrictOrderedRing L]

theorem IsRounding.nonneg {fl : L → L} (h : IsRounding fl) {x : L} (hx : 0 ≤ x) : 0 ≤ fl x := by
  have := h.mono 0 x hx
  rwa [h.zero] at this

theorem IsRounding.nonpos {fl : L → L} (h : IsRounding fl) {x : L} (hx : x ≤ 0) : fl x ≤ 0 := by
  have := h.mono x 0 hx
  rwa [h.zero] at this

theorem IsRounding.le_one {fl : L → L} (h : IsRounding fl) {x : L} (hx : x ≤ 1) : fl x ≤ 1 := by
  have := h.mono x 1 hx
  rwa [h.one] at this

end

theorem nearest_spec (q : K) : |2 * (q - (nearest q : K))| ≤ 1 ∧ (|2 * (q - (nearest q : K))| = 1 → nearest q % 2 = 0) := by
  have h1 := Int.floor_le q
  have h2 := Int.lt_floor_add_one q
  unfold nearest
  split_ifs with a b c
  · rw [abs_of_nonneg (by linarith)]
    exact ⟨a.le, fun h => absurd h (ne_of_lt a)⟩
  · push_cast
    rw [abs_of_nonpos (by linarith)]
    exact ⟨by linarith, fun h => by exfalso; linarith⟩
  · rw [abs_of_nonneg (by linarith)]
    exact ⟨not_lt.1 b, fun _ => c⟩
  · push_cast
    rw [abs_of_nonpos (by linarith)]
    refine ⟨by linarith, fun _ => ?_⟩
    omega

theorem nearest_unique (q : K) (m : Int) (h1 : |2 * (q - (m : K))| ≤ 1) (h2 : |2 * (q - (m : K))| = 1 → m % 2 = 0) : nearest q = m := by
  obtain ⟨g1, g2⟩ := nearest_spec q
  generalize nearest q = k at *
  rw [abs_le] at h1 g1
  by_contra hne
  rcases lt_or_gt_of_ne hne with h | h
  · have h' : (k : K) + 1 ≤ m := by exact_mod_cast h
    have e1 : 2 * (q - (k : K)) = 1 := by linarith
    have e2 : 2 * (q - (m : K)) = -1 := by linarith
    have e3 : (m : K) = k + 1 := by linarith
    have e4 : m = k + 1 := by exact_mod_cast e3
    have := g2 (by rw [e1, abs_one])
    have := h2 (by rw [e2, abs_neg, abs_one])
    omega
  · have h' : (m : K) + 1 ≤ k := by exact_mod_cast h
    have e1 : 2 * (q - (m : K)) = 1 := by linarith
    have e2 : 2 * (q - (k : K)) = -1 := by linarith
    have e3 : (k : K) = m + 1 := by linarith
    have e4 : k = m + 1 := by exact_mod_cast e3
    have := h2 (by rw [e1, abs_one])
    have := g2 (by rw [e2, abs_neg, abs_one])
    omega

theorem nearest_int (m : Int) : nearest (m : K) = m := nearest_unique _ _ (by simp) (by simp)

theorem nearest_neg (q : K) : nearest (-q) = -nearest q := by
  obtain ⟨g1, g2⟩ := nearest_spec q
  have e : 2 * (-q - ((-nearest q : Int) : K)) = -(2 * (q - (nearest q : K))) := by push_cast; ring
  refine nearest_unique _ _ (by rw [e, abs_neg]; exact g1) fun h => ?_
  rw [e, abs_neg] at h
  have := g2 h
  omega

theorem nearest_mono {q r : K} (h : q ≤ r) : nearest q ≤ nearest r := by
  obtain ⟨g1, g2⟩ := nearest_spec q
  obtain ⟨k1, k2⟩ := nearest_spec r
  by_contra hlt
  rw [not_le] at hlt
  generalize nearest q = m at *
  generalize nearest r = k at *
  have h' : (k : K) + 1 ≤ m := by exact_mod_cast hlt
  rw [abs_le] at g1 k1
  have e1 : 2 * (r - (k : K)) = 1 := by linarith
  have e2 : 2 * (q - (m : K)) = -1 := by linarith
  have e3 : (m : K) = k + 1 := by linarith
  have e4 : m = k + 1 := by exact_mod_cast e3
  have := k2 (by rw [e1, abs_one])
  have := g2 (by rw [e2, abs_neg, abs_one])
  omega

/-- The exponent of the unit in the last place. -/
def ulpExp (p : Nat) (emin : Int) (x : K) : Int := max (Int.log 2 |x| - p + 1) emin

theorem rne_eq (p : Nat) (emin : Int) (x : K) : rne p emin x = (nearest (x / 2 ^ ulpExp p emin x) : K) * 2 ^ ulpExp p emin x := rfl

theorem two_zpow_pos (k : Int) : (0 : K) < 2 ^ k := zpow_pos (by norm_num) k

theorem int_of_exp_le {a b : Int} (h : a ≤ b) : ∃ n : Nat, (2 : K) ^ b / 2 ^ a = ((2 ^ n : Int) : K) := by
  obtain ⟨n, rfl⟩ := Int.le.dest h
  refine ⟨n, ?_⟩
  rw [zpow_add₀ (by norm_num), mul_comm, mul_div_assoc, div_self (two_zpow_pos a).ne', mul_one, zpow_natCast]
  push_cast; rfl

theorem rne_neg (p : Nat) (emin : Int) (x : K) : rne p emin (-x) = -rne p emin x := by
  simp only [rne, abs_neg, neg_div, nearest_neg, Int.cast_neg, neg_mul]

theorem rne_zero (p : Nat) (emin : Int) : rne p emin (0 : K) = 0 := by
  have := nearest_int (K := K) 0
  rw [Int.cast_zero] at this
  simp [rne, this]

/-- Every `m * 2 ^ k` with `|m| ≤ 2 ^ p` and `k` not below the smallest exponent is a number of the format. -/
theorem rne_exact {p : Nat} (hp : 1 ≤ p) {emin k : Int} (hk : emin ≤ k) (m : Int) (hm : |m| ≤ 2 ^ p) : rne p emin ((m : K) * 2 ^ k) = m * 2 ^ k := by
  rcases eq_or_ne m 0 with rfl | h0
  · simp [rne_zero]
  have hpos : 0 < |(m : K) * 2 ^ k| := abs_pos.2 (mul_ne_zero (by exact_mod_cast h0) (two_zpow_pos k).ne')
  have habs : |(m : K) * 2 ^ k| = ((|m| : Int) : K) * 2 ^ k := by rw [abs_mul, abs_of_pos (two_zpow_pos (K := K) k), Int.cast_abs]
  have hint : ∀ N : Int, ((m : K) * 2 ^ k) / 2 ^ ulpExp p emin ((m : K) * 2 ^ k) = N → rne p emin ((m : K) * 2 ^ k) = m * 2 ^ k := by
    intro N hN
    rw [rne_eq, hN, nearest_int, ← hN, div_mul_cancel₀ _ (two_zpow_pos _).ne']
  rcases lt_or_eq_of_le hm with hlt | heq
  · have hlog : Int.log 2 |(m : K) * 2 ^ k| < p + k := by
      rw [← Int.lt_zpow_iff_log_lt (by norm_num) hpos, habs]
      have : ((|m| : Int) : K) < 2 ^ p := by exact_mod_cast hlt
      rw [Nat.cast_ofNat, zpow_add₀ (by norm_num), zpow_natCast]
      exact mul_lt_mul_of_pos_right this (two_zpow_pos k)
    have hE : ulpExp p emin ((m : K) * 2 ^ k) ≤ k := max_le (by omega) hk
    obtain ⟨n, hn⟩ := int_of_exp_le (K := K) hE
    refine hint (m * 2 ^ n) ?_
    rw [mul_div_assoc, hn]
    push_cast; rfl
  · have hlog : Int.log 2 |(m : K) * 2 ^ k| = p + k := by
      rw [habs, heq]
      have : (((2 : Int) ^ p : Int) : K) * 2 ^ k = ((2 : Nat) : K) ^ ((p : Int) + k) := by
        rw [Nat.cast_ofNat, zpow_add₀ (by norm_num), zpow_natCast]; push_cast; rfl
      rw [this, Int.log_zpow (by norm_num)]
    have hE : ulpExp p emin ((m : K) * 2 ^ k) = k + 1 := by
      unfold ulpExp
      rw [hlog]
      omega
    have hpm : ∃ t : Int, m = 2 * t := by
      obtain ⟨q, rfl⟩ : ∃ q, p = q + 1 := ⟨p - 1, by omega⟩
      rw [pow_succ] at heq
      rcases abs_choice m with h | h
      · exact ⟨2 ^ q, by rw [← h, heq]; ring⟩
      · exact ⟨-2 ^ q, by have : -m = 2 ^ q * 2 := by rw [← h, heq]
                          linarith⟩
    obtain ⟨t, rfl⟩ := hpm
    refine hint t ?_
    rw [hE, zpow_add₀ (by norm_num), zpow_one]
    push_cast
    have := (two_zpow_pos (K := K) k).ne'
    field_simp

theorem lt_zpow (x : K) (_hx : 0 < |x|) : |x| < 2 ^ (Int.log 2 |x| + 1) := by
  have := Int.lt_zpow_succ_log_self (b := 2) (by norm_num) |x|
  simpa using this

theorem zpow_le (x : K) (hx : 0 < |x|) : (2 : K) ^ Int.log 2 |x| ≤ |x| := by
  have := Int.zpow_log_le_self (b := 2) (by norm_num) hx
  simpa using this

theorem rne_error (p : Nat) (emin : Int) (x : K) : 2 * |rne p emin x - x| ≤ 2 ^ ulpExp p emin x := by
  obtain ⟨h, -⟩ := nearest_spec (x / 2 ^ ulpExp p emin x)
  have hs := two_zpow_pos (K := K) (ulpExp p emin x)
  rw [rne_eq]
  generalize nearest (x / 2 ^ ulpExp p emin x) = m at *
  generalize (2 : K) ^ ulpExp p emin x = s at *
  have : 2 * |(m : K) * s - x| = |2 * (x / s - m)| * s := by
    rw [abs_mul, abs_of_pos (two_pos : (0 : K) < 2), mul_assoc, ← abs_of_pos hs, ← abs_mul, abs_of_pos hs, abs_sub_comm]
    congr 2
    field_simp
  rw [this]
  calc _ ≤ 1 * s := mul_le_mul_of_nonneg_right h hs.le
    _ = s := one_mul s

/-- The value `m` with which a number is represented is at most `2 ^ p`. -/
theorem nearest_bound (p : Nat) (emin : Int) (x : K) : |nearest (x / 2 ^ ulpExp p emin x)| ≤ 2 ^ p := by
  have key : ∀ x : K, 0 ≤ x → nearest (x / 2 ^ ulpExp p emin x) ≤ 2 ^ p := by
    intro x hx
    rcases hx.eq_or_lt with rfl | hx
    · rw [zero_div]
      have := nearest_int (K := K) 0
      rw [Int.cast_zero] at this
      rw [this]; positivity
    have hb : x / 2 ^ ulpExp p emin x ≤ ((2 ^ p : Int) : K) := by
      rw [div_le_iff₀ (two_zpow_pos _)]
      have h1 := lt_zpow x (abs_pos.2 hx.ne')
      rw [abs_of_pos hx] at h1
      refine h1.le.trans ?_
      push_cast
      rw [← zpow_natCast, ← zpow_add₀ (by norm_num)]
      refine zpow_le_zpow_right₀ (by norm_num) ?_
      have : Int.log 2 |x| - p + 1 ≤ ulpExp p emin x := le_max_left _ _
      rw [abs_of_pos hx] at this
      omega
    have := nearest_mono hb
    rwa [nearest_int] at this
  rcases le_total 0 x with h | h
  · rw [abs_le]
    refine ⟨?_, key x h⟩
    have : nearest (0 : K) ≤ nearest (x / 2 ^ ulpExp p emin x) := nearest_mono (div_nonneg h (two_zpow_pos _).le)
    have h0 := nearest_int (K := K) 0
    rw [Int.cast_zero] at h0
    rw [h0] at this
    have : (0 : Int) ≤ 2 ^ p := by positivity
    omega
  · have := key (-x) (by linarith)
    have e : ulpExp p emin (-x) = ulpExp p emin x := by simp [ulpExp]
    rw [e, neg_div, nearest_neg] at this
    rw [abs_le]
    refine ⟨by omega, ?_⟩
    have : nearest (x / 2 ^ ulpExp p emin x) ≤ nearest (0 : K) := nearest_mono (div_nonpos_of_nonpos_of_nonneg h (two_zpow_pos _).le)
    have h0 := nearest_int (K := K) 0
    rw [Int.cast_zero] at h0
    rw [h0] at this
    have : (0 : Int) ≤ 2 ^ p := by positivity
    omega

theorem rne_nonneg (p : Nat) (emin : Int) {x : K} (h : 0 ≤ x) : 0 ≤ rne p emin x := by
  have : nearest (0 : K) ≤ nearest (x / 2 ^ ulpExp p emin x) := nearest_mono (div_nonneg h (two_zpow_pos _).le)
  have h0 := nearest_int (K := K) 0
  rw [Int.cast_zero] at h0
  rw [h0] at this
  rw [rne_eq]
  exact mul_nonneg (by exact_mod_cast this) (two_zpow_pos _).le

theorem rne_mono {p : Nat} (hp : 1 ≤ p) (emin : Int) {x y : K} (h : x ≤ y) : rne p emin x ≤ rne p emin y := by
  have key : ∀ x y : K, 0 < x → x ≤ y → rne p emin x ≤ rne p emin y := by
    intro x y hx h
    have hy : 0 < y := hx.trans_le h
    have hl : Int.log 2 |x| ≤ Int.log 2 |y| := by rw [abs_of_pos hx, abs_of_pos hy]; exact Int.log_mono_right hx h
    have hE : ulpExp p emin x ≤ ulpExp p emin y := max_le_max (by omega) le_rfl
    rcases hE.eq_or_lt with he | hlt
    · rw [rne_eq, rne_eq, he]
      have : nearest (x / 2 ^ ulpExp p emin y) ≤ nearest (y / 2 ^ ulpExp p emin y) := nearest_mono (div_le_div_of_nonneg_right h (two_zpow_pos _).le)
      exact mul_le_mul_of_nonneg_right (by exact_mod_cast this) (two_zpow_pos _).le
    · have hEy : ulpExp p emin y = Int.log 2 |y| - p + 1 := by
        unfold ulpExp at hlt ⊢
        have := le_max_right (Int.log 2 |x| - ↑p + 1) emin
        omega
      have hlt' : Int.log 2 |x| + 1 ≤ Int.log 2 |y| := by
        unfold ulpExp at hlt
        omega
      have a : rne p emin x ≤ 2 ^ Int.log 2 |y| := by
        obtain ⟨n, hn⟩ := int_of_exp_le (K := K) (a := ulpExp p emin x) (b := Int.log 2 |y|) (by omega)
        have hx1 := lt_zpow x (abs_pos.2 hx.ne')
        have hx2 : x ≤ 2 ^ Int.log 2 |y| := (le_abs_self x).trans (hx1.le.trans (zpow_le_zpow_right₀ (by norm_num) hlt'))
        have := nearest_mono (div_le_div_of_nonneg_right hx2 (two_zpow_pos (ulpExp p emin x)).le)
        rw [hn, nearest_int] at this
        rw [rne_eq]
        have h2 : (nearest (x / 2 ^ ulpExp p emin x) : K) ≤ (2 : K) ^ Int.log 2 |y| / 2 ^ ulpExp p emin x := by rw [hn]; exact_mod_cast this
        rwa [le_div_iff₀ (two_zpow_pos _)] at h2
      have b : (2 : K) ^ Int.log 2 |y| ≤ rne p emin y := by
        obtain ⟨n, hn⟩ := int_of_exp_le (K := K) (a := ulpExp p emin y) (b := Int.log 2 |y|) (by omega)
        have hy1 := zpow_le y (abs_pos.2 hy.ne')
        rw [abs_of_pos hy] at hy1
        rw [abs_of_pos hy] at hn
        have := nearest_mono (div_le_div_of_nonneg_right hy1 (two_zpow_pos (ulpExp p emin y)).le)
        rw [hn, nearest_int] at this
        rw [rne_eq, abs_of_pos hy]
        have h2 : (2 : K) ^ Int.log 2 y / 2 ^ ulpExp p emin y ≤ (nearest (y / 2 ^ ulpExp p emin y) : K) := by rw [hn]; exact_mod_cast this
        rwa [div_le_iff₀ (two_zpow_pos _)] at h2
      exact a.trans b
  rcases lt_or_ge 0 x with hx | hx
  · exact key x y hx h
  rcases lt_or_ge y 0 with hy | hy
  · have := key (-y) (-x) (by linarith) (by linarith)
    rw [rne_neg, rne_neg] at this
    linarith
  · have h1 := rne_nonneg p emin hy
    have h2 := rne_nonneg p emin (x := -x) (by linarith)
    rw [rne_neg] at h2
    linarith

theorem ulpExp_ge (p : Nat) (emin : Int) (x : K) : emin ≤ ulpExp p emin x := le_max_right _ _

/-- The numbers of the format. -/
theorem rne_fixed_iff {p : Nat} (hp : 1 ≤ p) (emin : Int) (x : K) :
    rne p emin x = x ↔ ∃ m k : Int, emin ≤ k ∧ |m| ≤ 2 ^ p ∧ x = m * 2 ^ k := by
  constructor
  · intro h
    exact ⟨_, _, ulpExp_ge p emin x, nearest_bound p emin x, by rw [← rne_eq, h]⟩
  · rintro ⟨m, k, hk, hm, rfl⟩
    exact rne_exact hp hk m hm

theorem rne_isRounding {p : Nat} (hp : 1 ≤ p) {emin : Int} (he : emin ≤ 0) : IsRounding (rne p emin : K → K) where
  mono _ _ h := rne_mono hp emin h
  zero := rne_zero p emin
  one := by
    have := rne_exact (K := K) hp he 1 (by rw [abs_one]; exact one_le_pow₀ (by norm_num))
    simpa using this
  neg := rne_neg p emin
  idem x := (rne_fixed_iff hp emin _).2 ⟨_, _, ulpExp_ge p emin x, nearest_bound p emin x, rfl⟩
  twice x h := by
    obtain ⟨m, k, hk, hm, rfl⟩ := (rne_fixed_iff hp emin x).1 h
    refine (rne_fixed_iff hp emin _).2 ⟨m, k + 1, by omega, hm, ?_⟩
    rw [zpow_add₀ (by norm_num), zpow_one]; ring
  diff x y hx hy h := by
    obtain ⟨m, k, hk, hm, rfl⟩ := (rne_fixed_iff hp emin x).1 hx
    obtain ⟨m', k', hk', hm', rfl⟩ := (rne_fixed_iff hp emin y).1 hy
    by_contra hne
    -- both are multiples of the smallest number
    obtain ⟨a, ha⟩ := int_of_exp_le (K := K) hk
    obtain ⟨b, hb⟩ := int_of_exp_le (K := K) hk'
    have hs := two_zpow_pos (K := K) emin
    have ea : (2 : K) ^ k = ((2 ^ a : Int) : K) * 2 ^ emin := by rw [← ha, div_mul_cancel₀ _ hs.ne']
    have eb : (2 : K) ^ k' = ((2 ^ b : Int) : K) * 2 ^ emin := by rw [← hb, div_mul_cancel₀ _ hs.ne']
    have hd : (m : K) * 2 ^ k - m' * 2 ^ k' = ((m * 2 ^ a - m' * 2 ^ b : Int) : K) * 2 ^ emin := by rw [ea, eb]; push_cast; ring
    have hz : m * 2 ^ a - m' * 2 ^ b ≠ 0 := by
      intro h0
      rw [h0] at hd
      simp only [Int.cast_zero, zero_mul, sub_eq_zero] at hd
      exact hne hd
    rw [hd] at h
    have h1 : rne p emin ((1 : Int) * 2 ^ emin : K) = (1 : Int) * 2 ^ emin := rne_exact hp le_rfl 1 (by rw [abs_one]; exact one_le_pow₀ (by norm_num))
    generalize m * 2 ^ a - m' * 2 ^ b = z at *
    rcases lt_or_gt_of_ne hz with hz | hz
    · have : ((1 : Int) : K) * 2 ^ emin ≤ ((-z : Int) : K) * 2 ^ emin := mul_le_mul_of_nonneg_right (by exact_mod_cast (by omega : (1 : Int) ≤ -z)) hs.le
      have := rne_mono hp emin this
      rw [h1, Int.cast_neg, neg_mul, rne_neg, h, neg_zero] at this
      rw [Int.cast_one, one_mul] at this
      exact absurd this (not_le.2 hs)
    · have : ((1 : Int) : K) * 2 ^ emin ≤ (z : K) * 2 ^ emin := mul_le_mul_of_nonneg_right (by exact_mod_cast (by omega : (1 : Int) ≤ z)) hs.le
      have := rne_mono hp emin this
      rw [h1, h, Int.cast_one, one_mul] at this
      exact absurd this (not_le.2 hs)

theorem rne_precision (p : Nat) (emin : Int) : HasPrecision (rne p emin : K → K) (1 / 2 ^ p) fun x => x = 0 ∨ 2 ^ (emin + p - 1) ≤ |x| := by
  rintro x (rfl | hx)
  · simp [rne_zero]
  have hpos : 0 < |x| := (two_zpow_pos _).trans_le hx
  have hl : emin + p - 1 ≤ Int.log 2 |x| := by
    have := Int.log_mono_right (b := 2) (two_zpow_pos (K := K) (emin + p - 1)) hx
    have e : (2 : K) ^ (emin + p - 1) = ((2 : Nat) : K) ^ (emin + p - 1) := by rw [Nat.cast_ofNat]
    rwa [e, Int.log_zpow (by norm_num)] at this
  have hE : ulpExp p emin x = Int.log 2 |x| - p + 1 := max_eq_left (by omega)
  have h1 := rne_error p emin x
  rw [hE, zpow_add₀ (by norm_num), zpow_one, zpow_sub₀ (by norm_num), zpow_natCast] at h1
  have h2 := zpow_le x hpos
  have h3 : (2 : K) ^ Int.log 2 |x| / 2 ^ p ≤ |x| / 2 ^ p := div_le_div_of_nonneg_right h2 (by positivity)
  rw [one_div, inv_mul_eq_div]
  linarith

theorem f32_isRounding : IsRounding (f32 : K → K) := rne_isRounding (by norm_num) (by norm_num)
theorem f64_isRounding : IsRounding (f64 : K → K) := rne_isRounding (by norm_num) (by norm_num)

end CML.Float
