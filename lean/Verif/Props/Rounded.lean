import Verif.Spec.Rounded
import Verif.Lemmas.Rounded
import Mathlib.Data.Nat.Prime.Basic
import Mathlib.Data.Nat.PrimeFin
import Mathlib.Data.Fin.VecNotation
import Mathlib.Algebra.Order.BigOperators.Group.Finset
import Mathlib.Algebra.BigOperators.Field
import Mathlib.Data.List.Nodup
import Mathlib.Algebra.BigOperators.Group.Finset.Basic

set_option linter.unusedSectionVars false

/-! # Properties C275-C278: scaling and shares in floating point -/

namespace CML.Float
open CML.Prep

variable {K : Type*} [Field K] [LinearOrder K] [IsStrictOrderedRing K] {fl : K → K}

/-! ## C275: MinMaxScaler -/

/-- Without rounding it is the exact model. -/
theorem minMaxCall_id (x : List K) : minMaxCall id x = Prep.minMaxCall x := by
  unfold minMaxCall Prep.minMaxCall flDiv npDiv
  rfl

theorem minMax_ok {x : List K} {lo hi : K} {z : List (Option K)} (h : minMaxCall fl x = .ok ((lo, hi), z)) :
    x.min? = some lo ∧ x.max? = some hi ∧ z = x.map fun v => flDiv fl (fl (v - lo)) (fl (hi - lo)) := by
  unfold minMaxCall at h
  split at h
  · rename_i lo' hi' h1 h2
    injection h with h
    injection h with h h3
    injection h with h4 h5
    subst h4 h5 h3
    exact ⟨h1, h2, rfl⟩
  · cases h

/-- One cell: between 0 and 1, a number of the format, 0 for the minimum and 1 for the maximum. -/
theorem cell_spec (hfl : IsRounding fl) {lo hi v : K} (hlo : IsNumber fl lo) (hhi : IsNumber fl hi) (hlt : lo < hi) (h1 : lo ≤ v) (h2 : v ≤ hi) :
    ∃ w, flDiv fl (fl (v - lo)) (fl (hi - lo)) = some w ∧ 0 ≤ w ∧ w ≤ 1 ∧ IsNumber fl w ∧ (v = lo → w = 0) ∧ (v = hi → w = 1) := by
  have hd0 : fl (hi - lo) ≠ 0 := fun h => hlt.ne' (hfl.diff hi lo hhi hlo h)
  have hd : 0 < fl (hi - lo) := lt_of_le_of_ne (hfl.nonneg (by linarith)) (Ne.symm hd0)
  have ha : 0 ≤ fl (v - lo) := hfl.nonneg (by linarith)
  have hle : fl (v - lo) ≤ fl (hi - lo) := hfl.mono _ _ (by linarith)
  refine ⟨_, if_neg hd0, hfl.nonneg (div_nonneg ha hd.le), hfl.le_one ((div_le_one hd).2 hle), hfl.idem _, ?_, ?_⟩
  · rintro rfl; rw [sub_self, hfl.zero, zero_div, hfl.zero]
  · rintro rfl; rw [div_self hd0, hfl.one]

/-- C275: whatever the rounding, the scaled values of numbers of the format that are not all equal are finite numbers of the format between 0 and 1; the
minimum becomes 0 and the maximum 1; a larger value does not become smaller. -/
theorem C275_scaled (hfl : IsRounding fl) {x : List K} (hx : ∀ v ∈ x, IsNumber fl v) {lo hi : K} {z : List (Option K)}
    (h : minMaxCall fl x = .ok ((lo, hi), z)) (hlt : lo < hi) :
    z.length = x.length ∧
    (∀ (i : Nat) (v : K), x[i]? = some v → ∃ w, z[i]? = some (some w) ∧ 0 ≤ w ∧ w ≤ 1 ∧ IsNumber fl w ∧ (v = lo → w = 0) ∧ (v = hi → w = 1)) ∧
    (∀ (i j : Nat) (v v' w w' : K), x[i]? = some v → x[j]? = some v' → v ≤ v' → z[i]? = some (some w) → z[j]? = some (some w') → w ≤ w') := by
  obtain ⟨h1, h2, rfl⟩ := minMax_ok h
  rw [List.min?_eq_some_iff] at h1
  rw [List.max?_eq_some_iff] at h2
  have hd0 : fl (hi - lo) ≠ 0 := fun h => hlt.ne' (hfl.diff hi lo (hx _ h2.1) (hx _ h1.1) h)
  refine ⟨by simp, fun i v hv => ?_, fun i j v v' w w' hv hv' hle hw hw' => ?_⟩
  · have hm : v ∈ x := List.mem_of_getElem? hv
    obtain ⟨w, hw, r⟩ := cell_spec hfl (hx _ h1.1) (hx _ h2.1) hlt (h1.2 v hm) (h2.2 v hm)
    exact ⟨w, by rw [List.getElem?_map, hv]; simp [hw], r⟩
  · rw [List.getElem?_map, hv] at hw
    rw [List.getElem?_map, hv'] at hw'
    simp only [Option.map_some, Option.some.injEq, flDiv, if_neg hd0] at hw hw'
    rw [← hw, ← hw']
    exact hfl.mono _ _ (div_le_div_of_nonneg_right (hfl.mono _ _ (by linarith)) (hfl.nonneg (by linarith)))

/-- C275: equal values give no number; an empty array raises. -/
theorem C275_degenerate (hfl : IsRounding fl) (x : List K) :
    (x = [] ↔ minMaxCall fl x = .error .valueError) ∧
    (∀ c, x ≠ [] → (∀ v ∈ x, v = c) → minMaxCall fl x = .ok ((c, c), x.map fun _ => none)) := by
  constructor
  · constructor
    · rintro rfl; rfl
    · intro h
      by_contra hne
      unfold minMaxCall at h
      split at h
      · cases h
      · rename_i hh
        obtain ⟨lo, hlo⟩ := Option.isSome_iff_exists.1 (List.isSome_min?_of_ne_nil hne)
        obtain ⟨hi, hhi⟩ := Option.isSome_iff_exists.1 (List.isSome_max?_of_ne_nil hne)
        exact hh lo hi hlo hhi
  · intro c hne hc
    obtain ⟨a, ha⟩ := List.exists_mem_of_ne_nil x hne
    have h1 : x.min? = some c := List.min?_eq_some_iff.2 ⟨hc a ha ▸ ha, fun v hv => (hc v hv).ge⟩
    have h2 : x.max? = some c := List.max?_eq_some_iff.2 ⟨hc a ha ▸ ha, fun v hv => (hc v hv).le⟩
    unfold minMaxCall
    rw [h1, h2]
    simp [flDiv, hfl.zero]

/-- Three values in single precision. -/
example : minMaxCall f32 [1, 3, (16777215 : ℚ)] = .ok ((1, 16777215), [some 0, some (f32 (2 / 16777214)), some 1]) ∧
    ∀ v ∈ [1, 3, (16777215 : ℚ)], f32 v = v := by decide +kernel

/-! ## C276: the inverse -/

/-- C276 (part): `inverse` gives the minimum back exactly, whatever the rounding, does not reverse the order, and yields nothing below the minimum. -/
theorem C276_inverse_partial (hfl : IsRounding fl) {x : List K} (hx : ∀ v ∈ x, IsNumber fl v) {lo hi : K} {z : List (Option K)}
    (h : minMaxCall fl x = .ok ((lo, hi), z)) (hlt : lo < hi) :
    (∀ (i : Nat) (v : K), x[i]? = some v → ∃ r, (minMaxInverse fl (lo, hi) z)[i]? = some (some r) ∧ lo ≤ r ∧ (v = lo → r = lo)) ∧
    (∀ (i j : Nat) (v v' r r' : K), x[i]? = some v → x[j]? = some v' → v ≤ v' → (minMaxInverse fl (lo, hi) z)[i]? = some (some r) →
      (minMaxInverse fl (lo, hi) z)[j]? = some (some r') → r ≤ r') := by
  obtain ⟨-, hz, hm⟩ := C275_scaled hfl hx h hlt
  obtain ⟨h1, h2, -⟩ := minMax_ok h
  have hlo := hx _ (List.min?_eq_some_iff.1 h1).1
  have hd : 0 ≤ fl (hi - lo) := hfl.nonneg (by linarith)
  have key : ∀ (i : Nat) (v : K), x[i]? = some v → ∃ w, z[i]? = some (some w) ∧ 0 ≤ w ∧ (v = lo → w = 0) ∧
      (minMaxInverse fl (lo, hi) z)[i]? = some (some (fl (fl (w * fl (hi - lo)) + lo))) := by
    intro i v hv
    obtain ⟨w, hw, h0, -, -, hl, -⟩ := hz i v hv
    exact ⟨w, hw, h0, hl, by rw [minMaxInverse, List.getElem?_map, hw]; rfl⟩
  refine ⟨fun i v hv => ?_, fun i j v v' r r' hv hv' hle hr hr' => ?_⟩
  · obtain ⟨w, hw, h0, hl, hr⟩ := key i v hv
    refine ⟨_, hr, ?_, fun he => ?_⟩
    · have := hfl.mono lo (fl (w * fl (hi - lo)) + lo) (by have := hfl.nonneg (mul_nonneg h0 hd); linarith)
      rwa [hlo] at this
    · rw [hl he, zero_mul, hfl.zero, zero_add, hlo]
  · obtain ⟨w, hw, h0, -, e1⟩ := key i v hv
    obtain ⟨w', hw', h0', -, e2⟩ := key j v' hv'
    rw [e1] at hr
    rw [e2] at hr'
    simp only [Option.some.injEq] at hr hr'
    rw [← hr, ← hr']
    have := hm i j v v' w w' hv hv' hle hw hw'
    have := hfl.mono _ _ (mul_le_mul_of_nonneg_right this hd)
    exact hfl.mono _ _ (by linarith)

/-- C276 fails for the other values: in single precision `-1` and `2⁻³⁰` are scaled to 0 and 1, and come back as `-1` and 0. -/
theorem C276_lost : minMaxCall f32 [-1, (1 / 2 ^ 30 : ℚ)] = .ok ((-1, 1 / 2 ^ 30), [some 0, some 1]) ∧
    f32 (-1 : ℚ) = -1 ∧ f32 (1 / 2 ^ 30 : ℚ) = 1 / 2 ^ 30 ∧
    minMaxInverse f32 (-1, (1 / 2 ^ 30 : ℚ)) [some 0, some 1] = [some (-1), some 0] := by decide +kernel

/-! ## Sums -/

theorem sum_number (hfl : IsRounding fl) {n : Nat} (e : Fin n → K) (he : ∀ i, IsNumber fl (e i)) : ∀ o : Order n, IsNumber fl (o.sum fl e)
  | .entry i => he i
  | .add _ _ => hfl.idem _

theorem sum_nonneg (hfl : IsRounding fl) {n : Nat} (e : Fin n → K) (h0 : ∀ i, 0 ≤ e i) : ∀ o : Order n, 0 ≤ o.sum fl e
  | .entry i => h0 i
  | .add a b => hfl.nonneg (add_nonneg (sum_nonneg hfl e h0 a) (sum_nonneg hfl e h0 b))

/-- A sum of non-negative numbers is at least each of them, whatever the rounding and the order. -/
theorem entry_le_sum (hfl : IsRounding fl) {n : Nat} (e : Fin n → K) (he : ∀ i, IsNumber fl (e i)) (h0 : ∀ i, 0 ≤ e i) :
    ∀ (o : Order n) (i : Fin n), i ∈ o.entries → e i ≤ o.sum fl e
  | .entry j, i, hi => by
    rw [Order.entries, List.mem_singleton] at hi
    subst hi
    exact le_rfl
  | .add a b, i, hi => by
    rw [Order.entries, List.mem_append] at hi
    have ha := sum_nonneg hfl e h0 a
    have hb := sum_nonneg hfl e h0 b
    have hle : e i ≤ a.sum fl e + b.sum fl e := by
      rcases hi with hi | hi
      · have := entry_le_sum hfl e he h0 a i hi; linarith
      · have := entry_le_sum hfl e he h0 b i hi; linarith
    have := hfl.mono _ _ hle
    rwa [he i] at this

/-- The exact sum along an order. -/
theorem sum_id {n : Nat} (e : Fin n → K) : ∀ o : Order n, o.sum id e = (o.entries.map e).sum
  | .entry i => by simp [Order.sum, Order.entries]
  | .add a b => by simp [Order.sum, Order.entries, sum_id e a, sum_id e b]

theorem sum_complete {n : Nat} (e : Fin n → K) (o : Order n) (ho : o.Complete) : o.sum id e = ∑ i, e i := by
  rw [sum_id, ← List.sum_toFinset e ho.1]
  exact Finset.sum_congr (Finset.eq_univ_iff_forall.2 fun i => List.mem_toFinset.2 (ho.2 i)) fun _ _ => rfl

theorem sum_zero (hfl : IsRounding fl) {n : Nat} (e : Fin n → K) (h : ∀ i, e i = 0) : ∀ o : Order n, o.sum fl e = 0
  | .entry i => h i
  | .add a b => by rw [Order.sum, sum_zero hfl e h a, sum_zero hfl e h b, add_zero, hfl.zero]

theorem sum_bounds {u eta : K} (hfl : IsRounding fl) (he : HasError fl u eta) (hu0 : 0 ≤ u) (hu1 : u ≤ 1) {n : Nat} (e : Fin n → K)
    (hn : ∀ i, IsNumber fl (e i)) (h0 : ∀ i, 0 ≤ e i) :
    ∀ o : Order n, (1 - u) ^ o.depth * o.sum id e ≤ o.sum fl e ∧ o.sum fl e ≤ (1 + u) ^ o.depth * o.sum id e
  | .entry i => by simp [Order.depth, Order.sum]
  | .add a b => by
    obtain ⟨a1, a2⟩ := sum_bounds hfl he hu0 hu1 e hn h0 a
    obtain ⟨b1, b2⟩ := sum_bounds hfl he hu0 hu1 e hn h0 b
    have na := sum_nonneg hfl e h0 a
    have nb := sum_nonneg hfl e h0 b
    have ia : 0 ≤ a.sum id e := by rw [sum_id]; exact List.sum_nonneg (by simpa using fun i _ => h0 i)
    have ib : 0 ≤ b.sum id e := by rw [sum_id]; exact List.sum_nonneg (by simpa using fun i _ => h0 i)
    have hr := he.add _ _ (sum_number hfl e hn a) (sum_number hfl e hn b)
    rw [abs_of_nonneg (add_nonneg na nb), abs_le] at hr
    have pa : (1 - u) ^ max a.depth b.depth ≤ (1 - u) ^ a.depth := pow_le_pow_of_le_one (by linarith) (by linarith) (le_max_left _ _)
    have pb : (1 - u) ^ max a.depth b.depth ≤ (1 - u) ^ b.depth := pow_le_pow_of_le_one (by linarith) (by linarith) (le_max_right _ _)
    have qa : (1 + u) ^ a.depth ≤ (1 + u) ^ max a.depth b.depth := pow_le_pow_right₀ (by linarith) (le_max_left _ _)
    have qb : (1 + u) ^ b.depth ≤ (1 + u) ^ max a.depth b.depth := pow_le_pow_right₀ (by linarith) (le_max_right _ _)
    simp only [Order.depth, Order.sum, id, pow_succ]
    have x1 := mul_le_mul_of_nonneg_right pa ia
    have x2 := mul_le_mul_of_nonneg_right pb ib
    have x3 := mul_le_mul_of_nonneg_right qa ia
    have x4 := mul_le_mul_of_nonneg_right qb ib
    constructor
    · have : (1 - u) ^ max a.depth b.depth * (a.sum id e + b.sum id e) ≤ a.sum fl e + b.sum fl e := by linarith
      have := mul_le_mul_of_nonneg_left this (by linarith : (0 : K) ≤ 1 - u)
      linarith
    · have : a.sum fl e + b.sum fl e ≤ (1 + u) ^ max a.depth b.depth * (a.sum id e + b.sum id e) := by linarith
      have := mul_le_mul_of_nonneg_left this (by linarith : (0 : K) ≤ 1 + u)
      linarith

/-! ## Shares -/

theorem sum_eq_zero_iff (hfl : IsRounding fl) {n : Nat} {o : Order n} (ho : o.Complete) {e : Fin n → K} (hn : ∀ i, IsNumber fl (e i)) (h0 : ∀ i, 0 ≤ e i) :
    o.sum fl e = 0 ↔ ∀ i, e i = 0 := by
  refine ⟨fun h i => ?_, fun h => sum_zero hfl e h o⟩
  have := entry_le_sum hfl e hn h0 o i (ho.2 i)
  exact le_antisymm (h ▸ this) (h0 i)

theorem shares_spec (hfl : IsRounding fl) {n : Nat} {o : Order n} (ho : o.Complete) {e : Fin n → K} (hn : ∀ i, IsNumber fl (e i)) (h0 : ∀ i, 0 ≤ e i) :
    ((∃ i, e i ≠ 0) → ∀ i, ∃ w, shares fl o e i = some w ∧ 0 ≤ w ∧ w ≤ 1 ∧ IsNumber fl w) ∧
    ((∀ i, e i = 0) → ∀ i, shares fl o e i = none) ∧
    (∀ i j w w', e i ≤ e j → shares fl o e i = some w → shares fl o e j = some w' → w ≤ w') := by
  have hS := sum_nonneg hfl e h0 o
  refine ⟨fun hne i => ?_, fun h i => if_pos (sum_zero hfl e h o), fun i j w w' hle hw hw' => ?_⟩
  · have hz : o.sum fl e ≠ 0 := fun h => by obtain ⟨i, hi⟩ := hne; exact hi ((sum_eq_zero_iff hfl ho hn h0).1 h i)
    have hpos := lt_of_le_of_ne hS (Ne.symm hz)
    exact ⟨_, if_neg hz, hfl.nonneg (div_nonneg (h0 i) hS), hfl.le_one ((div_le_one hpos).2 (entry_le_sum hfl e hn h0 o i (ho.2 i))), hfl.idem _⟩
  · unfold shares flDiv at hw hw'
    split_ifs at hw with hz
    rw [if_neg hz] at hw'
    injection hw with hw
    injection hw' with hw'
    rw [← hw, ← hw']
    exact hfl.mono _ _ (div_le_div_of_nonneg_right hle hS)

/-- The exact sum of the shares is 1 up to the roundings. -/
theorem shares_total {u eta : K} (hfl : IsRounding fl) (he : HasError fl u eta) (hu0 : 0 ≤ u) (hu1 : u < 1) {n : Nat} {o : Order n} (ho : o.Complete)
    {e : Fin n → K} (hn : ∀ i, IsNumber fl (e i)) (h0 : ∀ i, 0 ≤ e i) (hne : ∃ i, e i ≠ 0) (w : Fin n → K) (hw : ∀ i, shares fl o e i = some (w i)) :
    (1 - u) / (1 + u) ^ o.depth - n * eta ≤ ∑ i, w i ∧ ∑ i, w i ≤ (1 + u) / (1 - u) ^ o.depth + n * eta := by
  have hz : o.sum fl e ≠ 0 := fun h => by obtain ⟨i, hi⟩ := hne; exact hi ((sum_eq_zero_iff hfl ho hn h0).1 h i)
  have hS := lt_of_le_of_ne (sum_nonneg hfl e h0 o) (Ne.symm hz)
  obtain ⟨b1, b2⟩ := sum_bounds hfl he hu0 hu1.le e hn h0 o
  rw [sum_complete e o ho] at b1 b2
  have hwi : ∀ i, |w i - e i / o.sum fl e| ≤ u * (e i / o.sum fl e) + eta := by
    intro i
    have h := hw i
    unfold shares flDiv at h
    rw [if_neg hz] at h
    injection h with h
    rw [← h]
    have := he.any (e i / o.sum fl e)
    rwa [abs_of_nonneg (div_nonneg (h0 i) hS.le)] at this
  generalize o.sum fl e = S at *
  have hlow : (1 - u) * ((∑ i, e i) / S) - n * eta ≤ ∑ i, w i := by
    rw [Finset.sum_div, Finset.mul_sum]
    have : (n : K) * eta = ∑ _i : Fin n, eta := by simp
    rw [this, ← Finset.sum_sub_distrib]
    refine Finset.sum_le_sum fun i _ => ?_
    have := (abs_le.1 (hwi i)).1
    linarith
  have hupp : ∑ i, w i ≤ (1 + u) * ((∑ i, e i) / S) + n * eta := by
    rw [Finset.sum_div, Finset.mul_sum]
    have : (n : K) * eta = ∑ _i : Fin n, eta := by simp
    rw [this, ← Finset.sum_add_distrib]
    refine Finset.sum_le_sum fun i _ => ?_
    have := (abs_le.1 (hwi i)).2
    linarith
  have p1 : (0 : K) < (1 + u) ^ o.depth := pow_pos (by linarith) _
  have p2 : (0 : K) < (1 - u) ^ o.depth := pow_pos (by linarith) _
  constructor
  · refine le_trans ?_ hlow
    have : 1 / (1 + u) ^ o.depth ≤ (∑ i, e i) / S := by
      rw [div_le_div_iff₀ p1 hS]; linarith
    have := mul_le_mul_of_nonneg_left this (by linarith : (0 : K) ≤ 1 - u)
    rw [mul_one_div] at this
    linarith
  · refine hupp.trans ?_
    have : (∑ i, e i) / S ≤ 1 / (1 - u) ^ o.depth := by
      rw [div_le_div_iff₀ hS p2]; linarith
    have := mul_le_mul_of_nonneg_left this (by linarith : (0 : K) ≤ 1 + u)
    rw [mul_one_div] at this
    linarith

/-! ## C277: softmax -/

theorem softmax_ok {m n : Nat} (fl ex : K → K) (o : Order n) (z : Fin m → Fin n → K) {M : K} (hM : IsLargest z M) :
    softmax fl ex o z = .ok fun i => softmaxRow fl ex o M (z i) := by
  have : (List.ofFn fun i => List.ofFn (z i)).flatten.max? = some M := by
    rw [List.max?_eq_some_iff]
    obtain ⟨⟨i, j, rfl⟩, hle⟩ := hM
    constructor
    · rw [List.mem_flatten]
      exact ⟨_, List.mem_ofFn.2 ⟨i, rfl⟩, List.mem_ofFn.2 ⟨j, rfl⟩⟩
    · intro b hb
      rw [List.mem_flatten] at hb
      obtain ⟨l, hl, hb⟩ := hb
      obtain ⟨i, rfl⟩ := List.mem_ofFn.1 hl
      obtain ⟨j, rfl⟩ := List.mem_ofFn.1 hb
      exact hle i j
  unfold softmax
  rw [this]

/-- C277 (part): in every rounding a row of the result is either free of NaN, with entries between 0 and 1 in the order of the inputs, or entirely NaN; it is
NaN exactly if the exponentials of all its entries underflow after the *global* maximum is subtracted. -/
theorem C277_rows_partial {ex : K → K} (hfl : IsRounding fl) (hex : IsExp fl ex) {m n : Nat} {o : Order n} (ho : o.Complete) (z : Fin m → Fin n → K) {M : K}
    (hM : IsLargest z M) :
    ∃ s, softmax fl ex o z = .ok s ∧ ∀ i,
      ((∃ j, ex (fl (z i j - M)) ≠ 0) → ∀ j, ∃ w, s i j = some w ∧ 0 ≤ w ∧ w ≤ 1 ∧ IsNumber fl w) ∧
      ((∀ j, ex (fl (z i j - M)) = 0) → ∀ j, s i j = none) ∧
      (∀ j j' w w', z i j ≤ z i j' → s i j = some w → s i j' = some w' → w ≤ w') := by
  refine ⟨_, softmax_ok fl ex o z hM, fun i => ?_⟩
  obtain ⟨h1, h2, h3⟩ := shares_spec hfl ho (e := fun j => ex (fl (z i j - M))) (fun j => hex.number _) (fun j => hex.nonneg _)
  exact ⟨h1, h2, fun j j' w w' hle => h3 j j' w w' (hex.mono _ _ (hfl.mono _ _ (by linarith)))⟩

/-- C277 (part): the row with the largest entry of the matrix, in particular a single row, is free of NaN, and its total is 1 up to the roundings. -/
theorem C277_largest_row_partial {ex : K → K} {u eta : K} (hfl : IsRounding fl) (he : HasError fl u eta) (hu0 : 0 ≤ u) (hu1 : u < 1) (hex : IsExp fl ex)
    {m n : Nat} {o : Order n} (ho : o.Complete) (z : Fin m → Fin n → K) {M : K} (hM : IsLargest z M) (i : Fin m) (hi : ∃ j, z i j = M) :
    ∃ (s : Fin m → Fin n → Option K) (w : Fin n → K), softmax fl ex o z = .ok s ∧ (∀ j, s i j = some (w j) ∧ 0 ≤ w j ∧ w j ≤ 1) ∧
      (1 - u) / (1 + u) ^ o.depth - n * eta ≤ ∑ j, w j ∧ ∑ j, w j ≤ (1 + u) / (1 - u) ^ o.depth + n * eta := by
  obtain ⟨s, hs, h⟩ := C277_rows_partial hfl hex ho z hM
  obtain ⟨j, hj⟩ := hi
  have hne : ∃ j, ex (fl (z i j - M)) ≠ 0 := ⟨j, by rw [hj, sub_self, hfl.zero, hex.zero]; exact one_ne_zero⟩
  have h1 := (h i).1 hne
  choose w hw using h1
  refine ⟨s, w, hs, fun j => ⟨(hw j).1, (hw j).2.1, (hw j).2.2.1⟩, ?_⟩
  have e := softmax_ok fl ex o z hM
  rw [hs] at e
  injection e with e
  refine shares_total hfl he hu0 hu1 ho (fun j => hex.number _) (fun j => hex.nonneg _) hne w fun j => ?_
  rw [← (hw j).1, e]
  rfl

/-! ## C278: weights and posterior probabilities -/

/-- C278 (part): the weights of AdaBoost after a round, from non-negative weights: between 0 and 1, in the order of the products, with total 1 up to the
roundings; or all NaN, if all products underflow. -/
theorem C278_weights_partial {wide : K → K} {u eta : K} (hfl : IsWider fl wide) (he : HasError fl u eta) (hu0 : 0 ≤ u) (hu1 : u < 1) {n : Nat} {o : Order n}
    (ho : o.Complete) {up down : K} (hup : 0 ≤ up) (hdown : 0 ≤ down) (wrong : Fin n → Bool) {w : Fin n → K} (hw : ∀ i, 0 ≤ w i) :
    (∃ v : Fin n → K, (∀ i, nextWeights fl wide o up down wrong w i = some (v i) ∧ 0 ≤ v i ∧ v i ≤ 1 ∧ IsNumber fl (v i)) ∧
      (1 - u) / (1 + u) ^ o.depth - n * eta ≤ ∑ i, v i ∧ ∑ i, v i ≤ (1 + u) / (1 - u) ^ o.depth + n * eta) ∨
    ((∀ i, nextWeights fl wide o up down wrong w i = none) ∧ ∀ i, fl (wide (w i * if wrong i then up else down)) = 0) := by
  have hn : ∀ i, IsNumber fl (fl (wide (w i * if wrong i then up else down))) := fun i => hfl.ofNarrow.idem _
  have h0 : ∀ i, 0 ≤ fl (wide (w i * if wrong i then up else down)) := fun i =>
    hfl.ofNarrow.nonneg (hfl.ofWide.nonneg (mul_nonneg (hw i) (by split_ifs <;> assumption)))
  obtain ⟨h1, h2, -⟩ := shares_spec hfl.ofNarrow ho hn h0
  by_cases hne : ∃ i, fl (wide (w i * if wrong i then up else down)) ≠ 0
  · left
    have h1 := h1 hne
    choose v hv using h1
    exact ⟨v, hv, shares_total hfl.ofNarrow he hu0 hu1 ho hn h0 hne v fun i => (hv i).1⟩
  · right
    push Not at hne
    exact ⟨h2 hne, hne⟩

/-- Two rounds in single precision with double precision exponentials. -/
example : nextWeights f32 f64 (.add (.add (.entry 0) (.entry 1)) (.entry 2)) 2 (1 / 2) ![true, false, false] ![f32 (1 / 3), f32 (1 / 3), f32 (1 / 3 : ℚ)] 0
      = some (f32 (2 / 3)) ∧ Order.Complete (.add (.add (.entry 0) (.entry 1)) (.entry 2) : Order 3) := by
  constructor
  · decide +kernel
  · unfold Order.Complete; decide

/-- C278 fails for the total: the exact sum of the first weights is 1 only if the number of samples is a power of two, in single precision (and in every
binary format). -/
theorem C278_first_total [FloorRing K] {p : Nat} (hp : 1 ≤ p) {emin : Int} (n : Nat) (h : (n : K) * firstWeight (rne p emin) n = 1) : ∃ k, n = 2 ^ k := by
  unfold firstWeight at h
  obtain ⟨m, k, -, -, hx⟩ := (rne_fixed_iff hp emin (rne p emin (1 / (n : K)))).1 ((rne_fixed_iff hp emin _).2 ⟨_, _, ulpExp_ge p emin _, nearest_bound p emin _, rne_eq p emin _⟩)
  rw [hx] at h
  have key : ∃ a b : Nat, (n : Int) * m * 2 ^ a = 2 ^ b := by
    rcases le_total 0 k with hk | hk
    · obtain ⟨a, rfl⟩ := Int.eq_ofNat_of_zero_le hk
      refine ⟨a, 0, ?_⟩
      rw [zpow_natCast] at h
      have h' : ((((n : Int) * m * 2 ^ a : Int)) : K) = ((1 : Int) : K) := by push_cast; rw [← h]; ring
      simpa using Int.cast_injective h'
    · obtain ⟨b, hb⟩ := Int.eq_ofNat_of_zero_le (show 0 ≤ -k by omega)
      refine ⟨0, b, ?_⟩
      have hk' : (2 : K) ^ k = (2 ^ b)⁻¹ := by
        rw [show k = -(b : Int) by omega, zpow_neg, zpow_natCast]
      rw [hk', ← mul_assoc, ← div_eq_mul_inv, div_eq_one_iff_eq (by positivity)] at h
      have h' : ((((n : Int) * m : Int)) : K) = (((2 ^ b : Int)) : K) := by push_cast; exact h
      rw [pow_zero, mul_one]
      exact Int.cast_injective h'
  obtain ⟨a, b, hab⟩ := key
  have hd : (n : Int) ∣ ((2 ^ b : Nat) : Int) := ⟨m * 2 ^ a, by push_cast; rw [← hab]; ring⟩
  rw [Int.natCast_dvd_natCast] at hd
  obtain ⟨c, -, hc⟩ := (Nat.dvd_prime_pow Nat.prime_two).1 hd
  exact ⟨c, hc⟩

/-- Four samples: the first weights are exact. -/
example : (4 : ℚ) * firstWeight f32 4 = 1 ∧ (3 : ℚ) * firstWeight f32 3 = 100663299 / 100663296 := by decide +kernel

/-! ### Posterior probabilities -/

theorem mixture_ge {wide : K → K} (hfl : IsWider fl wide) : ∀ (l : List K) (s : K), (∀ t ∈ l, 0 ≤ t ∧ IsNumber wide t) → IsNumber fl s →
    s ≤ l.foldl (fun s t => fl (wide (s + t))) s ∧ (0 ≤ s → ∀ t ∈ l, fl t ≤ l.foldl (fun s t => fl (wide (s + t))) s)
  | [], s, _, hs => ⟨le_rfl, by simp⟩
  | a :: l, s, h, hs => by
    obtain ⟨ha, hna⟩ := h a (by simp)
    have hnum : IsNumber fl (fl (wide (s + a))) := hfl.ofNarrow.idem _
    obtain ⟨h1, h2⟩ := mixture_ge hfl l (fl (wide (s + a))) (fun t ht => h t (by simp [ht])) hnum
    have hsa : s ≤ fl (wide (s + a)) := by
      have e : fl (wide s) = s := by rw [hfl.number s hs, hs]
      calc s = fl (wide s) := e.symm
        _ ≤ _ := hfl.ofNarrow.mono _ _ (hfl.ofWide.mono _ _ (by linarith))
    refine ⟨hsa.trans h1, fun hs0 t ht => ?_⟩
    rcases List.mem_cons.1 ht with rfl | ht
    · refine le_trans ?_ h1
      calc fl t = fl (wide t) := by rw [hna]
        _ ≤ _ := hfl.ofNarrow.mono _ _ (hfl.ofWide.mono _ _ (by linarith))
    · exact h2 (hs0.trans hsa) t ht

theorem mixture_zero {wide : K → K} (hfl : IsWider fl wide) : ∀ l : List K, (∀ t ∈ l, fl t = 0 ∧ IsNumber wide t) →
    l.foldl (fun s t => fl (wide (s + t))) 0 = 0
  | [], _ => rfl
  | a :: l, h => by
    obtain ⟨h0, ha⟩ := h a (by simp)
    rw [List.foldl_cons, zero_add, ha, h0]
    exact mixture_zero hfl l fun t ht => h t (by simp [ht])

/-- The products of one sample: not negative, numbers of double precision. -/
theorem terms_spec {wide : K → K} (hfl : IsWider fl wide) {n : Nat} {alpha p : Fin n → K} (ha : ∀ i, 0 ≤ alpha i) (hp : ∀ i, 0 ≤ p i) :
    ∀ t ∈ List.ofFn (fun i => wide (alpha i * p i)), 0 ≤ t ∧ IsNumber wide t := by
  intro t ht
  obtain ⟨i, rfl⟩ := List.mem_ofFn.1 ht
  exact ⟨hfl.ofWide.nonneg (mul_nonneg (ha i) (hp i)), hfl.ofWide.idem _⟩

/-- C278 (part): the posterior probabilities of a sample for non-negative coefficients and densities, with sums in single and products in double precision or
all in one format: either all are numbers, not negative, in the order of the products, or all are NaN; NaN exactly if all products underflow. -/
theorem C278_posteriors_partial {wide : K → K} (hfl : IsWider fl wide) {n : Nat} {alpha p : Fin n → K} (ha : ∀ i, 0 ≤ alpha i) (hp : ∀ i, 0 ≤ p i) :
    ((∃ i, fl (wide (alpha i * p i)) ≠ 0) → ∀ i, ∃ w, posteriors fl wide alpha p i = some w ∧ 0 ≤ w ∧ IsNumber fl w) ∧
    ((∀ i, fl (wide (alpha i * p i)) = 0) → ∀ i, posteriors fl wide alpha p i = none) ∧
    (∀ i j w w', alpha i * p i ≤ alpha j * p j → posteriors fl wide alpha p i = some w → posteriors fl wide alpha p j = some w' → w ≤ w') := by
  have hT := terms_spec hfl ha hp
  obtain ⟨g1, g2⟩ := mixture_ge hfl _ 0 hT hfl.ofNarrow.zero
  refine ⟨fun hne i => ?_, fun h i => ?_, fun i j w w' hle hw hw' => ?_⟩
  · have hz : mixture fl wide (List.ofFn fun i => wide (alpha i * p i)) ≠ 0 := by
      obtain ⟨k, hk⟩ := hne
      intro h
      have := g2 le_rfl (wide (alpha k * p k)) (List.mem_ofFn.2 ⟨k, rfl⟩)
      unfold mixture at h
      rw [h] at this
      exact hk (le_antisymm this (hfl.ofNarrow.nonneg (hfl.ofWide.nonneg (mul_nonneg (ha k) (hp k)))))
    exact ⟨_, if_neg hz, hfl.ofNarrow.nonneg (hfl.ofWide.nonneg (div_nonneg (hfl.ofWide.nonneg (mul_nonneg (ha i) (hp i))) g1)), hfl.ofNarrow.idem _⟩
  · refine if_pos (mixture_zero hfl _ fun t ht => ?_)
    obtain ⟨i, rfl⟩ := List.mem_ofFn.1 ht
    exact ⟨h i, hfl.ofWide.idem _⟩
  · unfold posteriors at hw hw'
    split_ifs at hw with hz
    rw [if_neg hz] at hw'
    injection hw with hw
    injection hw' with hw'
    rw [← hw, ← hw']
    exact hfl.ofNarrow.mono _ _ (hfl.ofWide.mono _ _ (div_le_div_of_nonneg_right (hfl.ofWide.mono _ _ hle) g1))

/-- C278 (part): in one format (64-bit precision, or the first round of EM) they are also at most 1. -/
theorem C278_one_format_partial (hfl : IsRounding fl) {n : Nat} {alpha p : Fin n → K} (ha : ∀ i, 0 ≤ alpha i) (hp : ∀ i, 0 ≤ p i) (i : Fin n) (w : K)
    (h : posteriors fl fl alpha p i = some w) : 0 ≤ w ∧ w ≤ 1 := by
  have hw : IsWider fl fl := ⟨hfl, hfl, fun _ h => h⟩
  have hT := terms_spec hw ha hp
  obtain ⟨g1, g2⟩ := mixture_ge hw _ 0 hT hfl.zero
  unfold posteriors at h
  split_ifs at h with hz
  injection h with h
  rw [← h]
  have hS : 0 < mixture fl fl (List.ofFn fun i => fl (alpha i * p i)) := lt_of_le_of_ne g1 (Ne.symm hz)
  have hle := g2 le_rfl (fl (alpha i * p i)) (List.mem_ofFn.2 ⟨i, rfl⟩)
  rw [hfl.idem] at hle
  have h0 := hfl.nonneg (mul_nonneg (ha i) (hp i))
  exact ⟨hfl.nonneg (hfl.nonneg (div_nonneg h0 hS.le)), hfl.le_one (hfl.le_one ((div_le_one hS).2 hle))⟩

/-- C278 fails for posterior probabilities in 32-bit precision after the first round of EM: the density of the mixture is rounded to single precision, the
products are not. With the coefficients 745/1024 and 279/1024 and the densities 2⁻¹⁴⁸ and 2⁻¹⁴⁹ the first posterior probability is 745/512, above 1. -/
theorem C278_above_one : posteriors f32 f64 ![745 / 1024, 279 / 1024] ![1 / 2 ^ 148, (1 / 2 ^ 149 : ℚ)] 0 = some (745 / 512) ∧
    f32 (1 / 2 ^ 149 : ℚ) = 1 / 2 ^ 149 ∧ f64 (745 / 1024 : ℚ) = 745 / 1024 := by decide +kernel

/-- Two components, double precision. -/
example : posteriors f64 f64 ![1 / 2, 1 / 2] ![1, (2 : ℚ)] 1 = some (f64 (2 / 3)) := by decide +kernel

/-! ## C279: mixing coefficients given by the user -/

theorem dyadic_sum {p : Nat} [FloorRing K] (hp : 1 ≤ p) {emin : Int} (k : Nat) (hk : emin ≤ -(k : Int)) : ∀ (m : List Nat) (s : Nat), s + m.sum ≤ 2 ^ p →
    (m.map fun a : Nat => (a : K) / 2 ^ k).foldl (fun s t => rne p emin (s + t)) ((s : K) / 2 ^ k) = ((s + m.sum : Nat) : K) / 2 ^ k
  | [], s, _ => by simp
  | a :: m, s, h => by
    rw [List.sum_cons] at h
    have e : (s : K) / 2 ^ k + (a : K) / 2 ^ k = (((s + a : Nat) : Int) : K) * 2 ^ (-(k : Int)) := by
      rw [zpow_neg, zpow_natCast, ← div_eq_mul_inv]; push_cast; ring
    have e' : ((((s + a : Nat) : Int)) : K) * 2 ^ (-(k : Int)) = ((s + a : Nat) : K) / 2 ^ k := by
      rw [zpow_neg, zpow_natCast, ← div_eq_mul_inv]; push_cast; rfl
    have hm : |((s + a : Nat) : Int)| ≤ 2 ^ p := by
      rw [abs_of_nonneg (by positivity)]
      exact_mod_cast (show s + a ≤ 2 ^ p by omega)
    rw [List.map_cons, List.foldl_cons, e, rne_exact hp hk _ hm, e', dyadic_sum hp k hk m (s + a) (by omega)]
    simp [add_assoc]

/-- C279 (part): coefficients that are multiples of some `2⁻ᵏ`, `k ≤ 53`, and whose sum is 1 are accepted and stored with the precision of the library. -/
theorem C279_accepted_partial [FloorRing K] (fl : K → K) (k : Nat) (hk : k ≤ 53) (m : List Nat) (hs : m.sum = 2 ^ k) :
    initCoefficients fl f64 m.length (m.map fun a : Nat => (a : K) / 2 ^ k) = .ok (m.map fun a : Nat => fl ((a : K) / 2 ^ k)) := by
  have h := dyadic_sum (K := K) (p := 53) (emin := -1074) (by norm_num) k (by omega) m 0
    (by rw [zero_add, hs]; exact pow_le_pow_right₀ (by norm_num) hk)
  rw [Nat.cast_zero, zero_div, zero_add, hs] at h
  have h1 : (m.map fun a : Nat => (a : K) / 2 ^ k).foldl (fun s t => f64 (s + t)) 0 = 1 := by
    refine h.trans ?_
    push_cast
    exact div_self (by positivity)
  unfold initCoefficients
  rw [if_neg (by simp), if_neg (by rw [h1]; simp)]
  simp

/-- C279 fails in general: the coefficients 0.7, 0.2, 0.1 of double precision are refused, because their rounded sum is not exactly 1; in the order 0.1, 0.2, 0.7
they are accepted. -/
theorem C279_refused :
    initCoefficients f32 f64 3 [f64 (7 / 10), f64 (2 / 10), f64 (1 / 10 : ℚ)] = .error .valueError ∧
    initCoefficients f32 f64 3 [f64 (1 / 10), f64 (2 / 10), f64 (7 / 10 : ℚ)] = .ok [f32 (f64 (1 / 10)), f32 (f64 (2 / 10)), f32 (f64 (7 / 10))] := by
  decide +kernel

/-- C279 fails in the other direction: numbers of double precision whose sum is not 1 are accepted. -/
theorem C279_wrong_accepted : initCoefficients f32 f64 2 [1, (1 / 2 ^ 60 : ℚ)] = .ok [1, 1 / 2 ^ 60] ∧ f64 (1 / 2 ^ 60 : ℚ) = 1 / 2 ^ 60 := by decide +kernel

example : initCoefficients f32 f64 3 [1 / 2, 1 / 4, (1 / 4 : ℚ)] = .ok [1 / 2, 1 / 4, 1 / 4] := by decide +kernel

end CML.Float
