import Verif.Props.NBObject
import Verif.Props.RoundedExp

set_option linter.unusedSectionVars false

/-!
# Properties C291, C292: densities and the distance to the mean

`get_probability_density` replaces a density that underflows by `1e-36`, which is larger than the smallest positive numbers of single (and double)
precision.
-/

namespace CML.Bayes

open Real CML.Float

variable {V : Type} [DecidableEq V]

/-- What `density` rounds. -/
noncomputable def raw (x m v : ℝ) : ℝ := 1 / (√(2 * π) * v) * exp (-(x - m) ^ 2 / (2 * v ^ 2))

lemma raw_pos (x m : ℝ) {v : ℝ} (hv : 0 < v) : 0 < raw x m v := by
  unfold raw
  have : 0 < √(2 * π) := sqrt_pos.2 (by positivity)
  positivity

lemma density_raw (fl : ℝ → ℝ) (x m : ℝ) {v : ℝ} (hv : 0 < v) :
    density fl x m v = some (if fl (raw x m v) = 0 then 1 / 10 ^ 36 else fl (raw x m v)) := C40_underflow fl x m v hv

lemma raw_anti {x y m m' v : ℝ} (hv : 0 < v) (h : |x - m| ≤ |y - m'|) : raw y m' v ≤ raw x m v := by
  unfold raw
  have : 0 < √(2 * π) := sqrt_pos.2 (by positivity)
  refine mul_le_mul_of_nonneg_left (exp_le_exp.2 (div_le_div_of_nonneg_right ?_ (by positivity))) (by positivity)
  have := sq_le_sq.2 h
  linarith

lemma raw_lt {x y m m' v : ℝ} (hv : 0 < v) (h : |x - m| < |y - m'|) : raw y m' v < raw x m v := by
  unfold raw
  have : 0 < √(2 * π) := sqrt_pos.2 (by positivity)
  refine mul_lt_mul_of_pos_left (exp_lt_exp.2 (div_lt_div_of_pos_right ?_ (by positivity))) (by positivity)
  have := sq_lt_sq.2 h
  linarith

/-- C291 (part): in every rounding, a value at most as far from the mean has at least the density of the other, unless the density of the other is the
constant `1e-36` and its own is smaller than that. -/
theorem C291_partial {fl : ℝ → ℝ} (hfl : IsRounding fl) (x y m v : ℝ) (hv : 0 < v) (hxy : |x - m| ≤ |y - m|) :
    ∃ p q, density fl x m v = some p ∧ density fl y m v = some q ∧ (q ≤ p ∨ (p < 1 / 10 ^ 36 ∧ q = 1 / 10 ^ 36)) := by
  refine ⟨_, _, density_raw fl x m hv, density_raw fl y m hv, ?_⟩
  have h := hfl.mono _ _ (raw_anti hv hxy)
  have hx := hfl.mono _ _ (raw_pos x m hv).le
  have hy := hfl.mono _ _ (raw_pos y m hv).le
  rw [hfl.zero] at hx hy
  by_cases h2 : fl (raw y m v) = 0
  · rw [if_pos h2]
    generalize (if fl (raw x m v) = 0 then (1 / 10 ^ 36 : ℝ) else fl (raw x m v)) = p
    by_cases h3 : p < 1 / 10 ^ 36
    · exact .inr ⟨h3, rfl⟩
    · exact .inl (not_lt.1 h3)
  · rw [if_neg h2, if_neg (by intro h3; rw [h3] at h; exact h2 (le_antisymm h hy))]
    exact .inl h

example : ∃ p q, density f32 1 0 1 = some p ∧ density f32 2 0 1 = some q ∧ (q ≤ p ∨ (p < 1 / 10 ^ 36 ∧ q = 1 / 10 ^ 36)) :=
  C291_partial f32_isRounding 1 2 0 1 one_pos (by norm_num)

/-! ## Where densities are tiny -/

/-- The distance at which the density is `2 ^ -k`. -/
noncomputable def dist (v : ℝ) (k : ℕ) : ℝ := v * √(2 * (log (1 / (√(2 * π) * v)) + k * log 2))

lemma sqrt_two_pi : √(2 * π) ≤ 4 := by
  rw [sqrt_le_left (by norm_num)]
  have := pi_le_four
  linarith

lemma log_peak {v : ℝ} (hv : 0 < v) (hv' : v ≤ 2 ^ 100) : -(102 * log 2) ≤ log (1 / (√(2 * π) * v)) := by
  have h0 : 0 < √(2 * π) := sqrt_pos.2 (by positivity)
  have : √(2 * π) * v ≤ 2 ^ 102 := by
    have := mul_le_mul sqrt_two_pi hv' hv.le (by norm_num)
    linarith
  rw [one_div, log_inv]
  have := log_le_log (by positivity) this
  rw [log_pow] at this
  push_cast at this
  linarith

lemma dist_sq {v : ℝ} (hv : 0 < v) (hv' : v ≤ 2 ^ 100) {k : ℕ} (hk : 102 ≤ k) :
    (dist v k) ^ 2 = v ^ 2 * (2 * (log (1 / (√(2 * π) * v)) + k * log 2)) := by
  unfold dist
  rw [mul_pow, sq_sqrt]
  have h1 := log_peak hv hv'
  have h2 : (102 : ℝ) * log 2 ≤ k * log 2 := mul_le_mul_of_nonneg_right (by exact_mod_cast hk) (log_pos one_lt_two).le
  linarith

lemma raw_dist {v : ℝ} (hv : 0 < v) (hv' : v ≤ 2 ^ 100) {k : ℕ} (hk : 102 ≤ k) {x m : ℝ} (hx : |x - m| = dist v k) :
    raw x m v = 1 / 2 ^ k := by
  have h0 : 0 < √(2 * π) := sqrt_pos.2 (by positivity)
  have e : (x - m) ^ 2 = (dist v k) ^ 2 := by rw [← hx, sq_abs]
  unfold raw
  rw [e, dist_sq hv hv' hk]
  have e2 : -(v ^ 2 * (2 * (log (1 / (√(2 * π) * v)) + k * log 2))) / (2 * v ^ 2) = -log (1 / (√(2 * π) * v)) + -log (2 ^ k) := by
    rw [log_pow]; field_simp; ring
  rw [e2, exp_add, exp_neg, exp_neg, exp_log (by positivity), exp_log (by positivity)]
  field_simp

lemma dist_pos {v : ℝ} (hv : 0 < v) (hv' : v ≤ 2 ^ 100) {k : ℕ} (hk : 102 < k) : 0 < dist v k := by
  unfold dist
  refine mul_pos hv (sqrt_pos.2 ?_)
  have h1 := log_peak hv hv'
  have h2 : (102 : ℝ) * log 2 < k * log 2 := mul_lt_mul_of_pos_right (by exact_mod_cast hk) (log_pos one_lt_two)
  linarith

lemma dist_lt {v : ℝ} (hv : 0 < v) (hv' : v ≤ 2 ^ 100) {j k : ℕ} (hj : 102 < j) (hjk : j < k) : dist v j < dist v k := by
  refine lt_of_pow_lt_pow_left₀ 2 (dist_pos hv hv' (by omega)).le ?_
  rw [dist_sq hv hv' hj.le, dist_sq hv hv' (by omega)]
  have h2 : (j : ℝ) * log 2 < k * log 2 := mul_lt_mul_of_pos_right (by exact_mod_cast hjk) (log_pos one_lt_two)
  exact mul_lt_mul_of_pos_left (by linarith) (by positivity)

lemma f32_pow149 : f32 (1 / 2 ^ 149 : ℝ) = 1 / 2 ^ 149 := by
  have h := f32_real (1 / 2 ^ 149) (1 / 2 ^ 149) (by decide +kernel); push_cast at h; exact h
lemma f32_pow120 : f32 (1 / 2 ^ 120 : ℝ) = 1 / 2 ^ 120 := by
  have h := f32_real (1 / 2 ^ 120) (1 / 2 ^ 120) (by decide +kernel); push_cast at h; exact h
lemma f32_pow151 : f32 (1 / 2 ^ 151 : ℝ) = 0 := by
  have h := f32_real (1 / 2 ^ 151) 0 (by decide +kernel); push_cast at h; exact h

lemma density_far {x m v : ℝ} (hv : 0 < v) (h : raw x m v ≤ 1 / 2 ^ 151) : density f32 x m v = some (1 / 10 ^ 36) := by
  rw [density_raw _ _ _ hv, if_pos]
  have h1 := f32_isRounding.mono _ _ h
  have h2 := f32_isRounding.mono _ _ (raw_pos x m hv).le
  rw [f32_pow151] at h1
  rw [f32_isRounding.zero] at h2
  exact le_antisymm h1 h2

lemma density_mid {x m v : ℝ} (hv : 0 < v) (h : raw x m v ≤ 1 / 2 ^ 120) (h' : 1 / 2 ^ 149 ≤ raw x m v) :
    ∃ p, density f32 x m v = some p ∧ 0 < p ∧ p ≤ 1 / 2 ^ 120 := by
  have h1 := f32_isRounding.mono _ _ h
  have h2 := f32_isRounding.mono _ _ h'
  rw [f32_pow120] at h1
  rw [f32_pow149] at h2
  have h3 : 0 < f32 (raw x m v) := lt_of_lt_of_le (by positivity) h2
  exact ⟨_, by rw [density_raw _ _ _ hv, if_neg h3.ne'], h3, h1⟩

/-- C291 fails: in single precision, for every mean and every variance up to 2¹⁰⁰ there is a value whose density is smaller than that of every value that
is far enough from the mean. -/
theorem C291_far_beats_near (m v : ℝ) (hv : 0 < v) (hv' : v ≤ 2 ^ 100) :
    ∃ x R p q, density f32 x m v = some p ∧ |x - m| < R ∧ p < q ∧ ∀ y, R ≤ |y - m| → density f32 y m v = some q := by
  have hx : |m + dist v 140 - m| = dist v 140 := by rw [add_sub_cancel_left, abs_of_pos (dist_pos hv hv' (by norm_num))]
  have hr := raw_dist hv hv' (by norm_num) hx
  obtain ⟨p, hp, -, hp2⟩ := density_mid hv (by rw [hr]; norm_num) (by rw [hr]; norm_num)
  refine ⟨m + dist v 140, dist v 151, p, 1 / 10 ^ 36, hp, by rw [hx]; exact dist_lt hv hv' (by norm_num) (by norm_num),
    lt_of_le_of_lt hp2 (by norm_num), fun y hy => density_far hv ?_⟩
  have hz : |m + dist v 151 - m| = dist v 151 := by rw [add_sub_cancel_left, abs_of_pos (dist_pos hv hv' (by norm_num))]
  rw [← raw_dist hv hv' (by norm_num) hz]
  exact raw_anti hv (by rw [hz]; exact hy)

example : ∃ x R p q, density f32 x 0 1 = some p ∧ |x - 0| < R ∧ p < q ∧ ∀ y, R ≤ |y - 0| → density f32 y 0 1 = some q :=
  C291_far_beats_near 0 1 one_pos (by norm_num)

/-- C291 fails in double precision as well. -/
theorem C291_far_beats_near_double (m v : ℝ) (hv : 0 < v) (hv' : v ≤ 2 ^ 100) :
    ∃ x R p q, density f64 x m v = some p ∧ |x - m| < R ∧ p < q ∧ ∀ y, R ≤ |y - m| → density f64 y m v = some q := by
  have hx : |m + dist v 140 - m| = dist v 140 := by rw [add_sub_cancel_left, abs_of_pos (dist_pos hv hv' (by norm_num))]
  have hr := raw_dist hv hv' (by norm_num) hx
  have h140 : f64 (1 / 2 ^ 140 : ℝ) = 1 / 2 ^ 140 := by
    have h := f64_cast (K := ℝ) (1 / 2 ^ 140); rw [show f64 (1 / 2 ^ 140 : ℚ) = 1 / 2 ^ 140 by decide +kernel] at h; push_cast at h; exact h
  have h1076 : f64 (1 / 2 ^ 1076 : ℝ) = 0 := by
    have h := f64_cast (K := ℝ) (1 / 2 ^ 1076); rw [show f64 (1 / 2 ^ 1076 : ℚ) = 0 by decide +kernel] at h; push_cast at h; exact h
  refine ⟨m + dist v 140, dist v 1076, 1 / 2 ^ 140, 1 / 10 ^ 36, ?_, by rw [hx]; exact dist_lt hv hv' (by norm_num) (by norm_num),
    by norm_num, fun y hy => ?_⟩
  · rw [density_raw _ _ _ hv, hr, h140, if_neg (by positivity)]
  · have hz : |m + dist v 1076 - m| = dist v 1076 := by rw [add_sub_cancel_left, abs_of_pos (dist_pos hv hv' (by norm_num))]
    have h1 := f64_isRounding.mono _ _ (raw_anti hv (hz.trans_le hy))
    have h2 := f64_isRounding.mono _ _ (raw_pos y m hv).le
    rw [raw_dist hv hv' (by norm_num) hz, h1076] at h1
    rw [f64_isRounding.zero] at h2
    rw [density_raw _ _ _ hv, if_pos (le_antisymm h1 h2)]

/-! ## The classifier -/

lemma meanVar_of {l : List ℝ} {m v : ℝ} (h : IsMeanVar l m v) : meanVar l = some (m, v) := by
  obtain ⟨m', v', e, h'⟩ := (meanVar_spec l).2 h.1
  have hl : (l.length : ℝ) ≠ 0 := by
    have := List.length_pos_of_ne_nil h.1
    exact_mod_cast this.ne'
  have e1 : m' = m := mul_left_cancel₀ hl (h'.2.1.trans h.2.1.symm)
  subst e1
  have e2 : v' = v := mul_left_cancel₀ hl (h'.2.2.trans h.2.2.symm)
  rw [e, e2]

lemma classSize_count (y : List Int) (c : Int) : classSize y c = y.count c := by
  unfold classSize; rw [List.count_eq_length_filter]; congr 1

/-- Training on one continuous attribute and classes of the same size. -/
lemma fit_two (order : List V → List V) (l : List ℝ) (y : List Int) (m0 m1 v0 v1 : ℝ) (h0 : IsMeanVar (classValues l y 0) m0 v0)
    (h1 : IsMeanVar (classValues l y 1) m1 v1) (hy : ∀ c ∈ y, c = 0 ∨ c = 1) (hc : classSize y 0 = classSize y 1) (smoothing : Bool) :
    nbFit order [.cont l] y smoothing = .ok (⟨1 / 2, 1 / 2, [.cont (some (m0, v0))], [.cont (some (m1, v1))]⟩ : NB V) := by
  have hne : y ≠ [] := by
    rintro rfl
    apply h0.1
    simp [classValues]
  have hmem : ∀ c, c = 0 ∨ c = 1 → c ∈ y := by
    have hadd := count_add y hy
    rw [classSize_count, classSize_count] at hc
    have hl := List.length_pos_of_ne_nil hne
    rintro c (rfl | rfl)
    · exact List.count_pos_iff.1 (by omega)
    · exact List.count_pos_iff.1 (by omega)
  have hn : (y.length : ℝ) = 2 * classSize y 0 := by
    have := count_add y hy
    rw [← classSize_count, ← classSize_count, ← hc] at this
    rw [← this]; push_cast; ring
  have hpos : 0 < (classSize y 0 : ℝ) := by
    rw [classSize_count]
    exact_mod_cast List.count_pos_iff.2 (hmem 0 (.inl rfl))
  have hprior : prior y.length y smoothing = .ok (1 / 2, 1 / 2) := by
    cases smoothing
    · rw [C37_frequencies y hne hy, ← hc, hn]
      have : (classSize y 0 : ℝ) / (2 * classSize y 0) = 1 / 2 := by field_simp
      rw [this]
    · rw [C37_laplace_partial y hy (hmem 0 (.inl rfl)) (hmem 1 (.inr rfl)), ← hc, hn]
      have : ((classSize y 0 : ℝ) + 1) / (2 * classSize y 0 + 2) = 1 / 2 := by field_simp
      rw [this]
  have hcol : ∀ c m v, IsMeanVar (classValues l y c) m v →
      [Col.cont l].mapM (nbColumn order y c) = (.ok [.cont (some (m, v))] : Except PyErr (List (Stored V))) := by
    intro c m v h
    have e : nbColumn order y c (.cont l) = .ok (.cont (some (m, v))) := by
      simp only [nbColumn]
      rw [show select y c l = classValues l y c from rfl, meanVar_of h]
    rw [List.mapM_cons, e]; rfl
  unfold nbFit
  rw [hprior]
  simp only [hcol 0 m0 v0 h0, hcol 1 m1 v1 h1]

lemma predict_two (fl : ℝ → ℝ) (smoothing : Bool) (m0 m1 v0 v1 x p q : ℝ) (hp : density fl x m0 v0 = some p) (hq : density fl x m1 v1 = some q)
    (p0 : 0 < p) (q0 : 0 < q) :
    nbPredict fl smoothing (⟨1 / 2, 1 / 2, [.cont (some (m0, v0))], [.cont (some (m1, v1))]⟩ : NB V) [.cont x] = .ok (if q < p then 0 else 1) := by
  unfold nbPredict
  simp only [factors, factor, hp, hq]
  have e : ∀ a : ℝ, 0 < a → score (some (logB (1 / 2))) [some a] = some (logB (1 / 2 * a)) := fun a ha => by
    have := score_prod [a] (1 / 2)
    simpa using this
  rw [e p p0, e q q0, label_prod (by positivity) (by positivity)]
  congr 2
  rw [eq_iff_iff]
  constructor <;> intro h <;> linarith

/-- C292 (part): without rounding, classes with the same number of samples and the same variance: class 0 is predicted exactly for the values that are nearer
to its mean. -/
theorem C292_exact_partial (order : List V → List V) (l : List ℝ) (y : List Int) (m0 m1 v : ℝ) (h0 : IsMeanVar (classValues l y 0) m0 v)
    (h1 : IsMeanVar (classValues l y 1) m1 v) (hv : 0 < v) (hy : ∀ c ∈ y, c = 0 ∨ c = 1) (hc : classSize y 0 = classSize y 1) (smoothing : Bool) :
    ∃ m, nbFit order [.cont l] y smoothing = .ok m ∧
      ∀ x, nbPredict id smoothing m [.cont x] = .ok (if |x - m0| < |x - m1| then 0 else 1) := by
  refine ⟨_, fit_two order l y m0 m1 v v h0 h1 hy hc smoothing, fun x => ?_⟩
  have hd : ∀ m, density id x m v = some (raw x m v) := fun m => by
    rw [density_raw _ _ _ hv, id, if_neg (raw_pos x m hv).ne']
  rw [predict_two id smoothing m0 m1 v v x _ _ (hd m0) (hd m1) (raw_pos x m0 hv) (raw_pos x m1 hv)]
  by_cases h : |x - m0| < |x - m1|
  · rw [if_pos h, if_pos (raw_lt hv h)]
  · rw [if_neg h, if_neg (not_lt.2 (raw_anti hv (not_lt.1 h)))]

/-- C292 (part): in every rounding, if the density for class 1 is not the constant `1e-36`, class 0 is only predicted for values nearer to its mean. -/
theorem C292_rounded_partial {fl : ℝ → ℝ} (hfl : IsRounding fl) (order : List V → List V) (l : List ℝ) (y : List Int) (m0 m1 v : ℝ)
    (h0 : IsMeanVar (classValues l y 0) m0 v) (h1 : IsMeanVar (classValues l y 1) m1 v) (hv : 0 < v) (hy : ∀ c ∈ y, c = 0 ∨ c = 1)
    (hc : classSize y 0 = classSize y 1) (smoothing : Bool) :
    ∃ m, nbFit order [.cont l] y smoothing = .ok m ∧
      ∀ x, (∀ m', m' = m0 ∨ m' = m1 → density fl x m' v ≠ some (1 / 10 ^ 36)) → nbPredict fl smoothing m [.cont x] = .ok 0 → |x - m0| < |x - m1| := by
  refine ⟨_, fit_two order l y m0 m1 v v h0 h1 hy hc smoothing, fun x hx h => ?_⟩
  have hd : ∀ m', m' = m0 ∨ m' = m1 → fl (raw x m' v) ≠ 0 := fun m' hm e => hx m' hm (by rw [density_raw _ _ _ hv, if_pos e])
  have hpos : ∀ m', m' = m0 ∨ m' = m1 → 0 < fl (raw x m' v) := fun m' hm => by
    have := hfl.mono _ _ (raw_pos x m' hv).le
    rw [hfl.zero] at this
    exact lt_of_le_of_ne this (hd m' hm).symm
  have hs : ∀ m', m' = m0 ∨ m' = m1 → density fl x m' v = some (fl (raw x m' v)) := fun m' hm => by
    rw [density_raw _ _ _ hv, if_neg (hd m' hm)]
  rw [predict_two fl smoothing m0 m1 v v x _ _ (hs m0 (.inl rfl)) (hs m1 (.inr rfl)) (hpos m0 (.inl rfl)) (hpos m1 (.inr rfl))] at h
  by_contra hcon
  rw [if_neg (not_lt.2 (hfl.mono _ _ (raw_anti hv (not_lt.1 hcon))))] at h
  exact absurd (Except.ok.inj h) (by norm_num)

/-- C292 fails: in single precision, for classes with the same number of samples and the same variance (at most 2¹⁰⁰) whose means are at least 8 times the
variance apart, class 1 is predicted for an interval of values on the far side of the mean of class 0. -/
theorem C292_nearer_loses (order : List V → List V) (l : List ℝ) (y : List Int) (m0 m1 v : ℝ) (h0 : IsMeanVar (classValues l y 0) m0 v)
    (h1 : IsMeanVar (classValues l y 1) m1 v) (hv : 0 < v) (hv' : v ≤ 2 ^ 100) (hD : m0 + 8 * v ≤ m1) (hy : ∀ c ∈ y, c = 0 ∨ c = 1)
    (hc : classSize y 0 = classSize y 1) (smoothing : Bool) :
    ∃ m lo hi, nbFit order [.cont l] y smoothing = .ok m ∧ lo < hi ∧ hi < m0 ∧
      ∀ x, lo ≤ x → x ≤ hi → nbPredict f32 smoothing m [.cont x] = .ok 1 := by
  have d1 := dist_pos hv hv' (k := 120) (by norm_num)
  have d2 := dist_lt hv hv' (j := 120) (k := 149) (by norm_num) (by norm_num)
  refine ⟨_, m0 - dist v 149, m0 - dist v 120, fit_two order l y m0 m1 v v h0 h1 hy hc smoothing, by linarith, by linarith, fun x hlo hhi => ?_⟩
  have e120 : |m0 + dist v 120 - m0| = dist v 120 := by rw [add_sub_cancel_left, abs_of_pos d1]
  have e149 : |m0 + dist v 149 - m0| = dist v 149 := by rw [add_sub_cancel_left, abs_of_pos (by linarith)]
  have ex : |x - m0| = m0 - x := by rw [abs_of_neg (by linarith)]; ring
  have r1 : raw x m0 v ≤ 1 / 2 ^ 120 := by
    rw [← raw_dist hv hv' (by norm_num) e120]
    exact raw_anti hv (by rw [e120, ex]; linarith)
  have r2 : 1 / 2 ^ 149 ≤ raw x m0 v := by
    rw [← raw_dist hv hv' (by norm_num) e149]
    exact raw_anti hv (by rw [e149, ex]; linarith)
  have r3 : raw x m1 v ≤ 1 / 2 ^ 151 := by
    have hs : 0 < √(2 * π) := sqrt_pos.2 (by positivity)
    have : raw x m1 v ≤ raw x m0 v * exp (-32) := by
      unfold raw
      rw [mul_assoc, ← exp_add]
      refine mul_le_mul_of_nonneg_left (exp_le_exp.2 ?_) (by positivity)
      rw [div_add' _ _ _ (by positivity), div_le_div_iff_of_pos_right (by positivity)]
      have : (m0 - x + 8 * v) ^ 2 ≤ (m1 - x) ^ 2 := pow_le_pow_left₀ (by linarith) (by linarith) 2
      nlinarith
    have h32 : exp (-32) ≤ 1 / 2 ^ 32 := by
      rw [exp_neg, one_div]
      refine inv_anti₀ (by positivity) ?_
      have h2 : (2 : ℝ) ≤ exp 1 := by have := exp_one_gt_d9; linarith
      have e : exp 32 = exp 1 ^ 32 := by rw [← exp_nat_mul]; norm_num
      rw [e]
      exact pow_le_pow_left₀ (by norm_num) h2 32
    calc raw x m1 v ≤ raw x m0 v * exp (-32) := this
      _ ≤ 1 / 2 ^ 120 * (1 / 2 ^ 32) := mul_le_mul r1 h32 (exp_pos _).le (by positivity)
      _ ≤ 1 / 2 ^ 151 := by norm_num
  obtain ⟨p, hp, p0, hp2⟩ := density_mid hv r1 r2
  rw [predict_two f32 smoothing m0 m1 v v x p _ hp (density_far hv r3) p0 (by positivity), if_neg]
  have : (1 / 2 ^ 120 : ℝ) < 1 / 10 ^ 36 := by norm_num
  linarith

/-- The hypotheses are met: samples -1, 1 of class 0 and 9, 11 of class 1. -/
example : ∃ (m : NB String) (lo hi : ℝ), nbFit (fun l => pyUnique l) [.cont [-1, 1, 9, 11]] [0, 0, 1, 1] true = .ok m ∧ lo < hi ∧ hi < 0 ∧
    ∀ x, lo ≤ x → x ≤ hi → nbPredict f32 true m [.cont x] = .ok 1 := by
  refine C292_nearer_loses _ _ _ 0 10 1 ?_ ?_ one_pos (by norm_num) (by norm_num) (by decide) (by decide) true
  · refine ⟨by simp [classValues], ?_, ?_⟩ <;> norm_num [classValues]
  · refine ⟨by simp [classValues], ?_, ?_⟩ <;> norm_num [classValues]

end CML.Bayes
