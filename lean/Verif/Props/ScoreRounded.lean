import Verif.Spec.ScoreRounded
import Verif.Props.KMeansRounded
import Verif.Props.RoundedExp

set_option linter.unusedSectionVars false

/-! # Properties C303 and C304: linear scores in floating point -/

namespace CML.Float

variable {K : Type*} [Field K] [LinearOrder K] [IsStrictOrderedRing K] {fl wide : K → K}

theorem dot_number (hfl : IsRounding fl) {n : Nat} (a x : Fin n → K) : ∀ p : Plan n, IsNumber fl (p.dot fl a x)
  | .mul _ => hfl.idem _
  | .fma _ _ => hfl.idem _
  | .add _ _ => hfl.idem _

theorem dot_error_list {u eta : K} (hfl : IsRounding fl) (he : HasError fl u eta) (hu0 : 0 ≤ u) (heta : 0 ≤ eta) {n : Nat} (a x : Fin n → K) :
    ∀ p : Plan n, |p.dot fl a x - (p.entries.map fun i => a i * x i).sum| ≤ dotError u eta p.depth p.entries.length (p.entries.map fun i => |a i * x i|).sum
      ∧ |(p.entries.map fun i => a i * x i).sum| ≤ (p.entries.map fun i => |a i * x i|).sum
  | .mul i => by
    have := he.any (a i * x i)
    have h1 : (0 : K) ≤ u * eta := mul_nonneg hu0 heta
    simp only [Plan.dot, Plan.depth, Plan.entries, List.map_cons, List.map_nil, List.sum_cons, List.sum_nil, List.length_singleton, dotError, Nat.cast_one, add_zero, pow_one]
    exact ⟨by linarith, le_rfl⟩
  | .fma i p => by
    obtain ⟨p1, p2⟩ := dot_error_list hfl he hu0 heta a x p
    have hr := he.any (a i * x i + p.dot fl a x)
    simp only [Plan.dot, Plan.depth, Plan.entries, List.map_cons, List.sum_cons, List.length_cons, dotError] at p1 ⊢
    generalize p.dot fl a x = c at *
    generalize (p.entries.map fun i => a i * x i).sum = s at *
    generalize (p.entries.map fun i => |a i * x i|).sum = S at *
    generalize a i * x i = t at *
    generalize hQ : (1 + u) ^ p.depth = Q at *
    have hQ1 : 1 ≤ Q := hQ ▸ one_le_pow₀ (by linarith)
    have hS : 0 ≤ S := (abs_nonneg s).trans p2
    have h1 := abs_add_le t s
    refine ⟨?_, by linarith⟩
    have h2 := abs_sub_le (fl (t + c)) (t + c) (t + s)
    have h3 : t + c - (t + s) = c - s := by ring
    rw [h3] at h2
    have h4 : |t + c| ≤ |t| + S + ((Q - 1) * S + Q * (p.entries.length * eta)) := by
      have e : t + c = (t + s) + (c - s) := by ring
      have := abs_add_le (t + s) (c - s)
      rw [← e] at this
      linarith
    have h5 := mul_le_mul_of_nonneg_left h4 hu0
    have h6 : 0 ≤ u * |t| := mul_nonneg hu0 (abs_nonneg _)
    have hQu : 1 ≤ Q * (1 + u) := by nlinarith
    have h7 : eta ≤ Q * (1 + u) * eta := le_mul_of_one_le_left heta hQu
    have h8 : u * |t| ≤ (Q * (1 + u) - 1) * |t| := mul_le_mul_of_nonneg_right (by nlinarith) (abs_nonneg _)
    rw [pow_succ, hQ]
    push_cast
    have e1 : (Q * (1 + u) - 1) * (|t| + S) + Q * (1 + u) * ((p.entries.length + 1) * eta) =
        (Q * (1 + u) - 1) * |t| + u * (S + ((Q - 1) * S + Q * (p.entries.length * eta))) + ((Q - 1) * S + Q * (p.entries.length * eta)) + Q * (1 + u) * eta := by ring
    rw [e1]
    linarith
  | .add p q => by
    obtain ⟨p1, p2⟩ := dot_error_list hfl he hu0 heta a x p
    obtain ⟨q1, q2⟩ := dot_error_list hfl he hu0 heta a x q
    have hr := he.add _ _ (dot_number hfl a x p) (dot_number hfl a x q)
    simp only [Plan.dot, Plan.depth, Plan.entries, List.map_append, List.sum_append, List.length_append, dotError] at p1 q1 ⊢
    generalize p.dot fl a x = c at *
    generalize q.dot fl a x = c' at *
    generalize (p.entries.map fun i => a i * x i).sum = s at *
    generalize (p.entries.map fun i => |a i * x i|).sum = S at *
    generalize (q.entries.map fun i => a i * x i).sum = s' at *
    generalize (q.entries.map fun i => |a i * x i|).sum = S' at *
    have qa : (1 + u) ^ p.depth ≤ (1 + u) ^ max p.depth q.depth := pow_le_pow_right₀ (by linarith) (le_max_left _ _)
    have qb : (1 + u) ^ q.depth ≤ (1 + u) ^ max p.depth q.depth := pow_le_pow_right₀ (by linarith) (le_max_right _ _)
    have hS : 0 ≤ S := (abs_nonneg s).trans p2
    have hS' : 0 ≤ S' := (abs_nonneg s').trans q2
    have m1 : (0 : K) ≤ p.entries.length * eta := mul_nonneg (Nat.cast_nonneg _) heta
    have m2 : (0 : K) ≤ q.entries.length * eta := mul_nonneg (Nat.cast_nonneg _) heta
    rw [pow_succ]
    generalize (1 + u) ^ max p.depth q.depth = Q at *
    have a3 := mul_le_mul_of_nonneg_right (sub_le_sub_right qa 1) hS
    have b3 := mul_le_mul_of_nonneg_right (sub_le_sub_right qb 1) hS'
    have a4 := mul_le_mul_of_nonneg_right qa m1
    have b4 := mul_le_mul_of_nonneg_right qb m2
    have h1 := abs_add_le s s'
    refine ⟨?_, by linarith⟩
    push_cast
    have d1 : |c + c' - (s + s')| ≤ (Q - 1) * (S + S') + Q * ((p.entries.length + q.entries.length) * eta) := by
      have := abs_add_le (c - s) (c' - s')
      rw [show c - s + (c' - s') = c + c' - (s + s') by ring] at this
      have e : (Q - 1) * (S + S') + Q * ((p.entries.length + q.entries.length) * eta) =
        (Q - 1) * S + Q * (p.entries.length * eta) + ((Q - 1) * S' + Q * (q.entries.length * eta)) := by ring
      rw [e]
      linarith
    have d2 : |c + c'| ≤ S + S' + ((Q - 1) * (S + S') + Q * ((p.entries.length + q.entries.length) * eta)) := by
      have := abs_sub_abs_le_abs_sub (c + c') (s + s')
      linarith
    have d3 := abs_sub_le (fl (c + c')) (c + c') (s + s')
    have d4 := mul_le_mul_of_nonneg_left d2 hu0
    have e1 : (Q * (1 + u) - 1) * (S + S') + Q * (1 + u) * ((p.entries.length + q.entries.length) * eta) =
        u * (S + S' + ((Q - 1) * (S + S') + Q * ((p.entries.length + q.entries.length) * eta))) + ((Q - 1) * (S + S') + Q * ((p.entries.length + q.entries.length) * eta)) := by ring
    rw [e1]
    linarith

theorem complete_sum {n : Nat} {p : Plan n} (hp : p.Complete) (f : Fin n → K) : (p.entries.map f).sum = ∑ i, f i := by
  rw [← List.sum_toFinset _ hp.1]
  congr 1
  ext i
  simp [hp.2 i]

theorem complete_length {n : Nat} {p : Plan n} (hp : p.Complete) : p.entries.length = n := by
  rw [← List.toFinset_card_of_nodup hp.1]
  have : p.entries.toFinset = Finset.univ := by ext i; simp [hp.2 i]
  rw [this, Finset.card_univ, Fintype.card_fin]

theorem dotError_mono {u eta S S' : K} (hu0 : 0 ≤ u) (r n : Nat) (h : S ≤ S') : dotError u eta r n S ≤ dotError u eta r n S' := by
  unfold dotError
  have : 1 ≤ (1 + u) ^ r := one_le_pow₀ (by linarith)
  have := mul_le_mul_of_nonneg_left h (by linarith : 0 ≤ (1 + u) ^ r - 1)
  linarith

/-- **C303.** A scalar product computed in floating point, in whatever order and with or without fused multiplications and additions, differs from the exact one by at most
`dotError`. -/
theorem C303_dot_partial {u eta : K} (hfl : IsRounding fl) (he : HasError fl u eta) (hu0 : 0 ≤ u) (heta : 0 ≤ eta) {n : Nat} {p : Plan n} (hp : p.Complete) (a x : Fin n → K) :
    |p.dot fl a x - ∑ i, a i * x i| ≤ dotError u eta p.depth n (∑ i, |a i * x i|) := by
  have := (dot_error_list hfl he hu0 heta a x p).1
  rwa [complete_sum hp, complete_sum hp, complete_length hp] at this

theorem wide_neg_iff (hw : IsRounding wide) {v b : K} (hv : IsNumber wide v) (hb : IsNumber wide b) : wide (v + b) < 0 ↔ v + b < 0 := by
  constructor
  · intro h
    by_contra h0
    have := hw.mono 0 (v + b) (not_lt.1 h0)
    rw [hw.zero] at this
    exact absurd h (not_lt.2 this)
  · intro h
    have h1 := hw.mono _ _ h.le
    rw [hw.zero] at h1
    rcases h1.lt_or_eq with h1 | h1
    · exact h1
    · have hn : IsNumber wide (-b) := by unfold IsNumber; rw [hw.neg, hb]
      have := hw.diff v (-b) hv hn (by rwa [sub_neg_eq_add])
      rw [this] at h
      linarith

/-- C303: a support vector classifier whose computed kernel values have errors up to `eps`, with multipliers and threshold in the format, answers with the sign of the exact
decision value if that value is larger than the error of the scalar product. The addition of the threshold does no harm. -/
theorem C303_svc_partial {u eta : K} (hfl : IsWider fl wide) (he : HasError fl u eta) (hu0 : 0 ≤ u) (heta : 0 ≤ eta) {n : Nat} {p : Plan n} (hp : p.Complete)
    (alpha y kappa k eps : Fin n → K) (b : K) (ha : ∀ i, 0 ≤ alpha i ∧ IsNumber fl (alpha i)) (hy : ∀ i, y i = 1 ∨ y i = -1) (hb : IsNumber wide b)
    (hk : ∀ i, |kappa i - k i| ≤ eps i)
    (hclear : dotError u eta p.depth n (∑ i, alpha i * (|k i| + eps i)) + ∑ i, alpha i * eps i < |∑ i, alpha i * y i * k i + b|) :
    svcRow fl wide p alpha y kappa b = if ∑ i, alpha i * y i * k i + b < 0 then -1 else 1 := by
  have hc : ∀ i, fl (alpha i * y i) = alpha i * y i := by
    intro i
    rcases hy i with h | h
    · rw [h, mul_one]; exact (ha i).2
    · rw [h, mul_neg, mul_one, hfl.ofNarrow.neg, (ha i).2]
  have hab : ∀ i, |alpha i * y i| = alpha i := by
    intro i
    rcases hy i with h | h <;> rw [h] <;> simp [abs_of_nonneg (ha i).1]
  have h1 := C303_dot_partial hfl.ofNarrow he hu0 heta hp (fun i => fl (alpha i * y i)) kappa
  have hn := hfl.number _ (dot_number hfl.ofNarrow (fun i => fl (alpha i * y i)) kappa p)
  unfold svcRow
  generalize hv : p.dot fl (fun i => fl (alpha i * y i)) kappa = v at *
  simp only [hc, abs_mul, hab] at h1
  have h2 : |∑ i, alpha i * y i * kappa i - ∑ i, alpha i * y i * k i| ≤ ∑ i, alpha i * eps i := by
    rw [← Finset.sum_sub_distrib]
    refine (Finset.abs_sum_le_sum_abs _ _).trans (Finset.sum_le_sum fun i _ => ?_)
    rw [← mul_sub, abs_mul, hab]
    exact mul_le_mul_of_nonneg_left (hk i) (ha i).1
  have h3 : ∑ i, alpha i * |kappa i| ≤ ∑ i, alpha i * (|k i| + eps i) := by
    refine Finset.sum_le_sum fun i _ => mul_le_mul_of_nonneg_left ?_ (ha i).1
    have := abs_sub_abs_le_abs_sub (kappa i) (k i)
    linarith [hk i]
  have h4 := dotError_mono (eta := eta) hu0 p.depth n h3
  have h5 : |v - ∑ i, alpha i * y i * k i| < |∑ i, alpha i * y i * k i + b| := by
    have := abs_sub_le v (∑ i, alpha i * y i * kappa i) (∑ i, alpha i * y i * k i)
    linarith
  generalize ∑ i, alpha i * y i * k i = D at *
  simp only [wide_neg_iff hfl.ofWide hn hb]
  by_cases hD : D + b < 0
  · rw [if_pos hD, if_pos]
    rw [abs_of_neg hD] at h5
    have := (abs_lt.1 h5).2
    linarith
  · rw [if_neg hD, if_neg]
    rw [abs_of_nonneg (not_lt.1 hD)] at h5
    have := (abs_lt.1 h5).1
    linarith

/-- C303 for the linear kernel: the errors of the kernel values are those of scalar products with `r` roundings. -/
theorem C303_linear_partial {u eta : K} (hfl : IsWider fl wide) (he : HasError fl u eta) (hu0 : 0 ≤ u) (heta : 0 ≤ eta) {n d : Nat} {p : Plan n} (hp : p.Complete)
    {q : Fin n → Plan d} (hq : ∀ i, (q i).Complete) (alpha y : Fin n → K) (sv : Fin n → Fin d → K) (x : Fin d → K) (b : K)
    (ha : ∀ i, 0 ≤ alpha i ∧ IsNumber fl (alpha i)) (hy : ∀ i, y i = 1 ∨ y i = -1) (hb : IsNumber wide b) (eps : Fin n → K)
    (heps : ∀ i, eps i = dotError u eta (q i).depth d (∑ j, |sv i j * x j|))
    (hclear : dotError u eta p.depth n (∑ i, alpha i * (|∑ j, sv i j * x j| + eps i)) + ∑ i, alpha i * eps i < |∑ i, alpha i * y i * (∑ j, sv i j * x j) + b|) :
    svcRow fl wide p alpha y (linearKernel fl q sv x) b = if ∑ i, alpha i * y i * (∑ j, sv i j * x j) + b < 0 then -1 else 1 :=
  C303_svc_partial hfl he hu0 heta hp alpha y _ _ eps b ha hy hb (fun i => by rw [heps]; exact C303_dot_partial hfl.ofNarrow he hu0 heta (hq i) (sv i) x) hclear

/-- C303 fails without the margin: two support vectors 33554432 and 1 of different classes with multipliers 1 and threshold -33554432 have the decision value -1 at 1, but in
single precision the answer is 1. -/
theorem C303_svc_wrong : svcRow f32 f64 (.add (.mul 0) (.mul 1)) ![1, 1] ![1, -1] (linearKernel f32 (fun _ => .mul 0) ![![33554432], ![1]] ![1]) (-33554432 : ℚ) = 1 ∧
    (1 : ℚ) * 1 * (33554432 * 1) + 1 * -1 * (1 * 1) + -33554432 < 0 ∧ IsNumber f32 (33554432 : ℚ) ∧ IsNumber f32 (-33554432 : ℚ) := by
  refine ⟨by decide +kernel, by norm_num, ?_⟩
  unfold IsNumber
  decide +kernel

/-- C303: the probability of a logistic regression is on the right side of one half, or on it, if the exact score is larger than the error of the scalar product. -/
theorem C303_logistic_partial {ex : K → K} {u eta : K} (hfl : IsRounding fl) (he : HasError fl u eta) (hu0 : 0 ≤ u) (heta : 0 ≤ eta) (hex : IsExp fl ex) (hhalf : IsNumber fl (1 / 2))
    {d : Nat} {p : Plan (d + 1)} (hp : p.Complete) (beta : Fin (d + 1) → K) (x : Fin d → K)
    (hclear : dotError u eta p.depth (d + 1) (∑ j, |x j * beta j.castSucc| + |beta (Fin.last d)|) < |∑ j, x j * beta j.castSucc + beta (Fin.last d)|) :
    ∃ w, logistic fl ex p beta x = some w ∧ (0 < ∑ j, x j * beta j.castSucc + beta (Fin.last d) → 1 / 2 ≤ w) ∧ (∑ j, x j * beta j.castSucc + beta (Fin.last d) < 0 → w ≤ 1 / 2) := by
  have h1 := C303_dot_partial hfl he hu0 heta hp (Fin.snoc x 1 : Fin (d + 1) → K) beta
  simp only [Fin.sum_univ_castSucc, Fin.snoc_castSucc, Fin.snoc_last, one_mul] at h1
  obtain ⟨w, hw, -, -, -, h2, h3, -⟩ := C281_range_partial hfl hex (p.dot fl (Fin.snoc x 1 : Fin (d + 1) → K) beta)
  have hh : fl (1 / 2) = 1 / 2 := hhalf
  rw [hh] at h2 h3
  refine ⟨w, hw, fun h => h2 ?_, fun h => h3 ?_⟩
  · rw [abs_of_pos h] at hclear
    linarith [(abs_le.1 h1).1]
  · rw [abs_of_neg h] at hclear
    linarith [(abs_le.1 h1).2]

theorem sigmoid_below (z : ℝ) (hz : z ≤ -(1 / 2 ^ 21)) : ∃ w, sigmoid f32 exp32 z = some w ∧ w < 1 / 2 := by
  have h1 : (1 + 1 / 2 ^ 21 : ℝ) ≤ exp32 (-z) := by
    have h2 : (1 + 1 / 2 ^ 21 : ℝ) ≤ Real.exp (-z) := by
      have := Real.add_one_le_exp (-z)
      linarith
    have h3 := f32_isRounding.mono _ _ h2
    have h4 : f32 (1 + 1 / 2 ^ 21 : ℝ) = 1 + 1 / 2 ^ 21 := by have h := f32_real (1 + 1 / 2 ^ 21) (1 + 1 / 2 ^ 21) (by decide +kernel); push_cast at h; exact h
    rwa [h4] at h3
  have h5 : (2 + 1 / 2 ^ 21 : ℝ) ≤ f32 (1 + exp32 (-z)) := by
    have h3 := f32_isRounding.mono _ _ (show (2 + 1 / 2 ^ 21 : ℝ) ≤ 1 + exp32 (-z) by linarith)
    have h4 : f32 (2 + 1 / 2 ^ 21 : ℝ) = 2 + 1 / 2 ^ 21 := by have h := f32_real (2 + 1 / 2 ^ 21) (2 + 1 / 2 ^ 21) (by decide +kernel); push_cast at h; exact h
    rwa [h4] at h3
  have hpos : (0 : ℝ) < 2 + 1 / 2 ^ 21 := by positivity
  refine ⟨_, if_neg (by linarith), ?_⟩
  have h6 := f32_isRounding.mono _ _ (one_div_le_one_div_of_le hpos h5)
  have h7 : f32 (1 / (2 + 1 / 2 ^ 21) : ℝ) ≤ 1 / 2 - 1 / 2 ^ 25 := by
    have h8 : f32 (1 / 2 - 1 / 2 ^ 25 : ℝ) = 1 / 2 - 1 / 2 ^ 25 := by have h := f32_real (1 / 2 - 1 / 2 ^ 25) (1 / 2 - 1 / 2 ^ 25) (by decide +kernel); push_cast at h; exact h
    rw [← h8]
    exact f32_isRounding.mono _ _ (by norm_num)
  have : (0 : ℝ) < 1 / 2 ^ 25 := by positivity
  linarith

/-- C303 in single precision: a sample is counted as positive exactly if its exact score is positive, for scores larger than the error of the scalar product and 2^-21. -/
theorem C303_logistic_f32_partial {d : Nat} {p : Plan (d + 1)} (hp : p.Complete) (beta : Fin (d + 1) → ℝ) (x : Fin d → ℝ)
    (hclear : dotError (1 / 2 ^ 24) (2 ^ (-149 : Int) / 2) p.depth (d + 1) (∑ j, |x j * beta j.castSucc| + |beta (Fin.last d)|) + 1 / 2 ^ 21 ≤
      |∑ j, x j * beta j.castSucc + beta (Fin.last d)|) :
    ∃ w, logistic f32 exp32 p beta x = some w ∧ (w ≥ 1 / 2 ↔ 0 < ∑ j, x j * beta j.castSucc + beta (Fin.last d)) := by
  have h0 : (0 : ℝ) < 1 / 2 ^ 21 := by positivity
  have hhalf : IsNumber f32 (1 / 2 : ℝ) := by
    have h := f32_real (1 / 2) (1 / 2) (by decide +kernel)
    push_cast at h
    exact h
  have hb : (0 : ℝ) ≤ dotError (1 / 2 ^ 24) (2 ^ (-149 : Int) / 2) p.depth (d + 1) (∑ j, |x j * beta j.castSucc| + |beta (Fin.last d)|) := by
    have h := abs_nonneg (p.dot f32 (Fin.snoc x 1 : Fin (d + 1) → ℝ) beta - ∑ i, (Fin.snoc x 1 : Fin (d + 1) → ℝ) i * beta i)
    have h1 := h.trans (C303_dot_partial f32_isRounding f32_hasError (by positivity) (by positivity) hp (Fin.snoc x 1 : Fin (d + 1) → ℝ) beta)
    simpa only [Fin.sum_univ_castSucc, Fin.snoc_castSucc, Fin.snoc_last, one_mul] using h1
  obtain ⟨w, hw, h1, -⟩ := C303_logistic_partial f32_isRounding f32_hasError (by positivity) (by positivity) exp32_isExp hhalf hp beta x (by linarith)
  refine ⟨w, hw, fun h => ?_, h1⟩
  by_contra hn
  have hneg : ∑ j, x j * beta j.castSucc + beta (Fin.last d) ≤ 0 := not_lt.1 hn
  rw [abs_of_nonpos hneg] at hclear
  have h2 := C303_dot_partial f32_isRounding f32_hasError (by positivity) (by positivity) hp (Fin.snoc x 1 : Fin (d + 1) → ℝ) beta
  simp only [Fin.sum_univ_castSucc, Fin.snoc_castSucc, Fin.snoc_last, one_mul] at h2
  obtain ⟨w', hw', h3⟩ := sigmoid_below (p.dot f32 (Fin.snoc x 1 : Fin (d + 1) → ℝ) beta) (by
    have := (abs_le.1 h2).2
    linarith)
  unfold logistic at hw
  rw [hw] at hw'
  injection hw' with e
  rw [← e] at h3
  linarith

/-- C303 fails for small scores: a sample of score -2^-26 gets the probability 1/2 and is counted as positive. -/
theorem C303_logistic_wrong : logistic f32 exp32 (.add (.mul 0) (.mul 1)) ![-(1 / 2 ^ 26), 0] ![(1 : ℝ)] = some (1 / 2) ∧ (1 : ℝ) * -(1 / 2 ^ 26) + 0 < 0 := by
  refine ⟨?_, by norm_num⟩
  have e : (Plan.add (.mul 0) (.mul 1) : Plan 2).dot f32 (Fin.snoc ![(1 : ℝ)] 1 : Fin 2 → ℝ) ![-(1 / 2 ^ 26), 0] = -(1 / 2 ^ 26) := by
    have h4 : f32 (-(1 / 2 ^ 26) : ℝ) = -(1 / 2 ^ 26) := by have h := f32_real (-(1 / 2 ^ 26)) (-(1 / 2 ^ 26)) (by decide +kernel); push_cast at h; exact h
    have e0 : (Fin.snoc ![(1 : ℝ)] 1 : Fin 2 → ℝ) 0 = 1 := rfl
    have e1 : (Fin.snoc ![(1 : ℝ)] 1 : Fin 2 → ℝ) 1 = 1 := rfl
    simp only [Plan.dot, e0, e1, one_mul, Matrix.cons_val_zero, Matrix.cons_val_one, h4, f32_isRounding.zero, add_zero]
  unfold logistic
  rw [e]
  exact C281_half _ (by norm_num) (by norm_num)

/-- **C304.** Linear discriminant analysis in floating point names the class whose projected centre is clearly nearer. -/
theorem C304_clear_partial {u eta : K} (hfl : IsRounding fl) (he : HasError fl u eta) (hu0 : 0 ≤ u) (hu1 : u ≤ 1) (heta : 0 ≤ eta) {d : Nat} {p q0 q1 : Plan d}
    (hp : p.Complete) (h0 : q0.Complete) (h1 : q1.Complete) (w mu0 mu1 x : Fin d → K) (E E0 E1 D0 D1 : K)
    (hE : E = dotError u eta p.depth d (∑ j, |x j * w j|)) (hE0 : E0 = dotError u eta q0.depth d (∑ j, |w j * mu0 j|)) (hE1 : E1 = dotError u eta q1.depth d (∑ j, |w j * mu1 j|))
    (hD0 : D0 = |∑ j, w j * (x j - mu0 j)|) (hD1 : D1 = |∑ j, w j * (x j - mu1 j)|) :
    ((1 + u) * (D1 + (E + E1)) < (1 - u) * (D0 - (E + E0)) → ldaRow fl p q0 q1 w mu0 mu1 x = 1) ∧
    ((1 + u) * (D0 + (E + E0)) < (1 - u) * (D1 - (E + E1)) → ldaRow fl p q0 q1 w mu0 mu1 x = 0) := by
  have key : ∀ (q : Plan d), q.Complete → ∀ (mu : Fin d → K),
      (1 - u) * (|∑ j, w j * (x j - mu j)| - (E + dotError u eta q.depth d (∑ j, |w j * mu j|))) ≤ |fl (p.dot fl x w - q.dot fl w mu)| ∧
      |fl (p.dot fl x w - q.dot fl w mu)| ≤ (1 + u) * (|∑ j, w j * (x j - mu j)| + (E + dotError u eta q.depth d (∑ j, |w j * mu j|))) := by
    intro q hq mu
    have e1 := C303_dot_partial hfl he hu0 heta hp x w
    have e2 := C303_dot_partial hfl he hu0 heta hq w mu
    have e3 := sub_error hfl he (dot_number hfl x w p) (dot_number hfl w mu q)
    have e4 : ∑ j, w j * (x j - mu j) = ∑ j, x j * w j - ∑ j, w j * mu j := by
      rw [← Finset.sum_sub_distrib]
      exact Finset.sum_congr rfl fun j _ => by ring
    rw [← hE] at e1
    rw [e4]
    generalize dotError u eta q.depth d (∑ j, |w j * mu j|) = E' at *
    generalize p.dot fl x w = c at *
    generalize q.dot fl w mu = c' at *
    generalize ∑ j, x j * w j = s at *
    generalize ∑ j, w j * mu j = s' at *
    have g : |c - c' - (s - s')| ≤ E + E' := by
      have := abs_sub (c - s) (c' - s')
      rw [show c - s - (c' - s') = c - c' - (s - s') by ring] at this
      linarith
    have g1 : |c - c'| ≤ |s - s'| + (E + E') := by
      have := abs_sub_abs_le_abs_sub (c - c') (s - s')
      linarith
    have g2 : |s - s'| - (E + E') ≤ |c - c'| := by
      have := abs_sub_abs_le_abs_sub (s - s') (c - c')
      rw [abs_sub_comm (s - s') (c - c')] at this
      linarith
    have g3 : |fl (c - c')| ≤ (1 + u) * |c - c'| := by
      have := abs_sub_abs_le_abs_sub (fl (c - c')) (c - c')
      linarith
    have g4 : (1 - u) * |c - c'| ≤ |fl (c - c')| := by
      have := abs_sub_abs_le_abs_sub (c - c') (fl (c - c'))
      rw [abs_sub_comm (c - c') (fl (c - c'))] at this
      linarith
    exact ⟨(mul_le_mul_of_nonneg_left g2 (by linarith)).trans g4, g3.trans (mul_le_mul_of_nonneg_left g1 (by linarith))⟩
  obtain ⟨a1, a2⟩ := key q0 h0 mu0
  obtain ⟨b1, b2⟩ := key q1 h1 mu1
  rw [← hD0, ← hE0] at a1 a2
  rw [← hD1, ← hE1] at b1 b2
  constructor
  · intro h
    exact if_pos (by linarith)
  · intro h
    exact if_neg (by linarith)

/-- C304 fails without the margin: on the direction (1, 1) the sample (33554432, 1) is projected to 33554433, nearer to the centre 33554436 than to 33554428, but in single
precision the distances are both 4 and the class is 0. -/
theorem C304_wrong : ldaRow f32 (.add (.mul 0) (.mul 1)) (.add (.mul 0) (.mul 1)) (.add (.mul 0) (.mul 1)) ![1, 1] ![33554428, 0] ![33554436, 0] ![(33554432 : ℚ), 1] = 0 ∧
    |(33554432 + 1 - 33554436 : ℚ)| < |(33554432 + 1 - 33554428 : ℚ)| ∧ IsNumber f32 (33554432 : ℚ) ∧ IsNumber f32 (33554428 : ℚ) ∧ IsNumber f32 (33554436 : ℚ) := by
  unfold IsNumber
  decide +kernel

/-- The hypotheses hold for a concrete support vector classifier in single precision: the decision value -3 at 1. -/
example : svcRow f32 f64 (.fma 0 (.mul 1)) ![1, 1] ![1, -1] (linearKernel f32 (fun _ => .mul 0) ![![2], ![4]] ![1]) (-1 : ℚ) = -1 := by
  have hw : IsWider (f32 : ℚ → ℚ) f64 := f32_f64
  rw [C303_linear_partial hw f32_hasError (by positivity) (by positivity) ⟨by decide, by decide⟩ (fun _ => ⟨by decide, by decide⟩) ![1, 1] ![1, -1] ![![2], ![4]] ![1] (-1)
    (by intro i; unfold IsNumber; revert i; decide +kernel) (by decide +kernel) (by unfold IsNumber; decide +kernel) _ (fun _ => rfl) (by unfold dotError; decide +kernel)]
  decide +kernel

/-- The hypotheses hold for a concrete discriminant: the sample 3 and the centres 0 and 4. -/
example : ldaRow f32 (.mul 0) (.mul 0) (.mul 0) ![1] ![0] ![4] ![(3 : ℚ)] = 1 :=
  (C304_clear_partial f32_isRounding f32_hasError (by positivity) (by norm_num) (by positivity) ⟨by decide, by decide⟩ ⟨by decide, by decide⟩ ⟨by decide, by decide⟩
    ![1] ![0] ![4] ![(3 : ℚ)] _ _ _ _ _ rfl rfl rfl rfl rfl).1 (by unfold dotError; decide +kernel)

/-- The hypotheses hold for a concrete logistic regression: the score 2 · 1 - 1. -/
example : ∃ w, logistic f32 exp32 (.fma 0 (.mul 1)) ![2, -1] ![(1 : ℝ)] = some w ∧ w ≥ 1 / 2 := by
  obtain ⟨w, hw, h⟩ := C303_logistic_f32_partial (p := .fma 0 (.mul 1)) ⟨by decide, by decide⟩ ![2, -1] ![(1 : ℝ)] (by
    simp [dotError, Plan.depth, Fin.last]
    norm_num)
  exact ⟨w, hw, h.2 (by simp [Fin.last])⟩

end CML.Float
