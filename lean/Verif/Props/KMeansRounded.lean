import Verif.Model.KMeansRounded
import Verif.Props.Rounded
import Verif.Props.RoundedMore
import Mathlib.Analysis.SpecialFunctions.Sqrt

set_option linter.unusedSectionVars false

/-! # Properties C286 and C287: k-means in floating point -/

namespace CML.Float

variable {K : Type*} [Field K] [LinearOrder K] [IsStrictOrderedRing K] {fl : K → K}

theorem sub_error {u eta : K} (hfl : IsRounding fl) (he : HasError fl u eta) {x y : K} (hx : IsNumber fl x) (hy : IsNumber fl y) :
    |fl (x - y) - (x - y)| ≤ u * |x - y| := by
  have hn : IsNumber fl (-y) := by unfold IsNumber; rw [hfl.neg, hy]
  have := he.add x (-y) hx hn
  rwa [← sub_eq_add_neg] at this

theorem square_error {u eta : K} (hfl : IsRounding fl) (he : HasError fl u eta) (hu0 : 0 ≤ u) (hu1 : u ≤ 1) {x y : K} (hx : IsNumber fl x) (hy : IsNumber fl y) :
    (1 - u) ^ 3 * ((x - y) * (x - y)) - eta ≤ fl (fl (x - y) * fl (x - y)) ∧ fl (fl (x - y) * fl (x - y)) ≤ (1 + u) ^ 3 * ((x - y) * (x - y)) + eta := by
  have h1 := sub_error hfl he hx hy
  generalize fl (x - y) = t at h1 ⊢
  generalize x - y = w at h1 ⊢
  have h2 := he.any (t * t)
  rw [abs_of_nonneg (mul_self_nonneg t), abs_le] at h2
  have hsq : t * t = |t| * |t| := (abs_mul_abs_self t).symm
  have hwsq : w * w = |w| * |w| := (abs_mul_abs_self w).symm
  have l1 : (1 - u) * |w| ≤ |t| := by
    have := abs_sub_abs_le_abs_sub w t
    rw [abs_sub_comm] at this
    linarith
  have l2 : |t| ≤ (1 + u) * |w| := by
    have := abs_sub_abs_le_abs_sub t w
    linarith
  have w0 := abs_nonneg w
  have t0 := abs_nonneg t
  have q1 : (1 - u) ^ 2 * (w * w) ≤ t * t := by
    rw [hsq, hwsq]
    calc (1 - u) ^ 2 * (|w| * |w|) = ((1 - u) * |w|) * ((1 - u) * |w|) := by ring
      _ ≤ |t| * |t| := mul_le_mul l1 l1 (mul_nonneg (by linarith) w0) t0
  have q2 : t * t ≤ (1 + u) ^ 2 * (w * w) := by
    rw [hsq, hwsq]
    calc |t| * |t| ≤ ((1 + u) * |w|) * ((1 + u) * |w|) := mul_le_mul l2 l2 t0 (mul_nonneg (by linarith) w0)
      _ = _ := by ring
  constructor
  · have := mul_le_mul_of_nonneg_left q1 (by linarith : 0 ≤ 1 - u)
    have e : (1 - u) * ((1 - u) ^ 2 * (w * w)) = (1 - u) ^ 3 * (w * w) := by ring
    linarith
  · have := mul_le_mul_of_nonneg_left q2 (by linarith : 0 ≤ 1 + u)
    have e : (1 + u) * ((1 + u) ^ 2 * (w * w)) = (1 + u) ^ 3 * (w * w) := by ring
    linarith

theorem sqDist_bounds {u eta : K} (hfl : IsRounding fl) (he : HasError fl u eta) (hu0 : 0 ≤ u) (hu1 : u ≤ 1) {d : Nat} {o : Order d} (ho : o.Complete)
    (x c : Fin d → K) (hx : ∀ k, IsNumber fl (x k)) (hc : ∀ k, IsNumber fl (c k)) :
    (1 - u) ^ o.depth * ((1 - u) ^ 3 * KMeans.sqDist x c - d * eta) ≤ sqDist fl o x c ∧
    sqDist fl o x c ≤ (1 + u) ^ o.depth * ((1 + u) ^ 3 * KMeans.sqDist x c + d * eta) ∧ 0 ≤ sqDist fl o x c ∧ IsNumber fl (sqDist fl o x c) := by
  have hn : ∀ k, IsNumber fl (fl (fl (x k - c k) * fl (x k - c k))) := fun k => hfl.idem _
  have h0 : ∀ k, 0 ≤ fl (fl (x k - c k) * fl (x k - c k)) := fun k => hfl.nonneg (mul_self_nonneg _)
  obtain ⟨b1, b2⟩ := sum_bounds hfl he hu0 hu1 _ hn h0 o
  rw [sum_complete _ o ho] at b1 b2
  have e1 : ∑ k, ((1 - u) ^ 3 * ((x k - c k) * (x k - c k)) - eta) = (1 - u) ^ 3 * KMeans.sqDist x c - d * eta := by
    rw [Finset.sum_sub_distrib, ← Finset.mul_sum]
    simp [KMeans.sqDist]
  have e2 : ∑ k, ((1 + u) ^ 3 * ((x k - c k) * (x k - c k)) + eta) = (1 + u) ^ 3 * KMeans.sqDist x c + d * eta := by
    rw [Finset.sum_add_distrib, ← Finset.mul_sum]
    simp [KMeans.sqDist]
  have s1 := Finset.sum_le_sum fun k (_ : k ∈ Finset.univ) => (square_error hfl he hu0 hu1 (hx k) (hc k)).1
  have s2 := Finset.sum_le_sum fun k (_ : k ∈ Finset.univ) => (square_error hfl he hu0 hu1 (hx k) (hc k)).2
  rw [e1] at s1
  rw [e2] at s2
  refine ⟨(mul_le_mul_of_nonneg_left s1 (pow_nonneg (by linarith) _)).trans b1, b2.trans (mul_le_mul_of_nonneg_left s2 (pow_nonneg (by linarith) _)), sum_nonneg hfl _ h0 o, sum_number hfl _ hn o⟩

/-- **C286.** Computed in floating point, the label of a sample is that of a nearly nearest centroid: no other centroid is closer by more than the factor
`((1 + u) / (1 - u)) ^ (depth + 5)` in square and the underflow of the squares. -/
theorem C286_nearly_nearest_partial {u eta : K} {root : K → K} (hfl : IsRounding fl) (he : HasError fl u eta) (hr : IsRoot fl root u) (hu0 : 0 ≤ u) (hu1 : u ≤ 1)
    (heta : 0 ≤ eta) {d : Nat} {o : Order d} (ho : o.Complete) (x : Fin d → K) (hx : ∀ k, IsNumber fl (x k)) (cs : List (Fin d → K))
    (hcs : ∀ c ∈ cs, ∀ k, IsNumber fl (c k)) (hne : cs ≠ []) :
    ∃ i c, getCluster fl root o x cs = some i ∧ cs[i]? = some c ∧ ∀ c' ∈ cs,
      (1 - u) ^ (o.depth + 5) * (∑ k, (x k - c k) ^ 2) ≤ (1 + u) ^ (o.depth + 5) * (∑ k, (x k - c' k) ^ 2) + 2 * (1 + u) ^ (o.depth + 2) * (d * eta) := by
  obtain ⟨i, hi⟩ := argmin?_isSome (l := cs.map fun c => root (sqDist fl o x c)) (by simpa using hne)
  have hspec := argmin?_spec hi
  obtain ⟨c, hc⟩ : ∃ c, cs[i]? = some c := by
    obtain ⟨v, hv, -⟩ := hspec
    rw [List.getElem?_map] at hv
    cases hci : cs[i]? with
    | none => rw [hci] at hv; cases hv
    | some c => exact ⟨c, rfl⟩
  refine ⟨i, c, hi, hc, fun c' hc' => ?_⟩
  have hle : root (sqDist fl o x c) ≤ root (sqDist fl o x c') := by
    obtain ⟨v, hv, hmin, -⟩ := hspec
    rw [List.getElem?_map, hc] at hv
    injection hv with hv
    have hv' : root (sqDist fl o x c) = v := hv
    rw [hv']
    exact hmin _ (List.mem_map_of_mem hc')
  have hcm : c ∈ cs := List.mem_of_getElem? hc
  obtain ⟨a1, -, a3, a4⟩ := sqDist_bounds hfl he hu0 hu1 ho x c hx (hcs c hcm)
  obtain ⟨-, b2, b3, b4⟩ := sqDist_bounds hfl he hu0 hu1 ho x c' hx (hcs c' hc')
  have r1 := hr.low _ a3 a4
  have r2 := hr.high _ b3 b4
  have r0 := hr.nonneg _ a3
  have r3 := mul_le_mul hle hle r0 (r0.trans hle)
  have key : (1 - u) ^ 2 * sqDist fl o x c ≤ (1 + u) ^ 2 * sqDist fl o x c' := by linarith
  have k1 := mul_le_mul_of_nonneg_left a1 (sq_nonneg (1 - u))
  have k2 := mul_le_mul_of_nonneg_left b2 (sq_nonneg (1 + u))
  have e1 : (1 - u) ^ 2 * ((1 - u) ^ o.depth * ((1 - u) ^ 3 * KMeans.sqDist x c - d * eta)) =
      (1 - u) ^ (o.depth + 5) * KMeans.sqDist x c - (1 - u) ^ (o.depth + 2) * (d * eta) := by ring
  have e2 : (1 + u) ^ 2 * ((1 + u) ^ o.depth * ((1 + u) ^ 3 * KMeans.sqDist x c' + d * eta)) =
      (1 + u) ^ (o.depth + 5) * KMeans.sqDist x c' + (1 + u) ^ (o.depth + 2) * (d * eta) := by ring
  rw [e1] at k1
  rw [e2] at k2
  have p : (1 - u) ^ (o.depth + 2) ≤ (1 + u) ^ (o.depth + 2) := pow_le_pow_left₀ (by linarith) (by linarith) _
  have p2 := mul_le_mul_of_nonneg_right p (mul_nonneg (Nat.cast_nonneg (α := K) d) heta)
  have s1 : ∑ k, (x k - c k) ^ 2 = KMeans.sqDist x c := Finset.sum_congr rfl fun k _ => sq _
  have s2 : ∑ k, (x k - c' k) ^ 2 = KMeans.sqDist x c' := Finset.sum_congr rfl fun k _ => sq _
  rw [s1, s2]
  linarith

/-- C286: a centroid that is clearly the nearest is found. -/
theorem C286_clear_partial {u eta : K} {root : K → K} (hfl : IsRounding fl) (he : HasError fl u eta) (hr : IsRoot fl root u) (hu0 : 0 ≤ u) (hu1 : u ≤ 1)
    (heta : 0 ≤ eta) {d : Nat} {o : Order d} (ho : o.Complete) (x : Fin d → K) (hx : ∀ k, IsNumber fl (x k)) (cs : List (Fin d → K))
    (hcs : ∀ c ∈ cs, ∀ k, IsNumber fl (c k)) (j : Nat) (c' : Fin d → K) (hj : cs[j]? = some c')
    (hclear : ∀ i c, cs[i]? = some c → i ≠ j →
      (1 + u) ^ (o.depth + 5) * (∑ k, (x k - c' k) ^ 2) + 2 * (1 + u) ^ (o.depth + 2) * (d * eta) < (1 - u) ^ (o.depth + 5) * (∑ k, (x k - c k) ^ 2)) :
    getCluster fl root o x cs = some j := by
  have hm := List.mem_of_getElem? hj
  obtain ⟨i, c, hi, hc, hle⟩ := C286_nearly_nearest_partial hfl he hr hu0 hu1 heta ho x hx cs hcs (List.ne_nil_of_mem hm)
  by_cases hij : i = j
  · rw [hi, hij]
  · exact absurd (hclear i c hc hij) (not_lt.2 (hle c' hm))

/-- C286 fails exactly: 16777218 is nearer to 2 (distance 16777216) than to 1 (distance 16777217), but in single precision both distances are 16777216 and the
first centroid wins, whatever the square root. -/
theorem C286_second_nearest (root : ℚ → ℚ) :
    getCluster f32 root (.entry 0) (fun _ : Fin 1 => 16777218) [fun _ => 1, fun _ => 2] = some 0 ∧
    f32 (16777218 : ℚ) = 16777218 ∧ f32 (1 : ℚ) = 1 ∧ f32 (2 : ℚ) = 2 := by
  refine ⟨?_, by decide +kernel⟩
  have e : sqDist f32 (.entry 0) (fun _ : Fin 1 => (16777218 : ℚ)) (fun _ => 1) = sqDist f32 (.entry 0) (fun _ : Fin 1 => (16777218 : ℚ)) (fun _ => 2) := by decide +kernel
  unfold getCluster
  simp only [List.map_cons, List.map_nil, e, argmin?, argminAux, lt_irrefl, if_false]

/-- C286 fails by underflow: a sample that is the second centroid is labelled with the first, which is another number. -/
theorem C286_own_centroid (root : ℚ → ℚ) :
    getCluster f32 root (.entry 0) (fun _ : Fin 1 => 0) [fun _ => 1 / 2 ^ 80, fun _ => 0] = some 0 ∧ f32 (1 / 2 ^ 80 : ℚ) = 1 / 2 ^ 80 := by
  refine ⟨?_, by decide +kernel⟩
  have e : sqDist f32 (.entry 0) (fun _ : Fin 1 => (0 : ℚ)) (fun _ => 1 / 2 ^ 80) = sqDist f32 (.entry 0) (fun _ : Fin 1 => (0 : ℚ)) (fun _ => 0) := by decide +kernel
  unfold getCluster
  simp only [List.map_cons, List.map_nil, e, argmin?, argminAux, lt_irrefl, if_false]

/-! ## The rounded square root -/

theorem rne_root {p : Nat} (hp : 1 ≤ p) {emin : Int} (he : emin + 2 * p ≤ 0) :
    IsRoot (rne p emin : ℝ → ℝ) (fun x => rne p emin (Real.sqrt x)) (1 / 2 ^ p) := by
  have hfl := rne_isRounding (K := ℝ) hp (emin := emin) (by omega)
  have key : ∀ x : ℝ, 0 ≤ x → IsNumber (rne p emin) x → |rne p emin (Real.sqrt x) - Real.sqrt x| ≤ 1 / 2 ^ p * Real.sqrt x := by
    intro x hx hn
    have := rne_precision p emin (Real.sqrt x) ?_
    · rwa [abs_of_nonneg (Real.sqrt_nonneg x)] at this
    · rcases hx.lt_or_eq with hx | hx
      · right
        rw [abs_of_nonneg (Real.sqrt_nonneg x)]
        refine Real.le_sqrt_of_sq_le ?_
        have h1 : (2 : ℝ) ^ emin ≤ x := by
          obtain ⟨m, k, hk, -, e⟩ := (rne_fixed_iff hp emin x).1 hn
          have hk' : (2 : ℝ) ^ emin ≤ 2 ^ k := zpow_le_zpow_right₀ (by norm_num) hk
          have hkp : (0 : ℝ) < 2 ^ k := by positivity
          have hm : (1 : ℝ) ≤ m := by
            have : 0 < m := by
              by_contra hm
              have : (m : ℝ) ≤ 0 := by exact_mod_cast not_lt.1 hm
              have := mul_nonpos_of_nonpos_of_nonneg this hkp.le
              rw [e] at hx
              linarith
            exact_mod_cast this
          rw [e]
          have := mul_le_mul_of_nonneg_right hm hkp.le
          linarith
        have h2 : ((2 : ℝ) ^ (emin + p - 1)) ^ 2 = 2 ^ (2 * (emin + p - 1)) := by rw [← zpow_natCast, ← zpow_mul]; congr 1; push_cast; ring
        rw [h2]
        exact (zpow_le_zpow_right₀ (by norm_num) (by omega)).trans h1
      · left
        rw [← hx, Real.sqrt_zero]
  refine ⟨fun x _ => hfl.nonneg (Real.sqrt_nonneg x), fun x y _ hxy => hfl.mono _ _ (Real.sqrt_le_sqrt hxy), fun x hx hn => ?_, fun x hx hn => ?_⟩
  · have := (abs_le.1 (key x hx hn)).1
    have h0 := Real.sqrt_nonneg x
    have hu : (1 : ℝ) / 2 ^ p ≤ 1 := (div_le_one (by positivity)).2 (one_le_pow₀ (by norm_num))
    have h1 : (1 - 1 / 2 ^ p) * Real.sqrt x ≤ rne p emin (Real.sqrt x) := by linarith
    calc (1 - 1 / 2 ^ p) ^ 2 * x = ((1 - 1 / 2 ^ p) * Real.sqrt x) * ((1 - 1 / 2 ^ p) * Real.sqrt x) := by rw [show ∀ a b : ℝ, a * b * (a * b) = a ^ 2 * (b * b) by intros; ring, Real.mul_self_sqrt hx]
      _ ≤ _ := mul_le_mul h1 h1 (mul_nonneg (by linarith) h0) (hfl.nonneg h0)
  · have := (abs_le.1 (key x hx hn)).2
    have h0 := Real.sqrt_nonneg x
    have h1 : rne p emin (Real.sqrt x) ≤ (1 + 1 / 2 ^ p) * Real.sqrt x := by linarith
    calc _ ≤ ((1 + 1 / 2 ^ p) * Real.sqrt x) * ((1 + 1 / 2 ^ p) * Real.sqrt x) := mul_le_mul h1 h1 (hfl.nonneg h0) (by positivity)
      _ = _ := by rw [show ∀ a b : ℝ, a * b * (a * b) = a ^ 2 * (b * b) by intros; ring, Real.mul_self_sqrt hx]

/-- C286 in single precision over the reals. -/
example {d : Nat} {o : Order d} (ho : o.Complete) (x : Fin d → ℝ) (hx : ∀ k, IsNumber f32 (x k)) (cs : List (Fin d → ℝ)) (hcs : ∀ c ∈ cs, ∀ k, IsNumber f32 (c k)) (hne : cs ≠ []) :
    ∃ i c, getCluster f32 (fun x => f32 (Real.sqrt x)) o x cs = some i ∧ cs[i]? = some c ∧ ∀ c' ∈ cs,
      (1 - 1 / 2 ^ 24) ^ (o.depth + 5) * (∑ k, (x k - c k) ^ 2) ≤
        (1 + 1 / 2 ^ 24) ^ (o.depth + 5) * (∑ k, (x k - c' k) ^ 2) + 2 * (1 + 1 / 2 ^ 24) ^ (o.depth + 2) * (d * (2 ^ (-149 : Int) / 2)) :=
  C286_nearly_nearest_partial f32_isRounding f32_hasError (rne_root (by norm_num) (by norm_num)) (by norm_num) (by norm_num) (by positivity) ho x hx cs hcs hne

/-! ## Means -/

theorem sum_error {u eta : K} (hfl : IsRounding fl) (he : HasError fl u eta) (hu0 : 0 ≤ u) {n : Nat} (e : Fin n → K) (hn : ∀ i, IsNumber fl (e i)) :
    ∀ o : Order n, |o.sum fl e - o.sum id e| ≤ ((1 + u) ^ o.depth - 1) * o.sum id (fun i => |e i|) ∧ |o.sum id e| ≤ o.sum id (fun i => |e i|)
  | .entry i => by simp [Order.depth, Order.sum]
  | .add a b => by
    obtain ⟨a1, a2⟩ := sum_error hfl he hu0 e hn a
    obtain ⟨b1, b2⟩ := sum_error hfl he hu0 e hn b
    have hr := he.add _ _ (sum_number hfl e hn a) (sum_number hfl e hn b)
    simp only [Order.depth, Order.sum, id]
    have qa : (1 + u) ^ a.depth ≤ (1 + u) ^ max a.depth b.depth := pow_le_pow_right₀ (by linarith) (le_max_left _ _)
    have qb : (1 + u) ^ b.depth ≤ (1 + u) ^ max a.depth b.depth := pow_le_pow_right₀ (by linarith) (le_max_right _ _)
    have na : 0 ≤ a.sum id (fun i => |e i|) := (abs_nonneg _).trans a2
    have nb : 0 ≤ b.sum id (fun i => |e i|) := (abs_nonneg _).trans b2
    have a3 := mul_le_mul_of_nonneg_right (sub_le_sub_right qa 1) na
    have b3 := mul_le_mul_of_nonneg_right (sub_le_sub_right qb 1) nb
    have h2 := abs_add_le (a.sum id e) (b.sum id e)
    refine ⟨?_, by linarith⟩
    rw [pow_succ]
    generalize (1 + u) ^ max a.depth b.depth = Q at *
    have d1 : |a.sum fl e + b.sum fl e - (a.sum id e + b.sum id e)| ≤ (Q - 1) * (a.sum id (fun i => |e i|) + b.sum id (fun i => |e i|)) := by
      have := abs_add_le (a.sum fl e - a.sum id e) (b.sum fl e - b.sum id e)
      rw [show a.sum fl e - a.sum id e + (b.sum fl e - b.sum id e) = a.sum fl e + b.sum fl e - (a.sum id e + b.sum id e) by ring] at this
      linarith
    have d2 : |a.sum fl e + b.sum fl e| ≤ Q * (a.sum id (fun i => |e i|) + b.sum id (fun i => |e i|)) := by
      have := abs_sub_abs_le_abs_sub (a.sum fl e + b.sum fl e) (a.sum id e + b.sum id e)
      linarith
    have d3 := abs_sub_le (fl (a.sum fl e + b.sum fl e)) (a.sum fl e + b.sum fl e) (a.sum id e + b.sum id e)
    have d4 := mul_le_mul_of_nonneg_left d2 hu0
    linarith

/-- **C287.** The centroid computed for a cluster is its mean up to a multiple of the mean absolute value of the coordinates. -/
theorem C287_error_partial {u eta : K} (hfl : IsRounding fl) (he : HasError fl u eta) (hu0 : 0 ≤ u) {n : Nat} (hn0 : 0 < n) (hn : IsNumber fl (n : K)) {o : Order n}
    (ho : o.Complete) (e : Fin n → K) (hnum : ∀ i, IsNumber fl (e i)) :
    |centroid fl o e - (∑ i, e i) / n| ≤ ((1 + u) ^ (o.depth + 1) - 1) * ((∑ i, |e i|) / n) + eta := by
  obtain ⟨h1, h2⟩ := sum_error hfl he hu0 e hnum o
  rw [sum_complete _ o ho, sum_complete _ o ho] at h1
  have hnp : (0 : K) < n := by exact_mod_cast hn0
  have hn' : fl (n : K) = n := hn
  unfold centroid
  rw [hn']
  have h3 := he.any (o.sum fl e / n)
  have e1 : |o.sum fl e / n - (∑ i, e i) / n| ≤ ((1 + u) ^ o.depth - 1) * ((∑ i, |e i|) / n) := by
    rw [← sub_div, abs_div, abs_of_pos hnp, ← mul_div_assoc]
    exact div_le_div_of_nonneg_right h1 hnp.le
  have e2 : |o.sum fl e / n| ≤ (1 + u) ^ o.depth * ((∑ i, |e i|) / n) := by
    have h4 : |(∑ i, e i) / n| ≤ (∑ i, |e i|) / n := by
      rw [abs_div, abs_of_pos hnp]
      exact div_le_div_of_nonneg_right (Finset.abs_sum_le_sum_abs _ _) hnp.le
    have := abs_sub_abs_le_abs_sub (o.sum fl e / n) ((∑ i, e i) / n)
    linarith
  have e3 := mul_le_mul_of_nonneg_left e2 hu0
  have e4 := abs_sub_le (fl (o.sum fl e / n)) (o.sum fl e / n) ((∑ i, e i) / n)
  rw [pow_succ]
  linarith

/-- C287 for clusters of one or two samples: the centroid is between them, and is the common value of equal ones. -/
theorem C287_two_partial (hfl : IsRounding fl) :
    (∀ e : Fin 1 → K, IsNumber fl (e 0) → centroid fl (.entry 0) e = e 0) ∧
    ∀ e : Fin 2 → K, IsNumber fl (e 0) → IsNumber fl (e 1) →
      min (e 0) (e 1) ≤ centroid fl (.add (.entry 0) (.entry 1)) e ∧ centroid fl (.add (.entry 0) (.entry 1)) e ≤ max (e 0) (e 1) := by
  constructor
  · intro e h
    simp only [centroid, Order.sum, Nat.cast_one, hfl.one, div_one]
    exact h
  · intro e h0 h1
    have h2 : fl ((2 : Nat) : K) = 2 := by
      have := hfl.twice 1 hfl.one
      simpa using this
    have key : ∀ a b : K, IsNumber fl a → IsNumber fl b → a ≤ b → a ≤ fl (fl (a + b) / 2) ∧ fl (fl (a + b) / 2) ≤ b := by
      intro a b ha hb hab
      have l1 : 2 * a ≤ fl (a + b) := by
        have := hfl.mono (2 * a) (a + b) (by linarith)
        rwa [hfl.twice a ha] at this
      have l2 : fl (a + b) ≤ 2 * b := by
        have := hfl.mono (a + b) (2 * b) (by linarith)
        rwa [hfl.twice b hb] at this
      constructor
      · have := hfl.mono a (fl (a + b) / 2) (by linarith)
        have ha' : fl a = a := ha
        rwa [ha'] at this
      · have := hfl.mono (fl (a + b) / 2) b (by linarith)
        have hb' : fl b = b := hb
        rwa [hb'] at this
    simp only [centroid, Order.sum, h2]
    rcases le_total (e 0) (e 1) with h | h
    · rw [min_eq_left h, max_eq_right h]
      exact key _ _ h0 h1 h
    · rw [min_eq_right h, max_eq_left h, add_comm]
      exact key _ _ h1 h0 h

/-- C287 fails from three samples on: the centroid of three equal numbers of single precision may be the next number, outside of the cluster. -/
theorem C287_outside : centroid f32 (.add (.add (.entry 0) (.entry 1)) (.entry 2)) (fun _ : Fin 3 => (6291457 / 4194304 : ℚ)) = 12582915 / 8388608 ∧
    IsNumber f32 (6291457 / 4194304 : ℚ) := by unfold IsNumber; decide +kernel

/-- The error bound holds there: three samples, depth two. -/
example : (Order.add (.add (.entry 0) (.entry 1)) (.entry 2) : Order 3).Complete ∧ IsNumber f32 ((3 : Nat) : ℚ) := by
  refine ⟨⟨by decide, by decide⟩, ?_⟩
  unfold IsNumber
  decide +kernel

end CML.Float
