import Verif.Model.BoostRounded
import Verif.Props.Rounded
import Verif.Props.RoundedExp

set_option linter.unusedSectionVars false

/-! # Property C288: the weights of AdaBoost through a whole training in floating point -/

namespace CML.Float

variable {K : Type*} [Field K] [LinearOrder K] [IsStrictOrderedRing K] {fl wide lg ex : K → K}

theorem alphaOf_bounds (hfl : IsWider fl wide) (hlg : IsLog lg) (half : IsNumber wide (1 / 2)) {eps A e : K} (heps : 0 < eps) (heps2 : eps ≤ 1 / 2)
    (hA : IsNumber fl A) (htop : lg (wide (1 / eps)) / 2 ≤ A) (he0 : 0 ≤ e) (he : e ≤ 1 / 2) :
    0 ≤ alphaOf fl wide lg eps e ∧ alphaOf fl wide lg eps e ≤ A := by
  have hm : 0 < max e eps := lt_max_of_lt_right heps
  have h1 : 1 / 2 ≤ wide (1 - e) := by
    have := hfl.ofWide.mono (1 / 2) (1 - e) (by linarith)
    have hh : wide (1 / 2) = 1 / 2 := half
    rwa [hh] at this
  have h2 : wide (1 - e) ≤ 1 := hfl.ofWide.le_one (by linarith)
  have h3 : 1 ≤ wide (wide (1 - e) / max e eps) := by
    have : 1 ≤ wide (1 - e) / max e eps := (le_div_iff₀ hm).2 (by rw [one_mul]; exact (max_le he heps2).trans h1)
    have := hfl.ofWide.mono _ _ this
    rwa [hfl.ofWide.one] at this
  have h4 : wide (wide (1 - e) / max e eps) ≤ wide (1 / eps) :=
    hfl.ofWide.mono _ _ (div_le_div₀ (by norm_num) h2 heps (le_max_right _ _))
  have h5 := hlg.mono _ _ one_pos h3
  rw [hlg.one] at h5
  have h6 := hlg.mono _ _ (by linarith) h4
  unfold alphaOf
  refine ⟨hfl.ofNarrow.nonneg (hfl.ofWide.nonneg (by linarith)), ?_⟩
  have h7 := hfl.ofNarrow.mono _ _ (hfl.ofWide.mono (lg (wide (wide (1 - e) / max e eps)) / 2) A (by linarith))
  have w : wide A = A := hfl.number A hA
  have f : fl A = A := hA
  rwa [w, f] at h7

theorem firstWeight_weighting {u eta : K} (hfl : IsRounding fl) (he : HasError fl u eta) {n : Nat} (hn : 0 < n) :
    IsWeighting fl (1 - u - n * eta) (1 + u + n * eta) fun _ : Fin n => some (firstWeight fl n) := by
  have hnp : (0 : K) < n := by exact_mod_cast hn
  have h1 : (1 : K) ≤ n := by exact_mod_cast hn
  have hpos : 0 ≤ (1 : K) / n := by positivity
  refine ⟨fun _ => firstWeight fl n, fun i => ⟨rfl, hfl.nonneg hpos, hfl.le_one ((div_le_one hnp).2 h1), hfl.idem _⟩, ?_⟩
  have := he.any ((1 : K) / n)
  rw [abs_of_nonneg hpos, abs_le] at this
  simp only [firstWeight, Finset.sum_const, Finset.card_univ, Fintype.card_fin, nsmul_eq_mul]
  have e1 : (n : K) * (1 / n) = 1 := by field_simp
  have l := mul_le_mul_of_nonneg_left this.1 hnp.le
  have r := mul_le_mul_of_nonneg_left this.2 hnp.le
  have e2 : (n : K) * (u * (1 / n) + eta) = u + n * eta := by rw [mul_add, mul_left_comm, e1, mul_one]
  rw [mul_neg, e2, mul_sub, e1] at l
  rw [e2, mul_sub, e1] at r
  constructor <;> linarith

/-- A round in which the error is at most 1/2 gives weights again. -/
theorem round_weighting {u eta A beta tau low eps : K} (hfl : IsWider fl wide) (he : HasError fl u eta) (hu0 : 0 ≤ u) (hu1 : u < 1) (hlg : IsLog lg)
    (hex : IsExp wide ex) (half : IsNumber wide (1 / 2)) (heps : 0 < eps) (heps2 : eps ≤ 1 / 2) (hA : IsNumber fl A) (htop : lg (wide (1 / eps)) / 2 ≤ A)
    (hbeta : 0 ≤ beta) (hlow : beta ≤ ex (-A)) (htau : 0 < tau) (htn : IsNumber fl tau) {n : Nat} (hbig : n * tau ≤ beta * low) (hl0 : 0 < low) {o : Order n} (ho : o.Complete)
    {e : K} (he0 : 0 ≤ e) (he1 : e ≤ 1 / 2) (wrong : Fin n → Bool) (w : Fin n → K) (hw : ∀ i, 0 ≤ w i) (hsum : low ≤ ∑ i, w i) :
    IsWeighting fl ((1 - u) / (1 + u) ^ o.depth - n * eta) ((1 + u) / (1 - u) ^ o.depth + n * eta)
      (nextWeights fl wide o (ex (alphaOf fl wide lg eps e)) (ex (-alphaOf fl wide lg eps e)) wrong w) := by
  obtain ⟨a0, a1⟩ := alphaOf_bounds hfl hlg half heps heps2 hA htop he0 he1
  have hdown : beta ≤ ex (-alphaOf fl wide lg eps e) := hlow.trans (hex.mono _ _ (by linarith))
  have hup : ex (-alphaOf fl wide lg eps e) ≤ ex (alphaOf fl wide lg eps e) := hex.mono _ _ (by linarith)
  rcases C278_weights_partial hfl he hu0 hu1 ho (hex.nonneg (alphaOf fl wide lg eps e)) (hex.nonneg (-alphaOf fl wide lg eps e)) wrong hw with h | ⟨-, h0⟩
  · exact h
  · exfalso
    have hn : 0 < n := by
      by_contra hn
      have : n = 0 := by omega
      subst this
      simp at hsum
      linarith
    have hnp : (0 : K) < n := by exact_mod_cast hn
    obtain ⟨i, hi⟩ : ∃ i, low / n ≤ w i := by
      by_contra hall
      push Not at hall
      have := Finset.sum_lt_sum_of_nonempty (s := Finset.univ) (f := w) (g := fun _ => low / n) ⟨⟨0, hn⟩, Finset.mem_univ _⟩ fun i _ => hall i
      simp only [Finset.sum_const, Finset.card_univ, Fintype.card_fin, nsmul_eq_mul] at this
      rw [mul_div_cancel₀ _ hnp.ne'] at this
      linarith
    have hf : beta ≤ if wrong i = true then ex (alphaOf fl wide lg eps e) else ex (-alphaOf fl wide lg eps e) := by
      split_ifs
      · exact hdown.trans hup
      · exact hdown
    have hp : tau ≤ w i * if wrong i = true then ex (alphaOf fl wide lg eps e) else ex (-alphaOf fl wide lg eps e) := by
      calc tau ≤ low / n * beta := by rw [div_mul_eq_mul_div, le_div_iff₀ hnp]; linarith
        _ ≤ _ := mul_le_mul hi hf hbeta (hw i)
    have hm := hfl.ofNarrow.mono _ _ (hfl.ofWide.mono _ _ hp)
    have ht : wide tau = tau := hfl.number tau htn
    have ht' : fl tau = tau := htn
    rw [ht, ht', h0 i] at hm
    linarith

/-- **C288.** In every round of every training of AdaBoost the sample weights are numbers between 0 and 1 with total nearly 1, whatever the base learners, if the smallest
possible factor `exp(-A)` and the smallest positive number `tau` leave room for `n` samples. -/
theorem C288_weights {u eta A beta tau low high eps : K} (hfl : IsWider fl wide) (he : HasError fl u eta) (hu0 : 0 ≤ u) (hu1 : u < 1) (hlg : IsLog lg)
    (hex : IsExp wide ex) (half : IsNumber wide (1 / 2)) (heps : 0 < eps) (heps2 : eps ≤ 1 / 2) (hA : IsNumber fl A) (htop : lg (wide (1 / eps)) / 2 ≤ A)
    (hbeta : 0 ≤ beta) (hlow : beta ≤ ex (-A)) (htau : 0 < tau) (htn : IsNumber fl tau) {n : Nat} (hn : 0 < n) (hbig : n * tau ≤ beta * low) (hl0 : 0 < low)
    (depth : Nat) (hl1 : low ≤ 1 - u - n * eta) (hl2 : low ≤ (1 - u) / (1 + u) ^ depth - n * eta) (hh1 : 1 + u + n * eta ≤ high) (hh2 : (1 + u) / (1 - u) ^ depth + n * eta ≤ high)
    (rounds : List (Round n)) (hr : ∀ r ∈ rounds, r.order.Complete ∧ r.order.depth ≤ depth) :
    ∀ w ∈ boostWeights fl wide lg ex eps rounds, IsWeighting fl low high w := by
  have key : ∀ (rounds : List (Round n)), (∀ r ∈ rounds, r.order.Complete ∧ r.order.depth ≤ depth) → ∀ w : Fin n → Option K, IsWeighting fl low high w →
      ∀ v ∈ distributions fl wide lg ex eps rounds w, IsWeighting fl low high v := by
    intro rounds
    induction rounds with
    | nil => intro _ w _ v hv; cases hv
    | cons r rs ih =>
      intro hr w hw v hv
      rw [distributions] at hv
      by_cases hs : ∀ i, (w i).isSome
      · rw [dif_pos hs] at hv
        split_ifs at hv with hc
        · rw [List.mem_singleton.1 hv]; exact hw
        · rcases List.mem_cons.1 hv with rfl | hv
          · exact hw
          · refine ih (fun r' hr' => hr r' (List.mem_cons_of_mem _ hr')) _ ?_ v hv
            obtain ⟨hcomp, hdep⟩ := hr r (by simp)
            obtain ⟨x, hx, s1, s2⟩ := hw
            have hget : (fun i => (w i).get (hs i)) = x := by
              funext i
              simp [(hx i).1]
            rw [hget] at hc ⊢
            rw [not_or, not_lt, not_lt] at hc
            have herr : 0 ≤ roundError fl r x := by
              refine sum_nonneg hfl.ofNarrow _ (fun i => ?_) _
              split_ifs
              · exact (hx i).2.1
              · exact le_rfl
            obtain ⟨y, hy, t1, t2⟩ := round_weighting hfl he hu0 hu1 hlg hex half heps heps2 hA htop hbeta hlow htau htn hbig hl0 hcomp herr hc.1 r.wrong x
              (fun i => (hx i).2.1) s1
            refine ⟨y, hy, ?_, ?_⟩
            · have p1 : (1 + u) ^ r.order.depth ≤ (1 + u) ^ depth := pow_le_pow_right₀ (by linarith) hdep
              have p2 := div_le_div_of_nonneg_left (by linarith : 0 ≤ 1 - u) (by positivity : 0 < (1 + u) ^ r.order.depth) p1
              linarith
            · have p1 : (1 - u) ^ depth ≤ (1 - u) ^ r.order.depth := pow_le_pow_of_le_one (by linarith) (by linarith) hdep
              have p2 := div_le_div_of_nonneg_left (by linarith : 0 ≤ 1 + u) (pow_pos (by linarith) depth) p1
              linarith
      · rw [dif_neg hs] at hv
        rw [List.mem_singleton.1 hv]; exact hw
  refine key rounds hr _ ?_
  obtain ⟨v, hv, h1, h2⟩ := firstWeight_weighting hfl.ofNarrow he hn
  exact ⟨v, hv, by linarith, by linarith⟩

/-! ## Single precision -/

theorem depth_lt {n : Nat} : ∀ o : Order n, o.depth < o.entries.length
  | .entry _ => by simp [Order.depth, Order.entries]
  | .add a b => by
    have := depth_lt a
    have := depth_lt b
    simp only [Order.depth, Order.entries, List.length_append]
    omega

theorem depth_le {n : Nat} {o : Order n} (ho : o.Complete) : o.depth ≤ n := by
  have h1 := depth_lt o
  have h2 : o.entries.length ≤ n := by
    have := ho.1.length_le_card
    simpa using this
  omega

/-- The logarithm and the exponential function of double precision, correctly rounded. -/
noncomputable def log64 (x : ℝ) : ℝ := f64 (Real.log x)
noncomputable def exp64 (x : ℝ) : ℝ := f64 (Real.exp x)

theorem log64_isLog : IsLog log64 where
  mono x y hx h := f64_isRounding.mono _ _ (Real.log_le_log hx h)
  one := by rw [log64, Real.log_one, f64_isRounding.zero]

theorem exp64_isExp : IsExp f64 exp64 where
  mono _ _ h := f64_isRounding.mono _ _ (Real.exp_le_exp.2 h)
  nonneg _ := f64_isRounding.nonneg (Real.exp_pos _).le
  zero := by rw [exp64, Real.exp_zero, f64_isRounding.one]
  number _ := f64_isRounding.idem _

theorem f64_rat {q : ℚ} (h : f64 q = q) : f64 (q : ℝ) = q := by rw [f64_cast, h]
theorem f32_rat {q : ℚ} (h : f32 q = q) : f32 (q : ℝ) = q := by rw [f32_cast, h]

/-- C288 for the precision the library uses: `EPSILON` is `1e-36`, at most a million (2²⁰) samples. -/
theorem C288_single {n : Nat} (hn : 0 < n) (hn2 : n ≤ 2 ^ 20) (rounds : List (Round n)) (hr : ∀ r ∈ rounds, r.order.Complete) :
    ∀ w ∈ boostWeights f32 f64 log64 exp64 (f64 (1 / 10 ^ 36)) rounds, IsWeighting f32 (9 / 10 : ℝ) (11 / 10) w := by
  have nR : (n : ℝ) ≤ 2 ^ 20 := by exact_mod_cast hn2
  have hhalf : f64 (1 / 2 : ℝ) = 1 / 2 := by
    have := f64_rat (q := 1 / 2) (by decide +kernel)
    push_cast at this; exact this
  have heps1 : (1 / 2 ^ 120 : ℝ) ≤ f64 (1 / 10 ^ 36) := by
    have h := f64_rat (q := 1 / 2 ^ 120) (by decide +kernel)
    push_cast at h
    have := f64_isRounding.mono (1 / 2 ^ 120 : ℝ) (1 / 10 ^ 36) (by norm_num)
    rwa [h] at this
  have heps2 : f64 (1 / 10 ^ 36 : ℝ) ≤ 1 / 2 := by
    have := f64_isRounding.mono (1 / 10 ^ 36 : ℝ) (1 / 2) (by norm_num)
    rwa [hhalf] at this
  have heps0 : (0 : ℝ) < f64 (1 / 10 ^ 36) := lt_of_lt_of_le (by positivity) heps1
  have hA : f32 (167 / 4 : ℝ) = 167 / 4 := by
    have := f32_rat (q := 167 / 4) (by decide +kernel)
    push_cast at this; exact this
  have hA2 : f64 (167 / 2 : ℝ) = 167 / 2 := by
    have := f64_rat (q := 167 / 2) (by decide +kernel)
    push_cast at this; exact this
  have h120 : f64 (2 ^ 120 : ℝ) = 2 ^ 120 := by
    have := f64_rat (q := 2 ^ 120) (by decide +kernel)
    push_cast at this; exact this
  have hb : f64 (1 / 2 ^ 61 : ℝ) = 1 / 2 ^ 61 := by
    have := f64_rat (q := 1 / 2 ^ 61) (by decide +kernel)
    push_cast at this; exact this
  have ht : f32 (1 / 2 ^ 149 : ℝ) = 1 / 2 ^ 149 := by
    have := f32_rat (q := 1 / 2 ^ 149) (by decide +kernel)
    push_cast at this; exact this
  have hlog : log64 (f64 (1 / f64 (1 / 10 ^ 36))) / 2 ≤ 167 / 4 := by
    have h1 : f64 (1 / f64 (1 / 10 ^ 36 : ℝ)) ≤ 2 ^ 120 := by
      have : 1 / f64 (1 / 10 ^ 36 : ℝ) ≤ 2 ^ 120 := by
        have := one_div_le_one_div_of_le (by positivity) heps1
        simpa using this
      have := f64_isRounding.mono _ _ this
      rwa [h120] at this
    have h0 : 0 < f64 (1 / f64 (1 / 10 ^ 36 : ℝ)) := by
      have : 1 ≤ 1 / f64 (1 / 10 ^ 36 : ℝ) := (le_div_iff₀ heps0).2 (by linarith)
      have := f64_isRounding.mono _ _ this
      rw [f64_isRounding.one] at this
      linarith
    have h2 := log64_isLog.mono _ _ h0 h1
    have h3 : log64 (2 ^ 120) ≤ 167 / 2 := by
      have : Real.log (2 ^ 120) ≤ 167 / 2 := by
        rw [Real.log_pow]
        have := Real.log_two_lt_d9
        push_cast
        linarith
      have := f64_isRounding.mono _ _ this
      rw [hA2] at this
      exact this
    linarith
  have hexp : (1 / 2 ^ 61 : ℝ) ≤ exp64 (-(167 / 4)) := by
    have : (1 / 2 ^ 61 : ℝ) ≤ Real.exp (-(167 / 4)) := by
      rw [← Real.log_le_iff_le_exp (by positivity), one_div, Real.log_inv, Real.log_pow]
      have := Real.log_two_gt_d9
      push_cast
      linarith
    have := f64_isRounding.mono _ _ this
    rw [hb] at this
    exact this
  have hpow : (15 / 16 : ℝ) ≤ (1 - 1 / 2 ^ 24) ^ n := by
    have := one_add_mul_le_pow (a := -(1 / 2 ^ 24 : ℝ)) (by norm_num) n
    rw [← sub_eq_add_neg] at this
    have : (n : ℝ) * (1 / 2 ^ 24) ≤ 2 ^ 20 * (1 / 2 ^ 24) := mul_le_mul_of_nonneg_right nR (by positivity)
    norm_num at this ⊢
    linarith
  have hpow2 : (1 + 1 / 2 ^ 24 : ℝ) ^ n ≤ 16 / 15 := by
    have h1 : (1 + 1 / 2 ^ 24 : ℝ) ^ n * (1 - 1 / 2 ^ 24) ^ n ≤ 1 := by
      rw [← mul_pow]
      exact pow_le_one₀ (by norm_num) (by norm_num)
    have h0 : (0 : ℝ) ≤ (1 + 1 / 2 ^ 24) ^ n := by positivity
    have := mul_le_mul_of_nonneg_left hpow h0
    linarith
  have hneta : (n : ℝ) * (2 ^ (-149 : Int) / 2) ≤ 1 / 1000 := by
    have : (n : ℝ) * (2 ^ (-149 : Int) / 2) ≤ 2 ^ 20 * (2 ^ (-149 : Int) / 2) := mul_le_mul_of_nonneg_right nR (by positivity)
    norm_num at this ⊢
    linarith
  refine C288_weights (u := 1 / 2 ^ 24) (eta := 2 ^ (-149 : Int) / 2) (A := 167 / 4) (beta := 1 / 2 ^ 61) (tau := 1 / 2 ^ 149) f32_f64 f32_hasError (by norm_num) (by norm_num)
    log64_isLog exp64_isExp hhalf heps0 heps2 hA hlog (by positivity) hexp (by positivity) ht hn ?_ (by norm_num) n ?_ ?_ ?_ ?_ rounds
    fun r hr' => ⟨hr r hr', depth_le (hr r hr')⟩
  · have : (n : ℝ) * (1 / 2 ^ 149) ≤ 2 ^ 20 * (1 / 2 ^ 149) := mul_le_mul_of_nonneg_right nR (by positivity)
    norm_num at this ⊢
    linarith
  · norm_num at hneta ⊢
    linarith
  · have : (1 - 1 / 2 ^ 24 : ℝ) * (15 / 16) ≤ (1 - 1 / 2 ^ 24) / (1 + 1 / 2 ^ 24) ^ n := by
      rw [le_div_iff₀ (by positivity)]
      have := mul_le_mul_of_nonneg_left hpow2 (by norm_num : (0 : ℝ) ≤ (1 - 1 / 2 ^ 24) * (15 / 16))
      linarith
    norm_num at this hneta ⊢
    linarith
  · norm_num at hneta ⊢
    linarith
  · have : (1 + 1 / 2 ^ 24 : ℝ) / (1 - 1 / 2 ^ 24) ^ n ≤ (1 + 1 / 2 ^ 24) * (16 / 15) := by
      rw [div_le_iff₀ (pow_pos (by norm_num) n)]
      have := mul_le_mul_of_nonneg_left hpow (by norm_num : (0 : ℝ) ≤ (1 + 1 / 2 ^ 24) * (16 / 15))
      linarith
    norm_num at this hneta ⊢
    linarith

/-- Several rounds: three samples, another one misclassified in each round, with factors 2 and 1/2. -/
example : (boostWeights (K := ℚ) f32 f64 (fun _ => 2) (fun x => if 0 < x then 2 else 1 / 2) (1 / 2 ^ 120)
      [⟨![true, false, false], .add (.add (.entry 0) (.entry 1)) (.entry 2), .add (.add (.entry 0) (.entry 1)) (.entry 2)⟩,
       ⟨![false, true, false], .add (.add (.entry 0) (.entry 1)) (.entry 2), .add (.add (.entry 0) (.entry 1)) (.entry 2)⟩,
       ⟨![false, false, true], .add (.add (.entry 0) (.entry 1)) (.entry 2), .add (.add (.entry 0) (.entry 1)) (.entry 2)⟩]).length = 3 := by decide +kernel

end CML.Float
