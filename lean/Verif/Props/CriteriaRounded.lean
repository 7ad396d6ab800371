import Verif.Lemmas.CriteriaRounded
import Mathlib.Analysis.SpecialFunctions.Log.Base

set_option linter.unusedSectionVars false

/-! # Property C289: perfect tests in floating point -/

namespace CML.DTree
open CML.Float

universe u w
variable {V : Type u} {m : Nat} [DecidableEq V]
variable {K : Type w} [Field K] [LinearOrder K] [IsStrictOrderedRing K] {fl : K → K}

/-! ## The frequencies -/

theorem freqR_pure {y : List Int} (hfl : IsRounding fl) (hne : y ≠ []) (hp : Pure y) : freqR fl y = [1] := by
  obtain ⟨c, hc⟩ := List.exists_mem_of_ne_nil y hne
  obtain ⟨d, hd⟩ := List.length_eq_one_iff.1 (pyUnique_length_of_const hne hp)
  have hcd : c = d := by
    have : c ∈ pyUnique y := mem_pyUnique.2 hc
    rwa [hd, List.mem_singleton] at this
  subst hcd
  have hcount : y.count c = y.length := List.count_eq_length.2 fun a ha => hp c hc a ha
  have hn : (y.length : K) ≠ 0 := by
    have := List.length_pos_iff.2 hne
    exact_mod_cast this.ne'
  simp [freqR, hd, hcount, div_self hn, hfl.one]

/-- A frequency before rounding. -/
theorem freq_bounds {y : List Int} {c : Int} (hc : c ∈ y) {N : Nat} {r : K} (hr0 : 0 ≤ r) (hrN : r * N ≤ 1) (hy : y.length ≤ N) :
    r ≤ (y.count c : K) / (y.length : K) ∧ (y.count c : K) / (y.length : K) ≤ 1 := by
  have hpos : (0 : K) < y.length := by exact_mod_cast List.length_pos_of_mem hc
  have h1 : (1 : K) ≤ y.count c := by exact_mod_cast List.count_pos_iff.2 hc
  constructor
  · rw [le_div_iff₀ hpos]
    have : r * (y.length : K) ≤ r * N := mul_le_mul_of_nonneg_left (by exact_mod_cast hy) hr0
    linarith
  · rw [div_le_one hpos]
    exact_mod_cast List.count_le_length

theorem sum_freq {y : List Int} (hne : y ≠ []) : ((pyUnique y).map fun c => (y.count c : K) / (y.length : K)).sum = 1 := by
  rw [sum_pyUnique, ← Finset.sum_div]
  have h := length_eq_sum_count y y.toFinset (fun a ha => List.mem_toFinset.2 ha)
  have hpos : (y.length : K) ≠ 0 := by
    have := List.length_pos_iff.2 hne
    exact_mod_cast this.ne'
  rw [div_eq_one_iff_eq hpos]
  conv_rhs => rw [h]
  push_cast
  rfl

theorem sum_freq_sq {y : List Int} (hp : ¬ Pure y) :
    ((pyUnique y).map fun c => (y.count c : K) / (y.length : K) * ((y.count c : K) / (y.length : K))).sum ≤ 1 - 1 / y.length := by
  have hne : y ≠ [] := by rintro rfl; exact hp fun a ha => by cases ha
  have hpos : (0 : K) < y.length := by exact_mod_cast List.length_pos_iff.2 hne
  have hle : ∀ c ∈ pyUnique y, (y.count c : K) / (y.length : K) * ((y.count c : K) / (y.length : K)) ≤ (1 - 1 / y.length) * ((y.count c : K) / (y.length : K)) := by
    intro c _
    apply mul_le_mul_of_nonneg_right _ (by positivity)
    rw [div_le_iff₀ hpos, sub_mul, one_mul, one_div, inv_mul_cancel₀ hpos.ne']
    have : y.count c + 1 ≤ y.length := by
      rcases lt_or_eq_of_le (List.count_le_length (a := c) (l := y)) with h | h
      · exact h
      · exfalso
        rw [List.count_eq_length] at h
        exact hp fun a ha b hb => (h a ha).symm.trans (h b hb)
    have : ((y.count c : K)) + 1 ≤ y.length := by exact_mod_cast this
    linarith
  refine (List.sum_le_sum hle).trans ?_
  rw [List.sum_map_mul_left, sum_freq hne, mul_one]

theorem unique_length_le (y : List Int) : (pyUnique y).length ≤ y.length := by
  have h := List.Subperm.length_le ((nodup_pyUnique y).subperm fun a ha => mem_pyUnique.1 ha)
  exact h

/-! ## The impurities -/

/-- The Gini index is 0 for equal labels and bounded away from 0 otherwise. -/
theorem gini_impurity {total : List K → K} {u eta tiny : K} (hfl : IsRounding fl) (he : HasError fl u eta) (hp : HasPrecision fl u fun x => tiny ≤ |x|)
    (hu0 : 0 ≤ u) (hu1 : 2 * u ≤ 1) (ht : IsTotal fl total) {N : Nat} (hN : 0 < N) (hNu : 4 * (((N + 3 : Nat) : K) * u) * N ≤ 1)
    (htiny : tiny ≤ (1 / 2) * (1 / N) * ((1 / 2) * (1 / N))) :
    IsImpurity (giniR fl total) N (1 / (4 * N)) 1 where
  pure y hne hy := by
    rw [giniR, freqR_pure hfl hne hy, List.map_singleton, total_single ht, one_mul, hfl.one, sub_self, hfl.zero]
  impure y hy hyN := by
    have hne : y ≠ [] := by rintro rfl; exact hy fun a ha => by cases ha
    have hlen := List.length_pos_iff.2 hne
    have hn : (0 : K) < y.length := by exact_mod_cast hlen
    have hNp : (0 : K) < N := by exact_mod_cast hN
    have hnN : (y.length : K) ≤ N := by exact_mod_cast hyN
    have hinv : 1 / (N : K) ≤ 1 / y.length := one_div_le_one_div_of_le hn hnN
    have hN1 : (1 : K) ≤ N := by exact_mod_cast hN
    have h1N : 1 / (N : K) ≤ 1 := (div_le_one hNp).2 hN1
    have h1N0 : 0 < 1 / (N : K) := by positivity
    have hent : ∀ c ∈ pyUnique y, fl (fl ((y.count c : K) / y.length) * fl ((y.count c : K) / y.length)) ≤
        (1 + u) ^ 3 * ((y.count c : K) / y.length * ((y.count c : K) / y.length)) := by
      intro c hc
      obtain ⟨b1, b2⟩ := freq_bounds (mem_pyUnique.1 hc) (r := 1 / (N : K)) h1N0.le (by rw [one_div, inv_mul_cancel₀ hNp.ne']) hyN
      generalize (y.count c : K) / y.length = q at b1 b2 ⊢
      have hq0 : 0 < q := h1N0.trans_le b1
      have ht1 : tiny ≤ |q| := by
        rw [abs_of_pos hq0]
        have : (1 / 2) * (1 / (N : K)) * ((1 / 2) * (1 / N)) ≤ 1 / N := by nlinarith
        linarith
      have h1 := hp q ht1
      rw [abs_of_pos hq0, abs_le] at h1
      generalize fl q = p at h1 ⊢
      have hpl : (1 / 2) * (1 / (N : K)) ≤ p := by
        have : u * q ≤ 1 / 2 * q := mul_le_mul_of_nonneg_right (by linarith) hq0.le
        linarith [h1.1]
      have hp0 : 0 ≤ p := (by positivity : (0 : K) ≤ (1 / 2) * (1 / N)).trans hpl
      have ht2 : tiny ≤ |p * p| := by
        rw [abs_of_nonneg (mul_nonneg hp0 hp0)]
        exact htiny.trans (mul_le_mul hpl hpl (by positivity) hp0)
      have h2 := hp (p * p) ht2
      rw [abs_of_nonneg (mul_nonneg hp0 hp0), abs_le] at h2
      have h3 : p ≤ (1 + u) * q := by linarith [h1.2]
      have h4 : p * p ≤ ((1 + u) * q) * ((1 + u) * q) := mul_le_mul h3 h3 hp0 (mul_nonneg (by linarith) hq0.le)
      have h5 : fl (p * p) ≤ (1 + u) * (p * p) := by linarith [h2.2]
      refine h5.trans ((mul_le_mul_of_nonneg_left h4 (by linarith)).trans (le_of_eq (by ring)))
    have hl : ∀ x ∈ (freqR fl y).map fun p => fl (p * p), 0 ≤ x ∧ IsNumber fl x := by
      intro x hx
      obtain ⟨p, -, rfl⟩ := List.mem_map.1 hx
      exact ⟨hfl.nonneg (mul_self_nonneg p), hfl.idem _⟩
    have hS := total_le hfl he hu0 (by linarith) ht hl
    have hsum : ((freqR fl y).map fun p => fl (p * p)).sum ≤ (1 + u) ^ 3 * (1 - 1 / y.length) := by
      rw [freqR, List.map_map]
      refine (List.sum_le_sum (g := fun c => (1 + u) ^ 3 * ((y.count c : K) / y.length * ((y.count c : K) / y.length))) hent).trans ?_
      rw [List.sum_map_mul_left]
      exact mul_le_mul_of_nonneg_left (sum_freq_sq hy) (pow_nonneg (by linarith) _)
    have hnum := total_number hfl ht (l := (freqR fl y).map fun p => fl (p * p)) fun x hx => (hl x hx).2
    have h0 : 0 ≤ total ((freqR fl y).map fun p => fl (p * p)) := by
      obtain ⟨c, hc⟩ := List.exists_mem_of_ne_nil y hne
      have hm : fl (fl ((y.count c : K) / y.length) * fl ((y.count c : K) / y.length)) ∈ (freqR fl y).map fun p => fl (p * p) :=
        List.mem_map.2 ⟨_, List.mem_map.2 ⟨c, mem_pyUnique.2 hc, rfl⟩, rfl⟩
      exact (hl _ hm).1.trans (total_ge hfl ht hl hm)
    have hlenl : ((freqR fl y).map fun p => fl (p * p)).length ≤ N := by
      rw [List.length_map, freqR, List.length_map]
      exact (unique_length_le y).trans hyN
    have h1n : 1 / (y.length : K) ≤ 1 := (div_le_one hn).2 (by exact_mod_cast hlen)
    have hpow : total ((freqR fl y).map fun p => fl (p * p)) ≤ (1 + u) ^ (N + 3) * (1 - 1 / y.length) := by
      refine hS.trans ((mul_le_mul_of_nonneg_left hsum (pow_nonneg (by linarith) _)).trans ?_)
      rw [← mul_assoc, ← pow_add]
      exact mul_le_mul_of_nonneg_right (pow_le_pow_right₀ (by linarith) (by omega)) (by linarith)
    have hku : 0 ≤ ((N + 3 : Nat) : K) * u := mul_nonneg (Nat.cast_nonneg _) hu0
    have hNu' : 4 * (((N + 3 : Nat) : K) * u) ≤ 1 / N := by rwa [le_div_iff₀ hNp]
    have hb := pow_le_of hu0 (k := N + 3) (by linarith)
    have hT : total ((freqR fl y).map fun p => fl (p * p)) ≤ 1 - 1 / (2 * N) := by
      refine hpow.trans ((mul_le_mul_of_nonneg_right hb (by linarith)).trans ?_)
      have e2 : 1 / (2 * (N : K)) = 1 / N / 2 := by field_simp
      have : (1 + 2 * (((N + 3 : Nat) : K) * u)) * (1 - 1 / y.length) ≤ 1 - 1 / y.length + 2 * (((N + 3 : Nat) : K) * u) := by
        have : 0 ≤ 2 * (((N + 3 : Nat) : K) * u) * (1 / y.length) := mul_nonneg (by linarith) (by positivity)
        nlinarith
      rw [e2]
      linarith
    have herr := he.add 1 (-total ((freqR fl y).map fun p => fl (p * p))) hfl.one (by unfold IsNumber; rw [hfl.neg, hnum])
    rw [← sub_eq_add_neg, abs_of_nonneg (a := 1 - total _) (by have : 0 < 1 / (2 * (N : K)) := by positivity
                                                               linarith), abs_le] at herr
    constructor
    · unfold giniR
      have e2 : 1 / (4 * (N : K)) = 1 / 2 * (1 / (2 * N)) := by field_simp; norm_num
      have h6 : 1 / (2 * (N : K)) ≤ 1 - total ((freqR fl y).map fun p => fl (p * p)) := by linarith
      have h7 : 0 < 1 / (2 * (N : K)) := by positivity
      generalize total ((freqR fl y).map fun p => fl (p * p)) = T at herr h6 ⊢
      have : u * (1 - T) ≤ 1 / 2 * (1 - T) := mul_le_mul_of_nonneg_right (by linarith) (by linarith)
      rw [e2]
      linarith [herr.1]
    · exact hfl.le_one (by linarith)

/-- The entropy is 0 for equal labels, at least `1 / 2 ^ k` otherwise and at most `2 * k`. -/
theorem entropy_impurity {total : List K → K} {lg : K → K} {u eta tiny : K} (hfl : IsRounding fl) (he : HasError fl u eta)
    (hp : HasPrecision fl u fun x => tiny ≤ |x|) (hu0 : 0 ≤ u) (hu1 : u ≤ 1) (ht : IsTotal fl total) (hlg : IsLog2 lg) {k : Nat} (hk : 1 ≤ k) (hk2 : k ≤ 1074)
    (hhalf : IsNumber fl (1 / 2)) (hr : IsNumber fl (1 / 2 ^ k)) (hNu : 2 * (((2 ^ k + 2 : Nat) : K) * u) ≤ 1) (htiny : tiny ≤ 1 / 2 ^ k) :
    IsImpurity (entropyR fl lg total) (2 ^ k) (1 / 2 ^ k) (2 * k) where
  pure y hne hy := by
    have h1 := hlg.pow 0 (by norm_num)
    simp at h1
    rw [entropyR, freqR_pure hfl hne hy, List.map_singleton, total_single ht, h1, mul_zero, hfl.zero]
  impure y hy hyN := by
    have hne : y ≠ [] := by rintro rfl; exact hy fun a ha => by cases ha
    have hlen := List.length_pos_iff.2 hne
    have hn : (0 : K) < y.length := by exact_mod_cast hlen
    have hr0 : (0 : K) < 1 / 2 ^ k := by positivity
    have hrN : (1 : K) / 2 ^ k * ((2 ^ k : Nat) : K) ≤ 1 := by
      push_cast
      rw [one_div, inv_mul_cancel₀ (by positivity)]
    have hcell : ∀ c ∈ pyUnique y, 1 / 2 ^ k ≤ fl ((y.count c : K) / y.length) ∧ fl ((y.count c : K) / y.length) ≤ 1 ∧
        fl ((y.count c : K) / y.length) ≤ (1 + u) * ((y.count c : K) / y.length) ∧
        0 ≤ -fl ((y.count c : K) / y.length) * lg (fl ((y.count c : K) / y.length)) ∧
        -fl ((y.count c : K) / y.length) * lg (fl ((y.count c : K) / y.length)) ≤ k * fl ((y.count c : K) / y.length) := by
      intro c hc
      obtain ⟨b1, b2⟩ := freq_bounds (mem_pyUnique.1 hc) (r := 1 / 2 ^ k) hr0.le hrN hyN
      generalize (y.count c : K) / y.length = q at b1 b2 ⊢
      have hq0 : 0 < q := hr0.trans_le b1
      have h1 := hp q (by show tiny ≤ |q|; rw [abs_of_pos hq0]; linarith)
      rw [abs_of_pos hq0, abs_le] at h1
      have h2 := hfl.mono _ _ b1
      have e : fl (1 / 2 ^ k) = 1 / 2 ^ k := hr
      rw [e] at h2
      have h3 := hfl.le_one b2
      generalize fl q = p at h1 h2 h3 ⊢
      have hp0 : 0 < p := hr0.trans_le h2
      have g1 := hlg.mono _ _ hr0 h2
      have g2 := hlg.mono _ _ hp0 h3
      have l0 := hlg.pow 0 (by norm_num)
      simp at l0
      rw [hlg.pow k hk2] at g1
      rw [l0] at g2
      refine ⟨h2, h3, by linarith [h1.2], ?_, ?_⟩
      · rw [neg_mul, neg_nonneg]
        exact mul_nonpos_of_nonneg_of_nonpos hp0.le g2
      · have := mul_le_mul_of_nonneg_left g1 hp0.le
        rw [neg_mul]
        linarith
    have hl : ∀ x ∈ (freqR fl y).map fun p => fl (-p * lg p), 0 ≤ x ∧ IsNumber fl x := by
      intro x hx
      obtain ⟨p, hp', rfl⟩ := List.mem_map.1 hx
      obtain ⟨c, hc, rfl⟩ := List.mem_map.1 hp'
      exact ⟨hfl.nonneg (hcell c hc).2.2.2.1, hfl.idem _⟩
    constructor
    · -- a label with at most half of the samples
      obtain ⟨c, hc, hhalfc⟩ : ∃ c ∈ y, 2 * y.count c ≤ y.length := by
        unfold Pure at hy
        push Not at hy
        obtain ⟨a, ha, b, hb, hab⟩ := hy
        have h := length_eq_sum_count y y.toFinset (fun a ha => List.mem_toFinset.2 ha)
        have h2 : ∑ c ∈ ({a, b} : Finset Int), y.count c ≤ ∑ c ∈ y.toFinset, y.count c :=
          Finset.sum_le_sum_of_subset (by
            intro x hx
            rw [Finset.mem_insert, Finset.mem_singleton] at hx
            rcases hx with rfl | rfl <;> simpa)
        rw [Finset.sum_pair hab, ← h] at h2
        rcases le_total (y.count a) (y.count b) with h3 | h3
        · exact ⟨a, ha, by omega⟩
        · exact ⟨b, hb, by omega⟩
      have hc' := mem_pyUnique.2 hc
      obtain ⟨b1, -, -, -, -⟩ := hcell c hc'
      have hq : (y.count c : K) / y.length ≤ 1 / 2 := by
        rw [div_le_iff₀ hn]
        have : (2 * y.count c : K) ≤ y.length := by exact_mod_cast hhalfc
        linarith
      have h1 := hfl.mono _ _ hq
      have e : fl (1 / 2) = 1 / 2 := hhalf
      rw [e] at h1
      have hm : fl (-fl ((y.count c : K) / y.length) * lg (fl ((y.count c : K) / y.length))) ∈ (freqR fl y).map fun p => fl (-p * lg p) :=
        List.mem_map.2 ⟨_, List.mem_map.2 ⟨c, hc', rfl⟩, rfl⟩
      have h2 := total_ge hfl ht hl hm
      refine le_trans ?_ h2
      have hnum : fl (fl ((y.count c : K) / y.length)) = fl ((y.count c : K) / y.length) := hfl.idem _
      generalize fl ((y.count c : K) / y.length) = p at b1 h1 hnum ⊢
      have hp0 : 0 < p := hr0.trans_le b1
      have g := hlg.mono _ _ hp0 h1
      have l1 := hlg.pow 1 (by norm_num)
      simp only [pow_one, Nat.cast_one] at l1
      rw [l1] at g
      have : p ≤ -p * lg p := by
        have := mul_le_mul_of_nonneg_left g hp0.le
        linarith
      have := hfl.mono _ _ this
      rw [hnum] at this
      linarith
    · have hS := total_le hfl he hu0 hu1 ht hl
      have hsum : ((freqR fl y).map fun p => fl (-p * lg p)).sum ≤ (1 + u) ^ 2 * k := by
        rw [freqR, List.map_map]
        refine (List.sum_le_sum (g := fun c => (1 + u) ^ 2 * k * ((y.count c : K) / y.length)) ?_).trans ?_
        · intro c hc
          obtain ⟨c1, c2, c3, c4, c5⟩ := hcell c hc
          show fl (-fl ((y.count c : K) / y.length) * lg (fl ((y.count c : K) / y.length))) ≤ _
          refine (hfl.mono _ _ c5).trans ?_
          generalize fl ((y.count c : K) / y.length) = p at c1 c2 c3 ⊢
          have hk1 : (1 : K) ≤ k := by exact_mod_cast hk
          have hp0 : 0 < p := hr0.trans_le c1
          have hkp : p ≤ k * p := by nlinarith
          have hkp0 : 0 < (k : K) * p := mul_pos (by linarith) hp0
          have h1 := hp (k * p) (by show tiny ≤ |(k : K) * p|; rw [abs_of_pos hkp0]; linarith)
          rw [abs_of_pos hkp0, abs_le] at h1
          have h2 : fl (k * p) ≤ (1 + u) * (k * p) := by linarith [h1.2]
          have h3 : (1 + u) * (k * p) ≤ (1 + u) * (k * ((1 + u) * ((y.count c : K) / y.length))) :=
            mul_le_mul_of_nonneg_left (mul_le_mul_of_nonneg_left c3 (by linarith)) (by linarith)
          exact h2.trans (h3.trans (le_of_eq (by ring)))
        · rw [List.sum_map_mul_left, sum_freq hne, mul_one]
      have hlenl : ((freqR fl y).map fun p => fl (-p * lg p)).length ≤ 2 ^ k := by
        rw [List.length_map, freqR, List.length_map]
        exact (unique_length_le y).trans hyN
      have hk0 : (0 : K) ≤ k := Nat.cast_nonneg k
      have h1 : total ((freqR fl y).map fun p => fl (-p * lg p)) ≤ (1 + u) ^ (2 ^ k + 2) * k := by
        refine hS.trans ((mul_le_mul_of_nonneg_left hsum (pow_nonneg (by linarith) _)).trans ?_)
        rw [← mul_assoc, ← pow_add]
        exact mul_le_mul_of_nonneg_right (pow_le_pow_right₀ (by linarith) (by omega)) hk0
      have h2 := pow_le_of hu0 (k := 2 ^ k + 2) hNu
      exact h1.trans (mul_le_mul_of_nonneg_right (by linarith) hk0)

/-! ## The choice -/

/-- A criterion that is 0 exactly for perfect tests chooses the first attribute with a perfect test. -/
theorem perfect_found (hfl : IsRounding fl) (fc : K → K) {imp : List Int → K} {N : Nat} {delta top r : K} (hi : IsImpurity imp N delta top)
    (hr0 : 0 < r) (hr : IsNumber fl r) (hrN : r * N ≤ 1) (hd : 0 < delta) (hv : IsNumber fl (r * delta)) (num : V → K) (isCont : List V → Bool)
    (cols : List (Fin m)) (xs : List (Row V m)) (ys : List Int) (hy : ys.length ≤ N)
    (h : ∃ a ∈ cols, ∃ s, Offers fc num (isCont (xs.map fun r => r a)) (xs.map fun r => r a) s ∧ Perfect num (xs.map fun r => r a) ys s) :
    ∃ pre a post s, cols = pre ++ a :: post ∧ optimalDivisionR fl fc imp num isCont cols xs ys = (some a, ((0 : K) : WithTop K), s.map some) ∧
      Offers fc num (isCont (xs.map fun r => r a)) (xs.map fun r => r a) s ∧ Perfect num (xs.map fun r => r a) ys s ∧
      ∀ b ∈ pre, ∀ s, Offers fc num (isCont (xs.map fun r => r b)) (xs.map fun r => r b) s → ¬ Perfect num (xs.map fun r => r b) ys s := by
  have hpos : 0 < r * delta := mul_pos hr0 hd
  have hs := fun a : Fin m => getValueR_spec hfl fc hi hr0 hr hrN hd hv hy num (isCont (xs.map fun r => r a)) (xs.map fun r => r a)
  have hzero : ∀ a s, Offers fc num (isCont (xs.map fun r => r a)) (xs.map fun r => r a) s → Perfect num (xs.map fun r => r a) ys s →
      ∃ s', getValueR fl fc imp num (isCont (xs.map fun r => r a)) (xs.map fun r => r a) ys = (((0 : K) : WithTop K), s'.map some) ∧
        Offers fc num (isCont (xs.map fun r => r a)) (xs.map fun r => r a) s' ∧ Perfect num (xs.map fun r => r a) ys s' := by
    intro a s h1 h2
    rcases hs a with h | ⟨h, -⟩
    · exact h
    · exact absurd h2 (h s h1)
  obtain ⟨a₀, ha₀, s₀, ho₀, hp₀⟩ := h
  obtain ⟨s₁, e₁, -, -⟩ := hzero a₀ s₀ ho₀ hp₀
  rcases minLoop_spec (fun a => getValueR fl fc imp num (isCont (xs.map fun r => r a)) (xs.map fun r => r a) ys) cols (none, ⊤, none) with
    ⟨-, h2⟩ | ⟨pre, a, post, hcols, h1, -, h3, h4⟩
  · have := h2 a₀ ha₀
    simp only [e₁] at this
    exact absurd this (by simp)
  · have hle : (getValueR fl fc imp num (isCont (xs.map fun r => r a)) (xs.map fun r => r a) ys).1 ≤ ((0 : K) : WithTop K) := by
      rw [hcols, List.mem_append, List.mem_cons] at ha₀
      rcases ha₀ with h | rfl | h
      · have := (h3 a₀ h).le
        rwa [e₁] at this
      · rw [e₁]
      · have := h4 a₀ h
        rwa [e₁] at this
    rcases hs a with ⟨s, e, ho, hp⟩ | ⟨-, h5, -⟩
    · refine ⟨pre, a, post, s, hcols, ?_, ho, hp, ?_⟩
      · unfold optimalDivisionR
        rw [h1, e]
      · intro b hb s' ho' hp'
        obtain ⟨s'', e'', -, -⟩ := hzero b s' ho' hp'
        have := h3 b hb
        rw [e, e''] at this
        exact absurd this (lt_irrefl _)
    · exact absurd (WithTop.coe_le_coe.1 (h5.trans hle)) (not_le.2 hpos)

/-- Without a perfect test the chosen criterion value is not 0. -/
theorem imperfect_positive (hfl : IsRounding fl) (fc : K → K) {imp : List Int → K} {N : Nat} {delta top r : K} (hi : IsImpurity imp N delta top)
    (hr0 : 0 < r) (hr : IsNumber fl r) (hrN : r * N ≤ 1) (hd : 0 < delta) (hv : IsNumber fl (r * delta)) (num : V → K) (isCont : List V → Bool)
    (cols : List (Fin m)) (xs : List (Row V m)) (ys : List Int) (hy : ys.length ≤ N)
    (h : ∀ a ∈ cols, ∀ s, Offers fc num (isCont (xs.map fun r => r a)) (xs.map fun r => r a) s → ¬ Perfect num (xs.map fun r => r a) ys s) :
    ((r * delta : K) : WithTop K) ≤ (optimalDivisionR fl fc imp num isCont cols xs ys).2.1 := by
  have hs := fun a : Fin m => getValueR_spec hfl fc hi hr0 hr hrN hd hv hy num (isCont (xs.map fun r => r a)) (xs.map fun r => r a)
  unfold optimalDivisionR
  rcases minLoop_spec (fun a => getValueR fl fc imp num (isCont (xs.map fun r => r a)) (xs.map fun r => r a) ys) cols (none, ⊤, none) with
    ⟨h1, -⟩ | ⟨pre, a, post, hcols, h1, -, -, -⟩
  · rw [h1]; exact le_top
  · rw [h1]
    rcases hs a with ⟨s, -, ho, hp⟩ | ⟨-, h5, -⟩
    · exact absurd hp (h a (by rw [hcols]; simp) s ho)
    · exact h5

/-- With the information gain the first attribute with a perfect test is chosen as well. -/
theorem perfect_gain {u eta : K} (hfl : IsRounding fl) (he : HasError fl u eta) (hu0 : 0 ≤ u) (fc : K → K) {imp : List Int → K} {N : Nat} {delta top r : K} (hi : IsImpurity imp N delta top)
    (hnum : ∀ y, IsNumber fl (imp y)) (ys : List Int)
    (hr0 : 0 < r) (hr : IsNumber fl r) (hrN : r * N ≤ 1) (hd : 0 < delta) (hv : IsNumber fl (r * delta)) (hsep : u * top + eta < r * delta) (heta : 0 ≤ eta)
    (num : V → K) (isCont : List V → Bool) (cols : List (Fin m)) (xs : List (Row V m)) (hy : ys.length ≤ N)
    (h : ∃ a ∈ cols, ∃ s, Offers fc num (isCont (xs.map fun r => r a)) (xs.map fun r => r a) s ∧ Perfect num (xs.map fun r => r a) ys s) :
    ∃ pre a post s, cols = pre ++ a :: post ∧ gainDivisionR fl fc imp num isCont cols xs ys = (some a, ((imp ys : K) : WithBot K), s.map some) ∧
      Offers fc num (isCont (xs.map fun r => r a)) (xs.map fun r => r a) s ∧ Perfect num (xs.map fun r => r a) ys s ∧
      ∀ b ∈ pre, ∀ s, Offers fc num (isCont (xs.map fun r => r b)) (xs.map fun r => r b) s → ¬ Perfect num (xs.map fun r => r b) ys s := by
  have hpos : 0 < r * delta := mul_pos hr0 hd
  have hs := fun a : Fin m => getValueR_spec hfl fc hi hr0 hr hrN hd hv hy num (isCont (xs.map fun r => r a)) (xs.map fun r => r a)
  have hsub : ∀ {U : Type u} (p : U → Bool) (D : List U), Pure ys → Pure (labelsWhere p D ys) := by
    intro U p D hp a ha b hb
    have key : ∀ c ∈ labelsWhere p D ys, c ∈ ys := by
      intro c hc
      obtain ⟨q, hq, rfl⟩ := List.mem_map.1 hc
      exact (List.of_mem_zip (a := q.1) (b := q.2) (List.mem_of_mem_filter hq)).2
    exact hp a (key a ha) b (key b hb)
  let g : Fin m → WithBot K × Option (Option K) := fun a =>
    (gainOfR fl (imp ys) (getValueR fl fc imp num (isCont (xs.map fun r => r a)) (xs.map fun r => r a) ys).1,
      (getValueR fl fc imp num (isCont (xs.map fun r => r a)) (xs.map fun r => r a) ys).2)
  have hgood : ∀ a, (∃ s, g a = (((imp ys : K) : WithBot K), s.map some) ∧ Offers fc num (isCont (xs.map fun r => r a)) (xs.map fun r => r a) s ∧
        Perfect num (xs.map fun r => r a) ys s) ∨
      ((∀ s, Offers fc num (isCont (xs.map fun r => r a)) (xs.map fun r => r a) s → ¬ Perfect num (xs.map fun r => r a) ys s) ∧
        (g a).1 < ((imp ys : K) : WithBot K)) := by
    intro a
    rcases hs a with ⟨s, e, ho, hp⟩ | ⟨hn, -, h5⟩
    · refine .inl ⟨s, ?_, ho, hp⟩
      show (gainOfR fl (imp ys) _, _) = _
      rw [e]
      have : gainOfR fl (imp ys) ((0 : K) : WithTop K) = ((fl (imp ys - 0) : K) : WithBot K) := rfl
      rw [this, sub_zero, hnum ys]
    · refine .inr ⟨hn, ?_⟩
      show gainOfR fl (imp ys) _ < _
      rcases h5 with h5 | ⟨v, hv', s, ho, e⟩
      · rw [h5]
        exact WithBot.bot_lt_coe _
      · rw [e]
        have himp : ¬ Pure ys := by
          intro hp
          apply hn s ho
          cases s with
          | none => exact fun v => hsub _ _ hp
          | some t => exact ⟨hsub _ _ hp, hsub _ _ hp⟩
        obtain ⟨i1, i2⟩ := hi.impure ys himp hy
        have e2 : gainOfR fl (imp ys) ((v : K) : WithTop K) = ((fl (imp ys - v) : K) : WithBot K) := rfl
        rw [e2, WithBot.coe_lt_coe]
        rcases le_total 0 (imp ys - v) with hle | hle
        · have := he.any (imp ys - v)
          rw [abs_of_nonneg hle, abs_le] at this
          have h6 : u * (imp ys - v) ≤ u * top := mul_le_mul_of_nonneg_left (by linarith) hu0
          linarith [this.2]
        · have := hfl.nonpos hle
          linarith
  obtain ⟨a₀, ha₀, s₀, ho₀, hp₀⟩ := h
  have e₁ : (g a₀).1 = ((imp ys : K) : WithBot K) := by
    rcases hgood a₀ with ⟨s, e, -, -⟩ | ⟨h, -⟩
    · rw [e]
    · exact absurd hp₀ (h s₀ ho₀)
  have egd : gainDivisionR fl fc imp num isCont cols xs ys = maxLoop g cols (none, ⊥, none) := rfl
  rw [egd]
  rcases maxLoop_spec g cols (none, ⊥, none) with ⟨-, h2⟩ | ⟨pre, a, post, hcols, h1, -, h3, h4⟩
  · have := h2 a₀ ha₀
    rw [e₁] at this
    exact absurd this (by simp)
  · have hle : ((imp ys : K) : WithBot K) ≤ (g a).1 := by
      rw [hcols, List.mem_append, List.mem_cons] at ha₀
      rcases ha₀ with h | rfl | h
      · have := (h3 a₀ h).le
        rwa [e₁] at this
      · rw [e₁]
      · have := h4 a₀ h
        rwa [e₁] at this
    rcases hgood a with ⟨s, e, ho, hp⟩ | ⟨-, h5⟩
    · refine ⟨pre, a, post, s, hcols, by rw [h1, e], ho, hp, ?_⟩
      intro b hb s' ho' hp'
      have := h3 b hb
      rw [e] at this
      rcases hgood b with ⟨s'', e'', -, -⟩ | ⟨hn, -⟩
      · rw [e''] at this
        exact absurd this (lt_irrefl _)
      · exact hn s' ho' hp'
    · exact absurd h5 (not_lt.2 hle)

/-! ## Double precision -/

theorem f64_pow [FloorRing K] {k : Nat} (hk : k ≤ 1074) : IsNumber (f64 : K → K) (1 / 2 ^ k) := by
  have h := rne_exact (K := K) (p := 53) (by norm_num) (emin := -1074) (k := -(k : Int)) (by omega) 1 (by norm_num)
  rw [Int.cast_one, one_mul, zpow_neg, zpow_natCast] at h
  rw [IsNumber, one_div]
  exact h

theorem tiny_le [FloorRing K] : (2 : K) ^ (-1022 : Int) ≤ 1 / 2 ^ 60 := by
  have := zpow_le_zpow_right₀ (a := (2 : K)) (by norm_num) (show (-1022 : Int) ≤ -60 by norm_num)
  refine this.trans (le_of_eq ?_)
  rw [zpow_neg, one_div]
  norm_cast

theorem eta_le : (2 : K) ^ (-1074 : Int) / 2 ≤ 1 / 2 ^ 60 := by
  have := zpow_le_zpow_right₀ (a := (2 : K)) (by norm_num) (show (-1074 : Int) ≤ -60 by norm_num)
  have e : (2 : K) ^ (-60 : Int) = 1 / 2 ^ 60 := by rw [zpow_neg, one_div]; norm_cast
  have h0 : (0 : K) < 1 / 2 ^ 60 := by positivity
  rw [e] at this
  linarith

theorem f64_precision [FloorRing K] : HasPrecision (f64 : K → K) (1 / 2 ^ 53) fun x => 2 ^ (-1022 : Int) ≤ |x| := by
  intro x hx
  refine rne_precision 53 (-1074) x (.inr ?_)
  have e : (-1074 + ((53 : Nat) : Int) - 1 : Int) = -1022 := by norm_num
  rw [e]
  exact hx

theorem gini_f64 [FloorRing K] {total : List K → K} (ht : IsTotal f64 total) : IsImpurity (giniR f64 total) (2 ^ 20) (1 / 2 ^ 22) 1 := by
  have h := gini_impurity (K := K) f64_isRounding f64_hasError f64_precision (by positivity) (by norm_num) ht (N := 2 ^ 20) (by norm_num) (by norm_num)
    (tiny_le.trans (by norm_num))
  have e : (1 : K) / (4 * ((2 ^ 20 : Nat) : K)) = 1 / 2 ^ 22 := by norm_num
  rwa [e] at h

theorem entropy_f64 [FloorRing K] {total : List K → K} (ht : IsTotal f64 total) {lg : K → K} (hlg : IsLog2 lg) :
    IsImpurity (entropyR f64 lg total) (2 ^ 20) (1 / 2 ^ 20) 40 := by
  have h := entropy_impurity (K := K) f64_isRounding f64_hasError f64_precision (by positivity) (by norm_num) ht hlg (k := 20) (by norm_num) (by norm_num)
    (by have := f64_pow (K := K) (k := 1) (by norm_num); rwa [pow_one] at this) (f64_pow (by norm_num)) (by norm_num) (tiny_le.trans (by norm_num))
  have e : (2 : K) * ((20 : Nat) : K) = 40 := by norm_num
  rwa [e] at h

/-- C289 for `gini`: up to 2^20 samples, whatever the format of the columns and the order of the sums, if some attribute has a test after which all groups are
pure, the first such attribute is chosen, with such a test and the value 0. -/
theorem C289_gini [FloorRing K] {total : List K → K} (ht : IsTotal f64 total) (fc : K → K) (num : V → K) (isCont : List V → Bool)
    (cols : List (Fin m)) (xs : List (Row V m)) (ys : List Int) (hy : ys.length ≤ 2 ^ 20)
    (h : ∃ a ∈ cols, ∃ s, Offers fc num (isCont (xs.map fun r => r a)) (xs.map fun r => r a) s ∧ Perfect num (xs.map fun r => r a) ys s) :
    ∃ pre a post s, cols = pre ++ a :: post ∧ optimalDivisionR f64 fc (giniR f64 total) num isCont cols xs ys = (some a, ((0 : K) : WithTop K), s.map some) ∧
      Offers fc num (isCont (xs.map fun r => r a)) (xs.map fun r => r a) s ∧ Perfect num (xs.map fun r => r a) ys s ∧
      ∀ b ∈ pre, ∀ s, Offers fc num (isCont (xs.map fun r => r b)) (xs.map fun r => r b) s → ¬ Perfect num (xs.map fun r => r b) ys s :=
  perfect_found f64_isRounding fc (gini_f64 ht) (r := 1 / 2 ^ 20) (by positivity) (f64_pow (by norm_num)) (by norm_num) (by positivity)
    (by have := f64_pow (K := K) (k := 42) (by norm_num); rwa [show (1 : K) / 2 ^ 42 = 1 / 2 ^ 20 * (1 / 2 ^ 22) by norm_num] at this) num isCont cols xs ys hy h

/-- C289 for `entropy`. -/
theorem C289_entropy [FloorRing K] {total : List K → K} (ht : IsTotal f64 total) {lg : K → K} (hlg : IsLog2 lg) (fc : K → K) (num : V → K) (isCont : List V → Bool)
    (cols : List (Fin m)) (xs : List (Row V m)) (ys : List Int) (hy : ys.length ≤ 2 ^ 20)
    (h : ∃ a ∈ cols, ∃ s, Offers fc num (isCont (xs.map fun r => r a)) (xs.map fun r => r a) s ∧ Perfect num (xs.map fun r => r a) ys s) :
    ∃ pre a post s, cols = pre ++ a :: post ∧ optimalDivisionR f64 fc (entropyR f64 lg total) num isCont cols xs ys = (some a, ((0 : K) : WithTop K), s.map some) ∧
      Offers fc num (isCont (xs.map fun r => r a)) (xs.map fun r => r a) s ∧ Perfect num (xs.map fun r => r a) ys s ∧
      ∀ b ∈ pre, ∀ s, Offers fc num (isCont (xs.map fun r => r b)) (xs.map fun r => r b) s → ¬ Perfect num (xs.map fun r => r b) ys s :=
  perfect_found f64_isRounding fc (entropy_f64 ht hlg) (r := 1 / 2 ^ 20) (by positivity) (f64_pow (by norm_num)) (by norm_num) (by positivity)
    (by have := f64_pow (K := K) (k := 40) (by norm_num); rwa [show (1 : K) / 2 ^ 40 = 1 / 2 ^ 20 * (1 / 2 ^ 20) by norm_num] at this) num isCont cols xs ys hy h

/-- C289 for `gain`, the default criterion: the gain of the chosen attribute is the whole entropy. -/
theorem C289_gain [FloorRing K] {total : List K → K} (ht : IsTotal f64 total) {lg : K → K} (hlg : IsLog2 lg) (fc : K → K) (num : V → K) (isCont : List V → Bool)
    (cols : List (Fin m)) (xs : List (Row V m)) (ys : List Int) (hy : ys.length ≤ 2 ^ 20)
    (h : ∃ a ∈ cols, ∃ s, Offers fc num (isCont (xs.map fun r => r a)) (xs.map fun r => r a) s ∧ Perfect num (xs.map fun r => r a) ys s) :
    ∃ pre a post s, cols = pre ++ a :: post ∧
      gainDivisionR f64 fc (entropyR f64 lg total) num isCont cols xs ys = (some a, ((entropyR f64 lg total ys : K) : WithBot K), s.map some) ∧
      Offers fc num (isCont (xs.map fun r => r a)) (xs.map fun r => r a) s ∧ Perfect num (xs.map fun r => r a) ys s ∧
      ∀ b ∈ pre, ∀ s, Offers fc num (isCont (xs.map fun r => r b)) (xs.map fun r => r b) s → ¬ Perfect num (xs.map fun r => r b) ys s :=
  perfect_gain f64_isRounding f64_hasError (by positivity) fc (entropy_f64 ht hlg)
    (fun y => total_number f64_isRounding ht fun x hx => by
      obtain ⟨p, -, rfl⟩ := List.mem_map.1 hx
      exact f64_isRounding.idem _) ys (r := 1 / 2 ^ 20) (by positivity) (f64_pow (by norm_num)) (by norm_num) (by positivity)
    (by have := f64_pow (K := K) (k := 40) (by norm_num); rwa [show (1 : K) / 2 ^ 40 = 1 / 2 ^ 20 * (1 / 2 ^ 20) by norm_num] at this)
    (by have := eta_le (K := K)
        have h2 : (1 : K) / 2 ^ 53 * 40 + 1 / 2 ^ 60 < 1 / 2 ^ 20 * (1 / 2 ^ 20) := by norm_num
        linarith) (by positivity) num isCont cols xs hy h

/-- C289: the reported value is 0 only if there is a perfect test (`gini`, `entropy`). -/
theorem C289_zero [FloorRing K] {total : List K → K} (ht : IsTotal f64 total) {lg : K → K} (hlg : IsLog2 lg) (fc : K → K) (num : V → K) (isCont : List V → Bool)
    (cols : List (Fin m)) (xs : List (Row V m)) (ys : List Int) (hy : ys.length ≤ 2 ^ 20)
    (h : ∀ a ∈ cols, ∀ s, Offers fc num (isCont (xs.map fun r => r a)) (xs.map fun r => r a) s → ¬ Perfect num (xs.map fun r => r a) ys s) :
    (0 : WithTop K) < (optimalDivisionR f64 fc (giniR f64 total) num isCont cols xs ys).2.1 ∧
    (0 : WithTop K) < (optimalDivisionR f64 fc (entropyR f64 lg total) num isCont cols xs ys).2.1 := by
  constructor
  · refine lt_of_lt_of_le ?_ (imperfect_positive f64_isRounding fc (gini_f64 ht) (r := 1 / 2 ^ 20) (by positivity) (f64_pow (by norm_num)) (by norm_num) (by positivity)
      (by have := f64_pow (K := K) (k := 42) (by norm_num); rwa [show (1 : K) / 2 ^ 42 = 1 / 2 ^ 20 * (1 / 2 ^ 22) by norm_num] at this) num isCont cols xs ys hy h)
    exact WithTop.coe_lt_coe.2 (by positivity)
  · refine lt_of_lt_of_le ?_ (imperfect_positive f64_isRounding fc (entropy_f64 ht hlg) (r := 1 / 2 ^ 20) (by positivity) (f64_pow (by norm_num)) (by norm_num) (by positivity)
      (by have := f64_pow (K := K) (k := 40) (by norm_num); rwa [show (1 : K) / 2 ^ 40 = 1 / 2 ^ 20 * (1 / 2 ^ 20) by norm_num] at this) num isCont cols xs ys hy h)
    exact WithTop.coe_lt_coe.2 (by positivity)

/-- Adding from left to right is a sum in some order. -/
theorem leftTotal (fl : K → K) : IsTotal fl fun l => match l with | [] => 0 | a :: l => l.foldl (fun s t => fl (s + t)) a := by
  refine ⟨rfl, fun l hl => ?_⟩
  cases l with
  | nil => exact absurd rfl hl
  | cons a l =>
    have key : ∀ (n : Nat) (e : Fin n → K) (is : List (Fin n)) (o : Order n), (o.loop is).sum fl e = (is.map e).foldl (fun s t => fl (s + t)) (o.sum fl e) := by
      intro n e is
      induction is with
      | nil => intro o; rfl
      | cons i is ih => intro o; rw [Order.loop, ih]; rfl
    have ent : ∀ (n : Nat) (is : List (Fin n)) (o : Order n), (o.loop is).entries = o.entries ++ is := by
      intro n is
      induction is with
      | nil => intro o; simp [Order.loop]
      | cons i is ih => intro o; rw [Order.loop, ih]; simp [Order.entries]
    have hall : List.finRange (a :: l).length = (⟨0, by simp⟩ : Fin (a :: l).length) :: (List.finRange l.length).map Fin.succ := List.finRange_succ
    refine ⟨(Order.entry ⟨0, by simp⟩).loop ((List.finRange l.length).map Fin.succ), ⟨?_, fun i => ?_⟩, ?_⟩
    · rw [ent, Order.entries, List.singleton_append, ← hall]
      exact List.nodup_finRange _
    · rw [ent, Order.entries, List.singleton_append, ← hall]
      exact List.mem_finRange i
    · rw [key, List.map_map]
      have : (List.finRange l.length).map ((a :: l).get ∘ Fin.succ) = l := by
        have : ((a :: l).get ∘ Fin.succ) = l.get := rfl
        rw [this, ← List.ofFn_eq_map, List.ofFn_get]
      rw [this]
      rfl

/-- The rounded logarithm is one. -/
theorem log2_f64 : IsLog2 fun x : ℝ => f64 (Real.logb 2 x) where
  mono x y hx hxy := f64_isRounding.mono _ _ (Real.logb_le_logb_of_le (by norm_num) hx hxy)
  pow k hk := by
    have e : Real.logb 2 (1 / 2 ^ k) = ((-(k : Int) : Int) : ℝ) * 2 ^ (0 : Int) := by
      rw [one_div, Real.logb_inv, Real.logb_pow, Real.logb_self_eq_one (by norm_num)]
      push_cast
      ring
    show f64 (Real.logb 2 (1 / 2 ^ k)) = _
    rw [e]
    refine (rne_exact (K := ℝ) (p := 53) (by norm_num) (emin := -1074) (k := 0) (by norm_num) (-(k : Int)) ?_).trans (by push_cast; ring)
    rw [abs_neg, Nat.abs_cast]
    have : (k : Int) ≤ 1074 := by exact_mod_cast hk
    exact this.trans (by norm_num)

/-- Three samples, two attributes: the first one has no perfect test, the second one has. -/
example : optimalDivisionR (m := 2) f64 f64 (giniR f64 fun l => match l with | [] => 0 | a :: l => l.foldl (fun s t => f64 (s + t)) a) id (fun _ => true)
    [0, 1] [![1, 1], ![2, 3], ![(3 : ℚ), 2]] [0, 1, 0] = (some 1, ((0 : ℚ) : WithTop ℚ), some (some (5 / 2))) := by decide +kernel

end CML.DTree
