import Verif.Props.RepeatMore
import Mathlib.Topology.Algebra.Order.Field
import Mathlib.Analysis.SpecificLimits.Basic

set_option linter.unusedSectionVars false

/-! # Property C338: the influence of Laplace smoothing fades

naive_bayes_classifier.py:60-144, 191-232, ops.py:352-378, 501-522.
-/

namespace CML.Repeat
open Bayes Filter Topology

variable {V : Type} [DecidableEq V]

lemma ratio_limit (a t k : Nat) (ht : t ≠ 0) : Tendsto (fun r : Nat => ratio (r * a + 1) (r * t + k)) atTop (𝓝 (ratio a t)) := by
  have h : ∀ c d : Nat, Tendsto (fun r : Nat => (c : ℝ) + d / (r : ℝ)) atTop (𝓝 (c : ℝ)) := by
    intro c d
    simpa using tendsto_const_nhds.add (tendsto_const_div_atTop_nhds_zero_nat (d : ℝ))
  have h1 : Tendsto (fun r : Nat => ((a : ℝ) + ((1 : Nat) : ℝ) / (r : ℝ)) / ((t : ℝ) + (k : ℝ) / (r : ℝ))) atTop (𝓝 (ratio a t)) :=
    (h a 1).div (h t k) (by exact_mod_cast ht)
  refine h1.congr' ?_
  filter_upwards [eventually_ge_atTop 1] with r hr
  have hr' : (r : ℝ) ≠ 0 := by exact_mod_cast (by omega : r ≠ 0)
  unfold ratio
  push_cast
  rw [← mul_div_mul_left _ _ hr']
  congr 1 <;> field_simp

lemma factor_fades (fl : ℝ → ℝ) (s : Stored V) (x : Cell V) (p : ℝ) (h : factor fl false s x = .ok (some p)) (hp : 0 ≤ p) :
    ∃ f : Nat → ℝ, (∀ r ≠ 0, factor fl true (storedTimes r s) x = .ok (some (f r)) ∧ 0 ≤ f r) ∧ Tendsto f atTop (𝓝 p) := by
  rcases s with mv | ⟨counts, total, num⟩
  · refine ⟨fun _ => p, fun r _ => ⟨?_, hp⟩, tendsto_const_nhds⟩
    rw [← h]
    cases x <;> cases mv <;> rfl
  · cases x with
    | cont _ => simp [factor] at h
    | disc v =>
      simp only [factor] at h
      cases hl : counts.lookup v with
      | none => rw [hl] at h; simp at h
      | some a =>
        rw [hl] at h
        simp only [condProb, Bool.false_eq_true, if_false, Except.ok.injEq] at h
        split at h
        · simp at h
        · rename_i ht
          simp only [Option.some.injEq] at h
          subst h
          refine ⟨fun r => ratio (r * a + 1) (r * total + num), fun r hr => ⟨?_, ratio_nonneg _ _⟩, ratio_limit a total num ht⟩
          simp only [storedTimes, factor, lookup_scale, hl, Option.map_some, condProb, if_true]
          rw [if_neg]
          have := Nat.mul_ne_zero hr ht
          omega

lemma factors_fade (fl : ℝ → ℝ) : ∀ (ss : List (Stored V)) (x : List (Cell V)) (l : List ℝ), factors fl false ss x = .ok (l.map some) → (∀ p ∈ l, 0 ≤ p) →
    ∃ f : Nat → List ℝ, (∀ r ≠ 0, factors fl true (ss.map (storedTimes r)) x = .ok ((f r).map some) ∧ ∀ p ∈ f r, 0 ≤ p) ∧
      Tendsto (fun r => (f r).prod) atTop (𝓝 l.prod)
  | [], x, l, h, _ => by
    simp only [factors, Except.ok.injEq] at h
    have : l = [] := by cases l with
      | nil => rfl
      | cons => simp at h
    subst this
    exact ⟨fun _ => [], fun _ _ => ⟨rfl, by simp⟩, tendsto_const_nhds⟩
  | _ :: _, [], l, h, _ => by simp [factors] at h
  | s :: ss, x :: xs, l, h, hp => by
    simp only [factors] at h
    rcases h1 : factor fl false s x with e | p
    · rw [h1] at h; simp at h
    · rw [h1] at h
      rcases h2 : factors fl false ss xs with e | ps
      · rw [h2] at h; simp at h
      · rw [h2] at h
        simp only [Except.ok.injEq] at h
        cases l with
        | nil => simp at h
        | cons q l =>
          simp only [List.map_cons, List.cons.injEq] at h
          obtain ⟨rfl, rfl⟩ := h
          obtain ⟨f, hf, lf⟩ := factor_fades fl s x q h1 (hp _ List.mem_cons_self)
          obtain ⟨g, hg, lg⟩ := factors_fade fl ss xs l h2 fun p h => hp p (List.mem_cons_of_mem _ h)
          refine ⟨fun r => f r :: g r, fun r hr => ⟨?_, ?_⟩, ?_⟩
          · simp only [List.map_cons, factors, (hf r hr).1, (hg r hr).1]
          · rw [List.forall_mem_cons]; exact ⟨(hf r hr).2, (hg r hr).2⟩
          · simpa using lf.mul lg

/-- **C338.** Let a classifier without smoothing answer the row `x` without a tie, all its estimates being numbers. Then from some number of copies of the training set on, a classifier with
smoothing gives the same answer. `order` is the order in which `pd.value_counts` lists the values. -/
theorem C338_fades (order : List V → List V) (ho : ∀ r ≠ 0, ∀ l, order (times r l) = order l) (fl : ℝ → ℝ) (cols : List (Col V)) (y : List Int) (hy : y ≠ [])
    (hlen : ∀ col ∈ cols, colLen col = y.length) (m : NB V) (hm : nbFit order cols y false = .ok m) (x : List (Cell V)) (l0 l1 : List ℝ)
    (h0 : factors fl false m.pi0 x = .ok (l0.map some)) (h1 : factors fl false m.pi1 x = .ok (l1.map some)) (hl0 : ∀ p ∈ l0, 0 ≤ p) (hl1 : ∀ p ∈ l1, 0 ≤ p)
    (htie : m.p0 * l0.prod ≠ m.p1 * l1.prod) :
    ∃ R, ∀ r ≥ R, ∃ m', nbFit order (cols.map (colTimes r)) (times r y) true = .ok m' ∧ nbPredict fl true m' x = nbPredict fl false m x := by
  have hn : y.length ≠ 0 := by simpa using hy
  unfold nbFit at hm
  simp only [prior, Bool.false_eq_true, if_false] at hm
  rw [if_neg hn] at hm
  simp only at hm
  cases e0 : cols.mapM (nbColumn order y 0) with
  | error e => rw [e0] at hm; cases hm
  | ok a =>
    cases e1 : cols.mapM (nbColumn order y 1) with
    | error e => rw [e0, e1] at hm; cases hm
    | ok b =>
      rw [e0, e1] at hm
      cases hm
      simp only at h0 h1 htie
      obtain ⟨f, hf, lf⟩ := factors_fade fl a x l0 h0 hl0
      obtain ⟨g, hg, lg⟩ := factors_fade fl b x l1 h1 hl1
      have hc : y.count 0 ≤ y.length := List.count_le_length
      have lp := ratio_limit (y.count 0) y.length (pyUnique y).length hn
      have L0 := lp.mul lf
      have L1 := ((tendsto_const_nhds (x := (1 : ℝ))).sub lp).mul lg
      have hp0 : 0 ≤ ratio (y.count 0) y.length := ratio_nonneg _ _
      have hp1 : 0 ≤ 1 - ratio (y.count 0) y.length := by linarith [ratio_le_one hc]
      have hpred := C42_label_partial fl false ⟨ratio (y.count 0) y.length, 1 - ratio (y.count 0) y.length, a, b⟩ x l0 l1 h0 h1 hp0 hp1 hl0 hl1
      -- the same decision for many copies
      have hev : ∀ᶠ r : Nat in atTop,
          ((1 - ratio (r * y.count 0 + 1) (r * y.length + (pyUnique y).length)) * (g r).prod < ratio (r * y.count 0 + 1) (r * y.length + (pyUnique y).length) * (f r).prod ↔
            (1 - ratio (y.count 0) y.length) * l1.prod < ratio (y.count 0) y.length * l0.prod) := by
        rcases lt_or_gt_of_ne htie with h | h
        · filter_upwards [L0.eventually_lt L1 h] with r hr
          exact iff_of_false (not_lt.2 hr.le) (not_lt.2 h.le)
        · filter_upwards [L1.eventually_lt L0 h] with r hr
          exact iff_of_true hr h
      obtain ⟨R, hR⟩ := eventually_atTop.1 hev
      refine ⟨max R 1, fun r hr => ?_⟩
      have hr0 : r ≠ 0 := by have := le_trans (le_max_right R 1) hr; omega
      have hu := length_unique_pos hy
      have hq : r * y.count 0 + 1 ≤ r * y.length + (pyUnique y).length := by
        have := Nat.mul_le_mul_left r hc
        omega
      refine ⟨⟨ratio (r * y.count 0 + 1) (r * y.length + (pyUnique y).length), 1 - ratio (r * y.count 0 + 1) (r * y.length + (pyUnique y).length),
        a.map (storedTimes r), b.map (storedTimes r)⟩, ?_, ?_⟩
      · simp only [nbFit, prior, if_true, times_length, times_count, pyUnique_times r hr0, mapM_columns r hr0 order (ho r hr0) y _ cols hlen, e0, e1, Except.map]
        rw [if_neg (by omega)]
      · rw [hpred, C42_label_partial fl true _ x (f r) (g r) (hf r hr0).1 (hg r hr0).1 (ratio_nonneg _ _) (by linarith [ratio_le_one hq]) (hf r hr0).2 (hg r hr0).2]
        simp only [hR r ((le_max_left R 1).trans hr)]

/-- How fast: with `t` samples of the class, of which `a ≤ t` have the value, and `k ≥ 1` values of the attribute, smoothing moves the estimate towards the uniform probability `1/k`, by at most
`k / (t + k)`. -/
theorem C338_shrinks (a t k : Nat) (ht : 0 < t) (hk : 0 < k) (ha : a ≤ t) : ∃ p q : ℝ, condProb a t k false = some p ∧ condProb a t k true = some q ∧
    p = (a : ℝ) / t ∧ q = (t / (t + k)) * p + (k / (t + k)) * (1 / k) ∧ |q - p| ≤ k / (t + k) := by
  have h1 : (0 : ℝ) < t := by exact_mod_cast ht
  have h2 : (1 : ℝ) ≤ k := by exact_mod_cast hk
  have h3 : (a : ℝ) ≤ t := by exact_mod_cast ha
  have e : ratio (a + 1) (t + k) = (t / (t + k)) * ((a : ℝ) / t) + (k / (t + k)) * (1 / k) := by
    unfold ratio
    push_cast
    have : (t : ℝ) + k ≠ 0 := by linarith
    have : (k : ℝ) ≠ 0 := by linarith
    field_simp
  refine ⟨_, _, by simp only [condProb, Bool.false_eq_true, if_false]; rw [if_neg (by omega)]; rfl, by simp only [condProb, if_true]; rw [if_neg (by omega)], rfl, e, ?_⟩
  rw [e]
  have hp : (a : ℝ) / t ≤ 1 := (div_le_one h1).2 h3
  have hp0 : 0 ≤ (a : ℝ) / t := by positivity
  have hk1 : 1 / (k : ℝ) ≤ 1 := (div_le_one (by linarith)).2 h2
  have hk0 : 0 ≤ 1 / (k : ℝ) := by positivity
  have e2 : t / (t + k) * ((a : ℝ) / t) + k / (t + k) * (1 / k) - (a : ℝ) / t = k / (t + k) * (1 / k - (a : ℝ) / t) := by
    have : (t : ℝ) / (t + k) = 1 - k / (t + k) := by
      have : (t : ℝ) + k ≠ 0 := by linarith
      field_simp; ring
    rw [this]; ring
  rw [e2, abs_mul, abs_of_nonneg (by positivity : (0 : ℝ) ≤ k / (t + k))]
  have : |1 / (k : ℝ) - (a : ℝ) / t| ≤ 1 := abs_le.2 ⟨by linarith, by linarith⟩
  exact mul_le_of_le_one_right (by positivity) this

/-- Non-vacuity of `C338_fades`: a data set with the row "a". -/
example (fl : ℝ → ℝ) : ∃ m : NB String, nbFit pyUnique [Col.disc ["b", "b", "b", "b", "a", "a", "a"]] [0, 0, 0, 0, 0, 0, 1] false = .ok m ∧
    factors fl false m.pi0 [.disc "a"] = .ok ([ratio 2 6].map some) ∧ factors fl false m.pi1 [.disc "a"] = .ok ([ratio 1 1].map some) ∧
    m.p0 * [ratio 2 6].prod ≠ m.p1 * [ratio 1 1].prod ∧ ∀ r ≠ 0, ∀ l : List String, pyUnique (times r l) = pyUnique l := by
  refine ⟨⟨ratio 6 7, 1 - ratio 6 7, [.disc [("b", 4), ("a", 2)] 6 2], [.disc [("b", 0), ("a", 1)] 1 2]⟩, rfl, rfl, rfl, by norm_num [ratio], fun r hr l => pyUnique_times r hr l⟩

end CML.Repeat
