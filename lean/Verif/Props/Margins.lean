import Verif.Spec.Margins
import Verif.Props.Ensemble
import Mathlib.Analysis.SpecialFunctions.Pow.Real
import Mathlib.Analysis.MeanInequalities

set_option linter.unusedSectionVars false

/-! # Property C305: the margins of AdaBoost -/

namespace CML.Ada
open Finset

variable {X : Type} {n m : Nat}

lemma eps_pos_m : 0 < EPS := by unfold EPS; positivity

lemma prod_margin (θ : ℝ) : ∀ (rs : List (Round X n)) (l : List ℝ), (∀ r ∈ rs, r.alpha = alphaOf r.err ∧ r.err < 1) → rs.map Round.alpha = l.map (fun a : ℝ => (a : WithBot ℝ)) →
    (rs.map fun r => 2 * √(max r.err EPS * (1 - r.err))).prod * Real.exp (θ * l.sum) =
      (rs.map fun r => 2 * (max r.err EPS) ^ ((1 - θ) / 2) * (1 - r.err) ^ ((1 + θ) / 2)).prod
  | [], l, _, hl => by
    cases l with
    | nil => simp
    | cons a l => simp at hl
  | r :: rs, [], _, hl => by simp at hl
  | r :: rs, a :: l, h, hl => by
    simp only [List.map_cons, List.cons.injEq] at hl
    have ih := prod_margin θ rs l (fun r' hr' => h r' (List.mem_cons_of_mem _ hr')) hl.2
    obtain ⟨ha, he⟩ := h r List.mem_cons_self
    rw [hl.1, alphaOf_lt he, WithBot.coe_inj] at ha
    have hm : 0 < max r.err EPS := lt_max_of_lt_right eps_pos_m
    have h1 : 0 < 1 - r.err := by linarith
    simp only [List.map_cons, List.prod_cons, List.sum_cons]
    have e : ∀ s t p q : ℝ, s * p * Real.exp (θ * (a + q)) = (s * Real.exp (θ * a)) * (p * Real.exp (θ * q)) := fun s t p q => by
      rw [mul_add, Real.exp_add]; ring
    rw [e _ 0, ih]
    congr 1
    rw [ha, Real.sqrt_eq_rpow, Real.mul_rpow hm.le h1.le, Real.log_div h1.ne' hm.ne']
    rw [Real.rpow_def_of_pos hm, Real.rpow_def_of_pos h1, Real.rpow_def_of_pos hm, Real.rpow_def_of_pos h1, mul_assoc, mul_assoc, mul_assoc, ← Real.exp_add, ← Real.exp_add, ← Real.exp_add]
    congr 2
    ring

/-- **C305.** The fraction of training samples with margin at most `θ` is at most the product over all rounds of `2 ε^((1-θ)/2) (1-ε)^((1+θ)/2)`, `ε` being the error of the
round (at least the constant `EPSILON`). -/
theorem C305_margins (hn : 0 < n) (learn : (Fin n → ℝ) → Except PyErr (X → Int)) (x : Fin n → X) (y : Fin n → Int) (k : Nat)
    (hy : ∀ i, y i = 1 ∨ y i = -1) (hlearn : ∀ D f, learn D = .ok f → ∀ i, f (x i) = 1 ∨ f (x i) = -1)
    (rs : List (Round X n)) (h : fit learn x y k = .ok rs) (l : List ℝ)
    (hl : rs.map Round.alpha = l.map fun a : ℝ => (a : WithBot ℝ)) (hs : 0 < l.sum) (θ : ℝ) :
    (lowMargins ((rs.map Round.h).zip l) x y θ : ℝ) / n ≤
      (rs.map fun r => 2 * (max r.err EPS) ^ ((1 - θ) / 2) * (1 - r.err) ^ ((1 + θ) / 2)).prod := by
  obtain ⟨h1, -⟩ := loop_inv k _ rs (uniform_dist hn) h
  have hb := loop_bound hy k _ rs l (uniform_dist hn) h (fun r hr i => hlearn r.dist r.h (h1 r hr).2.1 i) hl
  have hlen : rs.length = l.length := by simpa using congrArg List.length hl
  have hsum : (((rs.map Round.h).zip l).map Prod.snd).sum = l.sum := by rw [List.map_snd_zip (by simp [hlen])]
  have herr : ∀ r ∈ rs, r.alpha = alphaOf r.err ∧ r.err < 1 := by
    intro r hr
    obtain ⟨hd, -, h3, h4⟩ := h1 r hr
    refine ⟨h4, ?_⟩
    have hle := errorOf_le_one hd (fun i => r.h (x i)) y
    rw [errorOf_eq, ← h3] at hle
    rcases hle.lt_or_eq with h5 | h5
    · exact h5
    · exfalso
      have hm : r.alpha ∈ l.map fun a : ℝ => (a : WithBot ℝ) := hl ▸ List.mem_map_of_mem hr
      obtain ⟨a, -, ha⟩ := List.mem_map.1 hm
      rw [h4, h5] at ha
      simp [alphaOf] at ha
  rw [← prod_margin θ rs l herr hl]
  have key : (lowMargins ((rs.map Round.h).zip l) x y θ : ℝ) / n * Real.exp (-(θ * l.sum)) ≤ (rs.map fun r => 2 * √(max r.err EPS * (1 - r.err))).prod := by
    refine le_trans ?_ hb
    rw [← Finset.mul_sum, one_div, inv_mul_eq_div, div_mul_eq_mul_div]
    apply div_le_div_of_nonneg_right _ (Nat.cast_nonneg n)
    unfold lowMargins
    rw [Finset.card_filter]
    push_cast
    rw [Finset.sum_mul]
    apply Finset.sum_le_sum
    intro i _
    split
    · next hi =>
      rw [one_mul, Real.exp_le_exp, neg_le_neg_iff]
      unfold margin at hi
      rw [hsum, div_le_iff₀ hs] at hi
      exact hi
    · rw [zero_mul]; exact (Real.exp_pos _).le
  have := mul_le_mul_of_nonneg_right key (Real.exp_pos (θ * l.sum)).le
  rwa [mul_assoc, ← Real.exp_add, neg_add_cancel, Real.exp_zero, mul_one] at this

lemma margin_factor_le {g θ e : ℝ} (hg : g < 1 / 2) (hθ : θ ≤ 2 * g) (hθ0 : -1 ≤ θ) (he0 : 0 < e) (he : e ≤ 1 / 2 - g) :
    2 * e ^ ((1 - θ) / 2) * (1 - e) ^ ((1 + θ) / 2) ≤ (1 - 2 * g) ^ ((1 - θ) / 2) * (1 + 2 * g) ^ ((1 + θ) / 2) := by
  have hg1 : 0 ≤ 1 + 2 * g := by linarith
  rcases hg1.lt_or_eq with hg1 | hg1
  swap
  · -- g = -1/2: then θ = -1
    have hθ1 : θ = -1 := by linarith
    subst hθ1
    norm_num
    linarith
  have hs : 0 < 1 - 2 * g := by linarith
  have hθ1 : θ ≤ 1 := by linarith
  have w1 : 0 ≤ (1 - θ) / 2 := by linarith
  have w2 : 0 ≤ (1 + θ) / 2 := by linarith
  have h1e : 0 < 1 - e := by linarith
  have am := Real.geom_mean_le_arith_mean2_weighted w1 w2 (p₁ := 2 * e / (1 - 2 * g)) (p₂ := 2 * (1 - e) / (1 + 2 * g)) (by positivity) (by positivity) (by ring)
  have hle : (1 - θ) / 2 * (2 * e / (1 - 2 * g)) + (1 + θ) / 2 * (2 * (1 - e) / (1 + 2 * g)) ≤ 1 := by
    have e1 : (1 - θ) / 2 * (2 * e / (1 - 2 * g)) + (1 + θ) / 2 * (2 * (1 - e) / (1 + 2 * g)) =
        ((1 - θ) * e * (1 + 2 * g) + (1 + θ) * (1 - e) * (1 - 2 * g)) / ((1 - 2 * g) * (1 + 2 * g)) := by
      field_simp
    rw [e1, div_le_one (by positivity)]
    nlinarith [mul_nonneg (sub_nonneg.2 he) (sub_nonneg.2 hθ)]
  rw [Real.div_rpow (by positivity) hs.le, Real.div_rpow (by positivity) hg1.le, Real.mul_rpow (by norm_num) he0.le, Real.mul_rpow (by norm_num) h1e.le] at am
  have h2 : (2 : ℝ) ^ ((1 - θ) / 2) * 2 ^ ((1 + θ) / 2) = 2 := by
    rw [← Real.rpow_add (by norm_num), show (1 - θ) / 2 + (1 + θ) / 2 = 1 by ring, Real.rpow_one]
  have p1 : 0 < (1 - 2 * g) ^ ((1 - θ) / 2) := Real.rpow_pos_of_pos hs _
  have p2 : 0 < (1 + 2 * g) ^ ((1 + θ) / 2) := Real.rpow_pos_of_pos hg1 _
  have h3 := am.trans hle
  rw [div_mul_div_comm, div_le_one (by positivity)] at h3
  calc 2 * e ^ ((1 - θ) / 2) * (1 - e) ^ ((1 + θ) / 2) = 2 ^ ((1 - θ) / 2) * e ^ ((1 - θ) / 2) * (2 ^ ((1 + θ) / 2) * (1 - e) ^ ((1 + θ) / 2)) := by
        rw [show ∀ a b c d : ℝ, a * b * (c * d) = a * c * b * d by intros; ring, h2]
    _ ≤ _ := h3

/-- C305: with the default learner, if every tree has a weighted error of at most `1/2 - g` (and at least `EPSILON`), the fraction of training samples with margin at most `θ ≤ 2 g`
falls exponentially with the number of rounds. -/
theorem C305_rate (hn : 0 < n) (hm : 0 < m) (x : Fin n → (Fin m → ℝ)) (y : Fin n → Int) (hy : ∀ i, y i = 1 ∨ y i = -1) (k : Nat) (hk : 0 < k)
    (rs : List (Round (Fin m → ℝ) n)) (h : fit (treeLearner x y) x y k = .ok rs) (g θ : ℝ) (hg0 : 0 < g) (hg : g < 1 / 2) (hθ0 : -1 ≤ θ) (hθ : θ ≤ 2 * g)
    (hw : ∀ r ∈ rs, EPS ≤ weightedError r.dist x y r.h ∧ weightedError r.dist x y r.h ≤ 1 / 2 - g) :
    ∃ l : List ℝ, rs.map Round.alpha = l.map (fun a : ℝ => (a : WithBot ℝ)) ∧ 0 < l.sum ∧
      (lowMargins ((rs.map Round.h).zip l) x y θ : ℝ) / n ≤ ((1 - 2 * g) ^ ((1 - θ) / 2) * (1 + 2 * g) ^ ((1 + θ) / 2)) ^ rs.length := by
  obtain ⟨h1, -, h3, -⟩ := loop_inv k _ rs (uniform_dist hn) h
  have he : ∀ r ∈ rs, EPS ≤ r.err ∧ r.err ≤ 1 / 2 - g := fun r hr => by rw [(h1 r hr).2.2.1]; exact hw r hr
  obtain ⟨l, hl, -, hs⟩ := reals_of_le (rs := rs) fun r hr => ⟨(h1 r hr).2.2.2, by linarith [(he r hr).2]⟩
  have hs' : 0 < l.sum := by
    obtain ⟨r, hr⟩ := List.exists_mem_of_ne_nil rs (h3 hk)
    exact hs ⟨r, hr, by linarith [(he r hr).2]⟩
  refine ⟨l, hl, hs', (C305_margins hn _ x y k hy (fun D f hf i => treeLearner_pm x y hm D f hf _) rs h l hl hs' θ).trans ?_⟩
  clear h h1 h3 hw hl hs hs' l
  induction rs with
  | nil => simp
  | cons r rs ih =>
    obtain ⟨e1, e2⟩ := he r List.mem_cons_self
    rw [List.map_cons, List.prod_cons, List.length_cons, pow_succ', max_eq_left e1]
    have hp := eps_pos_m
    have f0 : ∀ q : Round (Fin m → ℝ) n, q ∈ rs → 0 ≤ 2 * (max q.err EPS) ^ ((1 - θ) / 2) * (1 - q.err) ^ ((1 + θ) / 2) := fun q hq => by
      have := (he q (List.mem_cons_of_mem _ hq)).2
      have h1 : 0 ≤ max q.err EPS := hp.le.trans (le_max_right _ _)
      have h2 : 0 ≤ 1 - q.err := by linarith
      positivity
    refine mul_le_mul (margin_factor_le hg hθ hθ0 (hp.trans_le e1) e2) (ih fun q hq => he q (List.mem_cons_of_mem _ hq)) ?_ ?_
    · refine List.prod_nonneg fun a ha => ?_
      obtain ⟨q, hq, rfl⟩ := List.mem_map.1 ha
      exact f0 q hq
    · have a1 : 0 ≤ 1 - 2 * g := by linarith
      have a2 : 0 ≤ 1 + 2 * g := by linarith
      positivity

/-- C305: with enough rounds every training sample has a margin above `θ`. -/
theorem C305_all_margins (hn : 0 < n) (hm : 0 < m) (x : Fin n → (Fin m → ℝ)) (y : Fin n → Int) (hy : ∀ i, y i = 1 ∨ y i = -1) (k : Nat) (hk : 0 < k)
    (rs : List (Round (Fin m → ℝ) n)) (h : fit (treeLearner x y) x y k = .ok rs) (g θ : ℝ) (hg0 : 0 < g) (hg : g < 1 / 2) (hθ0 : -1 ≤ θ) (hθ : θ ≤ 2 * g)
    (hw : ∀ r ∈ rs, EPS ≤ weightedError r.dist x y r.h ∧ weightedError r.dist x y r.h ≤ 1 / 2 - g)
    (hlen : n * ((1 - 2 * g) ^ ((1 - θ) / 2) * (1 + 2 * g) ^ ((1 + θ) / 2)) ^ rs.length < 1) :
    ∃ l : List ℝ, rs.map Round.alpha = l.map (fun a : ℝ => (a : WithBot ℝ)) ∧ ∀ i, θ < margin ((rs.map Round.h).zip l) (x i) (y i) := by
  obtain ⟨l, hl, -, hb⟩ := C305_rate hn hm x y hy k hk rs h g θ hg0 hg hθ0 hθ hw
  refine ⟨l, hl, ?_⟩
  have hnR : (0 : ℝ) < n := by exact_mod_cast hn
  rw [div_le_iff₀ hnR] at hb
  have h1 : (lowMargins ((rs.map Round.h).zip l) x y θ : ℝ) < 1 := by linarith
  have h0 : lowMargins ((rs.map Round.h).zip l) x y θ = 0 := by
    have : lowMargins ((rs.map Round.h).zip l) x y θ < 1 := by exact_mod_cast h1
    omega
  unfold lowMargins at h0
  rw [Finset.card_eq_zero, Finset.filter_eq_empty_iff] at h0
  exact fun i => not_le.1 (h0 (Finset.mem_univ i))

/-- The hypotheses of the first theorem are met: a learner that always answers +1, labels +1, +1, -1 and one round. -/
example : ∃ rs : List (Round Unit 3), fit (fun _ => .ok fun _ => 1) (fun _ => ()) ![1, 1, -1] 1 = .ok rs ∧
    ∃ l : List ℝ, rs.map Round.alpha = l.map (fun a : ℝ => (a : WithBot ℝ)) ∧ 0 < l.sum := by
  obtain ⟨rs, h⟩ := C32_completes (n := 3) (by norm_num) (fun _ => .ok fun _ => 1) (fun _ => ()) ![1, 1, -1] 1 (fun _ _ => ⟨_, rfl⟩)
  obtain ⟨h1, h2, h3, h4⟩ := loop_inv 1 _ rs (uniform_dist (by norm_num)) h
  rcases rs with _ | ⟨r, rs⟩
  · exact absurd rfl (h3 (by norm_num))
  have hrs : rs = [] := by
    have : rs.length = 0 := by simpa using h2
    exact List.eq_nil_of_length_eq_zero this
  subst hrs
  obtain ⟨-, hh, he, ha⟩ := h1 r (by simp)
  have hd := h4 r rfl
  simp only [Except.ok.injEq] at hh
  rw [hd, ← hh] at he
  have e3 : r.err = 1 / 3 := by rw [he]; unfold weightedError; rw [Finset.sum_filter]; simp [Fin.sum_univ_three]
  obtain ⟨l, h5, -, h6⟩ := reals_of_le (rs := [r]) fun r' hr' => by
    rw [List.mem_singleton] at hr'
    subst hr'
    exact ⟨ha, by rw [e3]; norm_num⟩
  exact ⟨_, h, l, h5, h6 ⟨r, by simp, by rw [e3]; norm_num⟩⟩

/-- The base of the exponential bound is below 1: with `g = 1/4` and `θ = 1/8`. -/
example : (1 - 2 * (1 / 4) : ℝ) ^ ((1 - 1 / 8 : ℝ) / 2) * (1 + 2 * (1 / 4)) ^ ((1 + 1 / 8 : ℝ) / 2) < 1 := by
  have e : ((1 - 2 * (1 / 4) : ℝ) ^ ((1 - 1 / 8 : ℝ) / 2) * (1 + 2 * (1 / 4)) ^ ((1 + 1 / 8 : ℝ) / 2)) ^ (16 : ℕ) = (1 / 2) ^ 7 * (3 / 2) ^ 9 := by
    rw [mul_pow, ← Real.rpow_natCast, ← Real.rpow_natCast, ← Real.rpow_mul (by norm_num), ← Real.rpow_mul (by norm_num)]
    norm_num
  refine lt_of_pow_lt_pow_left₀ 16 (by norm_num) ?_
  rw [e]
  norm_num

end CML.Ada
