import Verif.Spec.Ensemble
import Mathlib.Algebra.BigOperators.Ring.Finset
import Mathlib.Algebra.BigOperators.Field
import Mathlib.Algebra.Order.BigOperators.Group.Finset
import Mathlib.Tactic.Linarith
import Mathlib.Tactic.Ring
import Mathlib.Tactic.FieldSimp
import Mathlib.Tactic.Positivity
import Mathlib.Tactic.NormNum
import Mathlib.Analysis.SpecialFunctions.Sqrt

set_option linter.unusedSectionVars false

/-! # Lemmas on the ensembles -/

namespace CML.Ada

open Finset

variable {X : Type*} {n : Nat}

lemma EPS_pos : 0 < EPS := by unfold EPS; positivity

lemma EPS_lt_half : EPS < 1 / 2 := by unfold EPS; norm_num

lemma errorOf_eq (D : Fin n → ℝ) (x : Fin n → X) (y : Fin n → Int) (h : X → Int) :
    errorOf D (fun i => h (x i)) y = weightedError D x y h := by
  unfold errorOf weightedError
  rw [Finset.sum_filter]

lemma errorOf_nonneg {D : Fin n → ℝ} (hD : IsDistribution D) (p y : Fin n → Int) : 0 ≤ errorOf D p y := by
  apply Finset.sum_nonneg; intro i _; split
  · exact (hD.1 i).le
  · exact le_rfl

lemma errorOf_le_one {D : Fin n → ℝ} (hD : IsDistribution D) (p y : Fin n → Int) : errorOf D p y ≤ 1 := by
  rw [← hD.2]
  apply Finset.sum_le_sum; intro i _; split
  · exact le_rfl
  · exact (hD.1 i).le

lemma sum_scaled {D : Fin n → ℝ} (hD : IsDistribution D) (p y : Fin n → Int) (a : ℝ) :
    ∑ i, scaled D p y a i = (1 - errorOf D p y) * Real.exp (-a) + errorOf D p y * Real.exp a := by
  have h1 : 1 - errorOf D p y = ∑ i, (if p i ≠ y i then 0 else D i) := by
    rw [← hD.2, errorOf, ← Finset.sum_sub_distrib]
    apply Finset.sum_congr rfl; intro i _; split <;> simp
  rw [h1, errorOf, Finset.sum_mul, Finset.sum_mul, ← Finset.sum_add_distrib]
  apply Finset.sum_congr rfl
  intro i _
  unfold scaled
  by_cases h : p i = y i <;> simp [h]

lemma scaled_pos {D : Fin n → ℝ} (hD : IsDistribution D) (p y : Fin n → Int) (a : ℝ) (i : Fin n) : 0 < scaled D p y a i :=
  mul_pos (hD.1 i) (Real.exp_pos _)

lemma sum_scaled_pos {D : Fin n → ℝ} (hD : IsDistribution D) (p y : Fin n → Int) (a : ℝ) : 0 < ∑ i, scaled D p y a i := by
  have hne : (univ : Finset (Fin n)).Nonempty := by
    rw [Finset.nonempty_iff_ne_empty]; intro h
    have := hD.2; rw [h] at this; simp at this
  exact Finset.sum_pos (fun i _ => scaled_pos hD p y a i) hne

lemma reweight_dist {D : Fin n → ℝ} (hD : IsDistribution D) (p y : Fin n → Int) (a : ℝ) :
    IsDistribution fun i => scaled D p y a i / ∑ j, scaled D p y a j := by
  have hp := sum_scaled_pos hD p y a
  exact ⟨fun i => div_pos (scaled_pos hD p y a i) hp, by rw [← Finset.sum_div]; exact div_self hp.ne'⟩

lemma uniform_dist (hn : 0 < n) : IsDistribution fun _ : Fin n => 1 / (n : ℝ) := by
  have : (0 : ℝ) < n := by exact_mod_cast hn
  refine ⟨fun _ => by positivity, ?_⟩
  simp; field_simp

/-- The coefficient, for an error below 1. -/
lemma alphaOf_lt {e : ℝ} (h : e < 1) : alphaOf e = ((Real.log ((1 - e) / max e EPS) / 2 : ℝ) : WithBot ℝ) := by
  unfold alphaOf; rw [if_neg (by linarith)]

lemma exp_half_log {u : ℝ} (h : 0 < u) : Real.exp (Real.log u / 2) = √u := by
  symm
  rw [Real.sqrt_eq_iff_mul_self_eq h.le (Real.exp_pos _).le, ← Real.exp_add, add_halves, Real.exp_log h]

/-- Exponentials of the coefficient. -/
lemma exp_alpha {e : ℝ} (h1 : e < 1) :
    Real.exp (Real.log ((1 - e) / max e EPS) / 2) = √((1 - e) * max e EPS) / max e EPS ∧
    (1 - e) * Real.exp (-(Real.log ((1 - e) / max e EPS) / 2)) = √((1 - e) * max e EPS) := by
  have hm : 0 < max e EPS := lt_max_of_lt_right EPS_pos
  have h2 : 0 < 1 - e := by linarith
  have hA : Real.exp (Real.log ((1 - e) / max e EPS) / 2) = √((1 - e) * max e EPS) / max e EPS := by
    rw [exp_half_log (div_pos h2 hm), Real.sqrt_div h2.le, Real.sqrt_mul h2.le]
    rw [div_eq_div_iff (Real.sqrt_pos.2 hm).ne' hm.ne', mul_assoc, Real.mul_self_sqrt hm.le]
  refine ⟨hA, ?_⟩
  rw [Real.exp_neg, hA]
  have hs : 0 < √((1 - e) * max e EPS) := Real.sqrt_pos.2 (mul_pos h2 hm)
  rw [inv_div, mul_div_assoc', div_eq_iff hs.ne', Real.mul_self_sqrt (mul_pos h2 hm).le]

/-- The normaliser of a round. -/
lemma normaliser_le {D : Fin n → ℝ} (hD : IsDistribution D) (p y : Fin n → Int) (h1 : errorOf D p y < 1) :
    ∑ i, scaled D p y (Real.log ((1 - errorOf D p y) / max (errorOf D p y) EPS) / 2) i ≤
      2 * √(max (errorOf D p y) EPS * (1 - errorOf D p y)) := by
  rw [sum_scaled hD]
  set e := errorOf D p y
  obtain ⟨hA, hB⟩ := exp_alpha h1
  rw [hA, hB, mul_comm (max e EPS) (1 - e)]
  have hm : 0 < max e EPS := lt_max_of_lt_right EPS_pos
  have : e * (√((1 - e) * max e EPS) / max e EPS) ≤ √((1 - e) * max e EPS) := by
    rw [mul_div_assoc', div_le_iff₀ hm, mul_comm]
    exact mul_le_mul_of_nonneg_left (le_max_left _ _) (Real.sqrt_nonneg _)
  linarith

/-- Reweighting makes the learner uninformative. -/
lemma reweight_half {D : Fin n → ℝ} (hD : IsDistribution D) (p y : Fin n → Int) (h0 : EPS ≤ errorOf D p y)
    (h1 : errorOf D p y < 1) :
    errorOf (fun i => scaled D p y (Real.log ((1 - errorOf D p y) / max (errorOf D p y) EPS) / 2) i /
      ∑ j, scaled D p y (Real.log ((1 - errorOf D p y) / max (errorOf D p y) EPS) / 2) j) p y = 1 / 2 := by
  have hZ := sum_scaled hD p y (Real.log ((1 - errorOf D p y) / max (errorOf D p y) EPS) / 2)
  obtain ⟨hA, hB⟩ := exp_alpha h1
  have hm : max (errorOf D p y) EPS = errorOf D p y := max_eq_left h0
  have he : 0 < errorOf D p y := lt_of_lt_of_le EPS_pos h0
  have h2 : ∀ (a Z : ℝ), errorOf (fun i => scaled D p y a i / Z) p y = errorOf D p y * Real.exp a / Z := by
    intro a Z
    unfold errorOf
    rw [Finset.sum_mul, Finset.sum_div]
    apply Finset.sum_congr rfl; intro i _
    by_cases h : p i = y i <;> simp [h, scaled]
  rw [h2, hZ, hB, hA, hm, mul_div_cancel₀ _ he.ne']
  have : 0 < √((1 - errorOf D p y) * errorOf D p y) := Real.sqrt_pos.2 (mul_pos (by linarith) he)
  generalize √((1 - errorOf D p y) * errorOf D p y) = s at this
  field_simp; norm_num

/-- The training loop unfolded once. -/
lemma loop_succ {learn : (Fin n → ℝ) → Except PyErr (X → Int)} {x : Fin n → X} {y : Fin n → Int} {k : Nat} {D : Fin n → ℝ}
    {rs : List (Round X n)} (hD : IsDistribution D) (h : loop learn x y (k + 1) (some D) = .ok rs) :
    ∃ f, learn D = .ok f ∧ ∃ tl, rs = ⟨D, f, weightedError D x y f, alphaOf (weightedError D x y f)⟩ :: tl ∧
      (((1 / 2 < weightedError D x y f ∨ weightedError D x y f < EPS) ∧ tl = []) ∨
       (EPS ≤ weightedError D x y f ∧ weightedError D x y f ≤ 1 / 2 ∧ ∃ D', IsDistribution D' ∧
          D' = (fun i => scaled D (fun i => f (x i)) y
              (Real.log ((1 - weightedError D x y f) / max (weightedError D x y f) EPS) / 2) i /
            ∑ j, scaled D (fun i => f (x i)) y
              (Real.log ((1 - weightedError D x y f) / max (weightedError D x y f) EPS) / 2) j) ∧
          loop learn x y k (some D') = .ok tl)) := by
  unfold loop at h
  cases hl : learn D with
  | error e => rw [hl] at h; simp at h
  | ok f =>
    rw [hl] at h
    refine ⟨f, rfl, ?_⟩
    simp only [errorOf_eq D x y f] at h
    split at h
    · next hc =>
      simp only [Except.ok.injEq] at h
      exact ⟨[], h.symm, Or.inl ⟨hc, rfl⟩⟩
    · next hc =>
      push Not at hc
      rw [alphaOf_lt (by linarith [hc.1])] at h
      simp only [reweight] at h
      split at h
      · next tl htl =>
        simp only [Except.ok.injEq] at h
        refine ⟨tl, ?_, Or.inr ⟨hc.2, hc.1, _, reweight_dist hD _ y _, rfl, htl⟩⟩
        rw [← h, alphaOf_lt (by linarith [hc.1])]
      · simp at h

end CML.Ada
