import Verif.Spec.SVMSubset
import Verif.Props.SVMOpt

set_option linter.unusedSectionVars false

/-! # Property C308: only the support vectors matter -/

namespace CML.SMO
open Finset

variable {K : Type*} [Field K] [LinearOrder K] [IsStrictOrderedRing K] {n k : Nat}

lemma sum_only {σ : Fin k → Fin n} (hσ : Function.Injective σ) (f : Fin n → K) (h : ∀ i, (∀ j, σ j ≠ i) → f i = 0) : ∑ i, f i = ∑ j, f (σ j) := by
  rw [← Finset.sum_image (s := univ) (g := σ) (f := f) fun a _ b _ e => hσ e]
  symm
  refine Finset.sum_subset (Finset.subset_univ _) fun i _ hi => h i fun j hj => hi ?_
  rw [Finset.mem_image]
  exact ⟨j, Finset.mem_univ _, hj⟩

lemma feasible_only (p : Problem K n) {σ : Fin k → Fin n} (hσ : Function.Injective σ) (a : Fin n → K) (ha : ∀ i, (∀ j, σ j ≠ i) → a i = 0) (h : DualFeasible p a) :
    DualFeasible (p.only σ) fun j => a (σ j) := by
  refine ⟨fun j => h.1 (σ j), ?_⟩
  rw [← h.2, sum_only hσ _ fun i hi => by rw [ha i hi, zero_mul]]
  rfl

lemma dual_only (p : Problem K n) {σ : Fin k → Fin n} (hσ : Function.Injective σ) (a : Fin n → K) (ha : ∀ i, (∀ j, σ j ≠ i) → a i = 0) :
    dualObjective (p.only σ) (fun j => a (σ j)) = dualObjective p a := by
  unfold dualObjective
  rw [sum_only hσ a ha, sum_only hσ (fun k => ∑ l, a k * a l * p.y k * p.y l * p.gram k l) fun i hi => by simp [ha i hi]]
  congr 2
  refine Finset.sum_congr rfl fun j _ => ?_
  rw [sum_only hσ (fun l => a (σ j) * a l * p.y (σ j) * p.y l * p.gram (σ j) l) fun i hi => by simp [ha i hi]]
  rfl

/-- Multipliers of the chosen samples, 0 for the others. -/
noncomputable def spread (σ : Fin k → Fin n) (b : Fin k → K) : Fin n → K := fun i => by
  classical exact if h : ∃ j, σ j = i then b h.choose else 0

lemma spread_apply {σ : Fin k → Fin n} (hσ : Function.Injective σ) (b : Fin k → K) (j : Fin k) : spread σ b (σ j) = b j := by
  unfold spread
  have h : ∃ j', σ j' = σ j := ⟨j, rfl⟩
  rw [dif_pos h, hσ h.choose_spec]

lemma spread_zero {σ : Fin k → Fin n} (b : Fin k → K) (i : Fin n) (hi : ∀ j, σ j ≠ i) : spread σ b i = 0 := by
  unfold spread
  rw [dif_neg]
  rintro ⟨j, hj⟩
  exact hi j hj

lemma feasible_spread (p : Problem K n) (hC : 0 ≤ p.C) {σ : Fin k → Fin n} (hσ : Function.Injective σ) (b : Fin k → K) (h : DualFeasible (p.only σ) b) : DualFeasible p (spread σ b) := by
  refine ⟨fun i => ?_, ?_⟩
  · by_cases hi : ∃ j, σ j = i
    · obtain ⟨j, rfl⟩ := hi
      rw [spread_apply hσ]
      exact h.1 j
    · rw [spread_zero b i (by simpa using hi)]
      exact ⟨le_rfl, hC⟩
  · rw [sum_only hσ _ fun i hi => by rw [spread_zero b i hi, zero_mul], ← h.2]
    refine Finset.sum_congr rfl fun j _ => ?_
    rw [spread_apply hσ]
    rfl

/-- **C308.** If multipliers are optimal up to the tolerance and all their support vectors are among the samples `σ 0`, `σ 1`, …, they are optimal up to the tolerance for the training
set with these samples only, and define the same decision function. -/
theorem C308_leave_out (p : Problem K n) (hp : p.Valid) (alphas : Fin n → K) (h : NearOptimal p alphas) (σ : Fin k → Fin n) (hσ : Function.Injective σ)
    (hsv : ∀ i, 0 < alphas i → ∃ j, σ j = i) :
    NearOptimal (p.only σ) (fun j => alphas (σ j)) ∧
      ∀ (kernel : Fin n → K) (b : K), ∑ i, alphas i * p.y i * kernel i + b = ∑ j, alphas (σ j) * p.y (σ j) * kernel (σ j) + b := by
  have ha : ∀ i, (∀ j, σ j ≠ i) → alphas i = 0 := by
    intro i hi
    by_contra h0
    obtain ⟨j, hj⟩ := hsv i (lt_of_le_of_ne (h.1.1 i).1 (Ne.symm h0))
    exact hi j hj
  refine ⟨⟨feasible_only p hσ alphas ha h.1, fun betas hb => ?_⟩, fun kernel b => ?_⟩
  · have h1 := h.2 (spread σ betas) (feasible_spread p hp.C_nonneg hσ betas hb)
    have e1 : dualObjective p (spread σ betas) = dualObjective (p.only σ) betas := by
      rw [← dual_only p hσ (spread σ betas) fun i hi => spread_zero betas i hi]
      congr 1
      funext j
      exact spread_apply hσ betas j
    have e2 : ∑ i, |spread σ betas i - alphas i| = ∑ j, |betas j - alphas (σ j)| := by
      rw [sum_only hσ _ fun i hi => by rw [spread_zero betas i hi, ha i hi, sub_self, abs_zero]]
      refine Finset.sum_congr rfl fun j _ => ?_
      rw [spread_apply hσ]
    rw [e1, e2, ← dual_only p hσ alphas ha] at h1
    exact h1
  · rw [sum_only hσ _ fun i hi => by rw [ha i hi, zero_mul, zero_mul]]

/-- C308: samples beyond the margin can be added: if the multipliers of the samples `σ 0`, `σ 1`, … pass the KKT tests and every other sample is on its side of the margin (up to the
tolerance), the same multipliers, with 0 for the others, are optimal up to the tolerance for all samples. -/
theorem C308_add (p : Problem K n) (hp : p.Valid) (hK : GramPSD p) (σ : Fin k → Fin n) (hσ : Function.Injective σ) (alphas : Fin n → K) (b : K)
    (ha : ∀ i, (∀ j, σ j ≠ i) → alphas i = 0) (hf : DualFeasible (p.only σ) fun j => alphas (σ j))
    (hkkt : ∀ j, KKTWithin (p.only σ) (fun j => alphas (σ j)) (trueError (p.only σ) (fun j => alphas (σ j)) b j) j)
    (hm : ∀ i, (∀ j, σ j ≠ i) → 1 - p.tol ≤ p.y i * (∑ j, alphas (σ j) * p.y (σ j) * p.gram (σ j) i + b)) : NearOptimal p alphas := by
  have hdec : ∀ i, decision p alphas b i = ∑ j, alphas (σ j) * p.y (σ j) * p.gram (σ j) i + b := fun i => by
    unfold decision
    rw [sum_only hσ _ fun i' hi' => by rw [ha i' hi', zero_mul, zero_mul]]
  have hfe : DualFeasible p alphas := by
    refine ⟨fun i => ?_, ?_⟩
    · by_cases hi : ∃ j, σ j = i
      · obtain ⟨j, rfl⟩ := hi
        exact hf.1 j
      · rw [ha i (by simpa using hi)]
        exact ⟨le_rfl, hp.C_nonneg⟩
    · rw [sum_only hσ _ fun i hi => by rw [ha i hi, zero_mul]]
      exact hf.2
  refine C227_optimal_partial p hp hK alphas b hfe fun i => ?_
  by_cases hi : ∃ j, σ j = i
  · obtain ⟨j, rfl⟩ := hi
    have e : trueError p alphas b (σ j) = trueError (p.only σ) (fun j => alphas (σ j)) b j := by
      unfold trueError
      rw [hdec]
      rfl
    rw [e]
    exact hkkt j
  · have hi' : ∀ j, σ j ≠ i := by simpa using hi
    have h1 := hm i hi'
    have hy : p.y i * p.y i = 1 := by rcases hp.label i with h | h <;> rw [h] <;> norm_num
    unfold KKTWithin trueError
    rw [hdec, ha i hi']
    refine ⟨fun _ => ?_, fun h => absurd h (lt_irrefl _)⟩
    rw [mul_sub, hy]
    linarith

/-- C308: and every sample whose multiplier is positive is needed: without it the multipliers violate the equality constraint. -/
theorem C308_support_needed (p : Problem K n) (hp : p.Valid) (alphas : Fin n → K) (h : DualFeasible p alphas) (i : Fin n) (hi : 0 < alphas i) :
    ¬ DualFeasible p (Function.update alphas i 0) := by
  rintro ⟨-, h2⟩
  have e : ∑ j, alphas j * p.y j - ∑ j, Function.update alphas i 0 j * p.y j = alphas i * p.y i := by
    rw [← Finset.sum_sub_distrib, Finset.sum_eq_single i]
    · simp
    · intro j _ hj
      rw [Function.update_of_ne hj, sub_self]
    · simp
  rw [h.2, h2, sub_zero] at e
  rcases hp.label i with hy | hy <;> rw [hy] at e <;> linarith

/-- Three samples on the line at 0, 2 and 5 with labels -1, 1, 1. -/
def threeSamples : Problem ℚ 3 := { y := ![-1, 1, 1], gram := fun i j => (![0, 2, 5] : Fin 3 → ℚ) i * (![0, 2, 5] : Fin 3 → ℚ) j, C := 1, tol := 1 / 1000 }

/-- The hypotheses of the theorems are met: the multipliers 1/2, 1/2, 0 with threshold -1 are optimal, and the third sample can be left out and added. -/
example : NearOptimal threeSamples ![1 / 2, 1 / 2, 0] ∧ NearOptimal (threeSamples.only ![0, 1]) fun j => (![1 / 2, 1 / 2, 0] : Fin 3 → ℚ) (![0, 1] j) := by
  have hv : threeSamples.Valid := ⟨by decide +kernel, by decide +kernel⟩
  have hK : GramPSD threeSamples := by
    refine ⟨by decide +kernel, fun v => ?_⟩
    have : ∑ k, ∑ l, v k * v l * threeSamples.gram k l = (2 * v 1 + 5 * v 2) ^ 2 := by
      simp [Fin.sum_univ_three, threeSamples]
      ring
    rw [this]
    exact sq_nonneg _
  have hf : DualFeasible (threeSamples.only ![0, 1]) fun j => (![1 / 2, 1 / 2, 0] : Fin 3 → ℚ) (![0, 1] j) := by unfold DualFeasible; decide +kernel
  have h := C308_add threeSamples hv hK ![0, 1] (by decide) ![1 / 2, 1 / 2, 0] (-1) (by decide +kernel) hf (by unfold KKTWithin; decide +kernel) (by decide +kernel)
  exact ⟨h, (C308_leave_out threeSamples hv _ h ![0, 1] (by decide) (by decide +kernel)).1⟩

end CML.SMO
