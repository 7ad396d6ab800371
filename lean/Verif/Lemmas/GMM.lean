import Verif.Spec.GMM
import Mathlib.Algebra.Order.BigOperators.Group.Finset
import Mathlib.Algebra.BigOperators.Ring.Finset
import Mathlib.Algebra.BigOperators.Field
import Mathlib.Tactic.Ring
import Mathlib.Tactic.Linarith
import Mathlib.Tactic.FieldSimp
import Mathlib.Tactic.Positivity

set_option linter.unusedSectionVars false

namespace CML.GMM
open Finset

variable {K : Type*} [Field K] [LinearOrder K] [IsStrictOrderedRing K] {n k d : Nat}

theorem posterior_inv {dens : Density K d} {x : Fin n → Fin d → K} {P : Params K k d} {g}
    (h : posterior dens x P = some g) :
    ∃ p : Fin n → Fin k → K, (∀ j i, dens (x j) (P.mu i) (P.sigma i) = some (p j i)) ∧
      (∀ j, ∑ i, P.alpha i * p j i ≠ 0) ∧ g = fun j i => P.alpha i * p j i / ∑ i, P.alpha i * p j i := by
  unfold posterior at h
  split at h
  · simp at h
  · rename_i h1
    simp only at h
    split at h
    · simp at h
    · rename_i h2
      injection h with h
      refine ⟨fun j i => (dens (x j) (P.mu i) (P.sigma i)).getD 0, ?_, ?_, ?_⟩
      · intro j i
        cases hd : dens (x j) (P.mu i) (P.sigma i) with
        | none => exact absurd ⟨j, i, hd⟩ h1
        | some v => simp [hd]
      · intro j hj; exact h2 ⟨j, hj⟩
      · rw [← h]; rfl

theorem posterior_rows {dens : Density K d} (hd : DensOK dens) {x : Fin n → Fin d → K} {P : Params K k d} {g}
    (ha : ∀ i, 0 ≤ P.alpha i) (h : posterior dens x P = some g) : ∀ j, IsProb (g j) := by
  obtain ⟨p, hp, hne, rfl⟩ := posterior_inv h
  intro j
  have hpos : ∀ i, 0 ≤ P.alpha i * p j i := fun i => mul_nonneg (ha i) (hd _ _ _ _ (hp j i)).le
  refine ⟨fun i => div_nonneg (hpos i) (sum_nonneg fun i _ => hpos i), ?_⟩
  rw [← sum_div, div_self (hne j)]

theorem coef_prob {g : Fin n → Fin k → K} (hn : n ≠ 0) (hg : ∀ j, IsProb (g j)) :
    IsProb (calculateMixtureCoefficient g) := by
  have hn' : (n : K) ≠ 0 := Nat.cast_ne_zero.2 hn
  refine ⟨fun i => ?_, ?_⟩
  · unfold calculateMixtureCoefficient
    have : 0 ≤ ∑ j, g j i := sum_nonneg fun j _ => (hg j).1 i
    positivity
  · unfold calculateMixtureCoefficient
    rw [← mul_sum, sum_comm]
    simp only [(hg _).2]
    simp [hn']

theorem means_convex {x : Fin n → Fin d → K} {g : Fin n → Fin k → K} (hg : ∀ j i, 0 ≤ g j i) (i : Fin k)
    (hs : ∑ j, g j i ≠ 0) : IsConvexComb x (calculateMeans x g i) := by
  refine ⟨fun j => g j i / ∑ j, g j i, ⟨fun j => div_nonneg (hg j i) (sum_nonneg fun j _ => hg j i), ?_⟩, fun l => ?_⟩
  · rw [← sum_div, div_self hs]
  · unfold calculateMeans
    rw [sum_div]
    exact sum_congr rfl fun j _ => by ring

theorem cov_psd {x : Fin n → Fin d → K} {mu : Fin k → Fin d → K} {g : Fin n → Fin k → K} (hg : ∀ j i, 0 ≤ g j i)
    (i : Fin k) : IsPSD (calculateCovariances x mu g i) := by
  refine ⟨fun a b => ?_, fun v => ?_⟩
  · unfold calculateCovariances
    congr 1
    exact sum_congr rfl fun j _ => by ring
  · have : ∑ a, ∑ b, v a * calculateCovariances x mu g i a b * v b =
        (∑ j, g j i * (∑ a, v a * (x j a - mu i a)) ^ 2) / ∑ j, g j i := by
      unfold calculateCovariances
      have e : ∀ a b, v a * ((∑ j, g j i * ((x j a - mu i a) * (x j b - mu i b))) / ∑ j, g j i) * v b =
          (∑ j, g j i * ((v a * (x j a - mu i a)) * (v b * (x j b - mu i b)))) / ∑ j, g j i := by
        intro a b
        rw [mul_div_assoc', div_mul_eq_mul_div, mul_sum, sum_mul]
        congr 1
        exact sum_congr rfl fun j _ => by ring
      simp only [e]
      simp only [← sum_div]
      congr 1
      rw [sum_congr rfl fun a _ => sum_comm, sum_comm]
      refine sum_congr rfl fun j _ => ?_
      rw [pow_two, sum_mul_sum, mul_sum]
      exact sum_congr rfl fun a _ => (mul_sum _ _ _).symm
    rw [this]
    exact div_nonneg (sum_nonneg fun j _ => mul_nonneg (hg j i) (sq_nonneg _)) (sum_nonneg fun j _ => hg j i)

theorem emStep_inv {dens : Density K d} {x : Fin n → Fin d → K} {P Q : Params K k d} (h : emStep dens x P = some Q) :
    ∃ g, posterior dens x P = some g ∧ (∀ i, ∑ j, g j i ≠ 0) ∧ n ≠ 0 ∧ Q.mu = calculateMeans x g ∧
      Q.sigma = calculateCovariances x Q.mu g ∧ Q.alpha = calculateMixtureCoefficient g := by
  unfold emStep at h
  split at h
  · simp at h
  · rename_i g hg
    split at h
    · simp at h
    · rename_i h1
      injection h with h
      subst h
      refine ⟨g, hg, fun i hi => h1 (Or.inl ⟨i, hi⟩), fun h0 => h1 (Or.inr h0), rfl, rfl, rfl⟩

theorem steps_of_fitLoop (dens : Density K d) (x : Fin n → Fin d → K) (tol : K) (e : Nat) :
    ∀ P0 P : Params K k d, fitLoop dens x tol e P0 = some P → ∃ t ≤ e, Steps dens x P0 t P := by
  induction e with
  | zero => intro P0 P h; simp [fitLoop] at h; subst h; exact ⟨0, le_refl _, .zero⟩
  | succ e ih =>
    intro P0 P h
    simp only [fitLoop] at h
    split at h
    · simp at h
    · rename_i Q hQ
      split at h
      · obtain ⟨t, ht, hs⟩ := ih Q P h
        refine ⟨t + 1, by omega, ?_⟩
        have key : ∀ t P, Steps dens x Q t P → Steps dens x P0 (t + 1) P := by
          intro t P hs
          induction hs with
          | zero => exact .succ 0 P0 Q .zero hQ
          | succ t P R _ hr ih' => exact .succ _ P R ih' hr
        exact key t P hs
      · injection h with h; subst h; exact ⟨0, by omega, .zero⟩

theorem steps_prob {dens : Density K d} (hd : DensOK dens) {x : Fin n → Fin d → K} {P0 P : Params K k d} {t}
    (h0 : IsProb P0.alpha) (h : Steps dens x P0 t P) : IsProb P.alpha := by
  induction h with
  | zero => exact h0
  | succ t P Q _ hs ih =>
    obtain ⟨g, hg, _, hn, _, _, ha⟩ := emStep_inv hs
    rw [ha]
    exact coef_prob hn (posterior_rows hd ih.1 hg)

end CML.GMM
