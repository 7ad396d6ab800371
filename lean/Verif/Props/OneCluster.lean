import Verif.Spec.OneCluster
import Verif.Lemmas.KMeans
import Verif.Model.GMM
import Mathlib.Tactic.FieldSimp
import Mathlib.Tactic.NormNum

set_option linter.unusedSectionVars false

/-! # Property C264: one cluster, one component -/

namespace CML.GMM
open Finset

variable {K : Type*} [Field K] [LinearOrder K] [IsStrictOrderedRing K] {n d : Nat}

/-- The normal distribution fitted to the sample. -/
def fitted (x : Fin n → Fin d → K) : Params K 1 d := { mu := fun _ => sampleMean x, sigma := fun _ => sampleCov x, alpha := fun _ => 1 }

theorem normal_ne (fl : ℝ → ℝ) (u mu : Fin d → ℝ) (s : Fin d → Fin d → ℝ) (h : 0 < Matrix.det (Matrix.of s)) : ∃ p, normalDensity fl u mu s = some p ∧ p ≠ 0 := by
  simp only [normalDensity]
  rw [if_neg (not_le.2 h)]
  refine ⟨_, rfl, ?_⟩
  split
  · norm_num
  · assumption

theorem posterior_one {dens : Density K d} (x : Fin n → Fin d → K) (P : Params K 1 d) (ha : P.alpha 0 ≠ 0)
    (h : ∀ j, ∃ p, dens (x j) (P.mu 0) (P.sigma 0) = some p ∧ p ≠ 0) : posterior dens x P = some fun _ _ => 1 := by
  choose p hp hp0 using h
  have e0 : ∀ i : Fin 1, i = 0 := fun i => Subsingleton.elim _ _
  rw [posterior, if_neg (by rintro ⟨j, i, hi⟩; rw [e0 i, hp] at hi; cases hi)]
  have hm : ∀ j, mixtureDensity P.alpha (fun i => (dens (x j) (P.mu i) (P.sigma i)).getD 0) = P.alpha 0 * p j := fun j => by
    simp [mixtureDensity, hp]
  simp only [hm]
  rw [if_neg (by rintro ⟨j, hj⟩; exact mul_ne_zero ha (hp0 j) hj)]
  congr 1
  funext j i
  rw [e0 i, hp, Option.getD_some, div_self (mul_ne_zero ha (hp0 j))]

theorem emStep_one {dens : Density K d} (hn : 0 < n) (x : Fin n → Fin d → K) (P : Params K 1 d) (ha : P.alpha 0 ≠ 0)
    (h : ∀ j, ∃ p, dens (x j) (P.mu 0) (P.sigma 0) = some p ∧ p ≠ 0) : emStep dens x P = some (fitted x) := by
  have hn' : (n : K) ≠ 0 := by exact_mod_cast hn.ne'
  rw [emStep, posterior_one x P ha h]
  dsimp only
  rw [if_neg (by rintro (⟨i, hi⟩ | h0) <;> simp_all)]
  have hmu : calculateMeans x (fun _ (_ : Fin 1) => (1 : K)) = fun _ => sampleMean x := by
    funext i l; simp [calculateMeans, sampleMean]
  have hsi : calculateCovariances x (fun _ => sampleMean x) (fun _ (_ : Fin 1) => (1 : K)) = fun _ => sampleCov x := by
    funext i a b; simp [calculateCovariances, sampleCov]
  have hal : calculateMixtureCoefficient (fun (_ : Fin n) (_ : Fin 1) => (1 : K)) = fun _ => 1 := by
    funext i; simp [calculateMixtureCoefficient, hn']
  rw [hmu, hsi, hal]; rfl

theorem predict_one {dens : Density K d} (x : Fin n → Fin d → K) (P : Params K 1 d) (ha : P.alpha 0 ≠ 0)
    (h : ∀ j, ∃ p, dens (x j) (P.mu 0) (P.sigma 0) = some p ∧ p ≠ 0) : predict dens P x = some fun _ => some 0 := by
  rw [predict, posterior_one x P ha h]
  rfl

theorem differs_self (tol : K) (ht : 0 ≤ tol) (P : Params K 1 d) : ¬ differs tol P P := by
  rintro (⟨i, l, h⟩ | ⟨i, a, b, h⟩ | ⟨i, h⟩) <;> simp only [sub_self, abs_zero] at h <;> exact absurd ht (not_le.2 h)

/-- C264: the mixture of one component. Unless it starts within the tolerance of them, training ends with the mean and the covariance matrix of the
sample and weight 1, after one epoch or more, and puts all samples into component 0 - if that covariance matrix can be inverted; otherwise it
fails. -/
theorem C264_gmm (fl : ℝ → ℝ) (hn : 0 < n) (x : Fin n → Fin d → ℝ) (tol : ℝ) (ht : 0 ≤ tol) (e : Nat) (P : Params ℝ 1 d) (ha : P.alpha 0 ≠ 0)
    (hs : 0 < Matrix.det (Matrix.of (P.sigma 0))) :
    (differs tol P (fitted x) → 0 < Matrix.det (Matrix.of (sampleCov x)) → fit (normalDensity fl) x tol (e + 1) P = some (fitted x, fun _ => some 0)) ∧
    (differs tol P (fitted x) → Matrix.det (Matrix.of (sampleCov x)) ≤ 0 → fit (normalDensity fl) x tol (e + 1) P = none) ∧
    (¬ differs tol P (fitted x) → fit (normalDensity fl) x tol (e + 1) P = some (P, fun _ => some 0)) := by
  have hP := fun j => normal_ne fl (x j) (P.mu 0) (P.sigma 0) hs
  refine ⟨fun hd hc => ?_, fun hd hc => ?_, fun hd => ?_⟩
  · have hF := fun j => normal_ne fl (x j) ((fitted x).mu 0) ((fitted x).sigma 0) hc
    have hl : fitLoop (normalDensity fl) x tol e (fitted x) = some (fitted x) := by
      cases e with
      | zero => rfl
      | succ e => rw [fitLoop, emStep_one hn x (fitted x) one_ne_zero hF]; exact if_neg (differs_self tol ht _)
    rw [fit, fitLoop, emStep_one hn x P ha hP]
    dsimp only
    rw [if_pos hd, hl]
    dsimp only
    rw [predict_one x (fitted x) one_ne_zero hF]; rfl
  · have hnone : posterior (normalDensity fl) x (fitted x) = none := by
      exact if_pos ⟨⟨0, hn⟩, 0, if_pos hc⟩
    rw [fit, fitLoop, emStep_one hn x P ha hP]
    dsimp only
    rw [if_pos hd]
    cases e with
    | zero => rw [fitLoop]; dsimp only; rw [predict, hnone]; rfl
    | succ e => rw [fitLoop, emStep, hnone]
  · rw [fit, fitLoop, emStep_one hn x P ha hP]
    dsimp only
    rw [if_neg hd]
    dsimp only
    rw [predict_one x P ha hP]; rfl

/-- Two samples 0 and 2 and the default covariance 0.1. -/
example : ∃ (x : Fin 2 → Fin 1 → ℝ) (P : Params ℝ 1 1), P.alpha 0 ≠ 0 ∧ 0 < Matrix.det (Matrix.of (P.sigma 0)) ∧ differs (1 / 1000) P (fitted x) ∧
    0 < Matrix.det (Matrix.of (sampleCov x)) := by
  refine ⟨![![0], ![2]], ⟨fun _ => ![0], fun _ _ _ => 1 / 10, fun _ => 1⟩, one_ne_zero, by norm_num, .inl ⟨0, 0, ?_⟩, ?_⟩
  · simp [fitted, sampleMean]; norm_num
  · simp [sampleCov, sampleMean]; norm_num

end CML.GMM

namespace CML.KMeans
open Finset

variable {K : Type*} [Field K] [LinearOrder K] [IsStrictOrderedRing K] {d : Nat}

theorem cluster_one (root : K → K) (c : Fin d → K) : ∀ x : List (Fin d → K), getCluster root x [some c] = some (List.replicate x.length 0)
  | [] => rfl
  | u :: x => by
    have ih := cluster_one root c x
    rw [getCluster] at *
    rw [List.mapM_cons, ih]
    rfl

theorem centroids_one (x : List (Fin d → K)) (hx : x ≠ []) : calculateCentroids x (List.replicate x.length 0) = [mean x] := by
  have h1 : Ops.numUnique (List.replicate x.length 0) = 1 := by
    exact numUnique_all (k := 1) (fun l hl => by rw [(List.mem_replicate.1 hl).2]; norm_num) fun c hc => by
      rw [show c = 0 by omega]; exact List.mem_replicate.2 ⟨by simpa using hx, rfl⟩
  have h2 : members x (List.replicate x.length 0) 0 = x := by
    rw [members, List.filter_eq_self.2 (by
      intro p hp; have := (List.of_mem_zip hp).2; rw [List.mem_replicate] at this; simp [this.2])]
    rw [List.map_fst_zip (by simp)]
  rw [calculateCentroids, h1]
  simp [h2]

/-- C264: k-means with one cluster. Unless it starts within the tolerance of it, training ends with the mean of the samples (after the second
epoch by itself), with all samples in cluster 0. -/
theorem C264_kmeans (root : K → K) (x : List (Fin d → K)) (hx : x ≠ []) (tol : K) (ht : 0 ≤ tol) (e : Nat) (c m : Fin d → K)
    (hm : ∀ l, m l = (x.map fun r => r l).sum / (x.length : K)) :
    fit root x tol (e + 1) [c] = .ok (if ∃ l, tol < |c l - m l| then ⟨[some m], some (List.replicate x.length 0), decide (0 < e)⟩
      else ⟨[some c], some (List.replicate x.length 0), true⟩) := by
  have hmean : mean x = some m := by rw [mean, if_neg hx]; congr 1; funext l; exact (hm l).symm
  have step : ∀ (e : Nat) (c : Fin d → K) lab, fitLoop root x tol (e + 1) [some c] lab =
      if ∃ l, tol < |c l - m l| then fitLoop root x tol e [some m] (some (List.replicate x.length 0))
      else .ok ⟨[some c], some (List.replicate x.length 0), true⟩ := by
    intro e c lab
    simp only [fitLoop, cluster_one, centroids_one x hx, hmean, compareDifferences, List.length_cons, List.length_nil, if_true, List.zipWith_cons_cons, List.zipWith_nil_left,
      List.any_cons, List.any_nil, Bool.or_false, rowDiffers, id, decide_eq_true_eq]
  rw [fit, List.map_cons, List.map_nil, step]
  by_cases h : ∃ l, tol < |c l - m l|
  · rw [if_pos h, if_pos h]
    cases e with
    | zero => rfl
    | succ e =>
      rw [step, if_neg (by rintro ⟨l, hl⟩; rw [sub_self, abs_zero] at hl; exact absurd ht (not_le.2 hl))]
      simp
  · rw [if_neg h, if_neg h]

example : fit (fun v : ℚ => v) [![0], ![2]] (1 / 1000) 5 [![9]] = .ok ⟨[some ![1]], some [0, 0], true⟩ := by decide +kernel

end CML.KMeans
