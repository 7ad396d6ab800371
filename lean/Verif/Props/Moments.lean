import Verif.Props.GMM
import Verif.Props.KMeansStop

set_option linter.unusedSectionVars false

/-! # Property C247 (the fitted clusters reproduce mean and scatter of the data) -/

namespace CML.GMM
open Finset

variable {K : Type*} [Field K] [LinearOrder K] [IsStrictOrderedRing K] {n k d : Nat}

/-- **C247** for the Gaussian mixture: after every EM step, from any parameters, the mean of the mixture is the mean of the samples, and its second moments (hence its
covariance) are those of the samples. -/
theorem C247_mixture_step (dens : Density K d) (x : Fin n → Fin d → K) (P Q : Params K k d) (h : emStep dens x P = some Q) :
    (∀ l, ∑ i, Q.alpha i * Q.mu i l = (∑ j, x j l) / n) ∧
    ∀ a b, ∑ i, Q.alpha i * (Q.sigma i a b + Q.mu i a * Q.mu i b) = (∑ j, x j a * x j b) / n := by
  obtain ⟨g, hg, hne, hn, hmu, hsig, hal⟩ := emStep_inv h
  have hrow : ∀ j, ∑ i, g j i = 1 := by
    obtain ⟨p, hp, hpn, rfl⟩ := posterior_inv hg
    intro j
    rw [← sum_div, div_self (hpn j)]
  have hn' : (n : K) ≠ 0 := Nat.cast_ne_zero.2 hn
  have swap : ∀ f : Fin n → K, ∑ i, ∑ j, g j i * f j = ∑ j, f j := by
    intro f
    rw [sum_comm]
    refine sum_congr rfl fun j _ => ?_
    rw [← sum_mul, hrow, one_mul]
  have hmul : ∀ i l, (∑ j, g j i) * Q.mu i l = ∑ j, g j i * x j l := by
    intro i l
    rw [hmu]
    unfold calculateMeans
    rw [mul_div_cancel₀ _ (hne i)]
  have hcoef : ∀ i, Q.alpha i = (∑ j, g j i) / n := by
    intro i; rw [hal]; unfold calculateMixtureCoefficient; ring
  constructor
  · intro l
    rw [← swap fun j => x j l, sum_div]
    refine sum_congr rfl fun i _ => ?_
    rw [hcoef, ← hmul i l]; ring
  · intro a b
    rw [← swap fun j => x j a * x j b, sum_div]
    refine sum_congr rfl fun i _ => ?_
    have hs : (∑ j, g j i) * Q.sigma i a b = (∑ j, g j i * (x j a * x j b)) - (∑ j, g j i) * (Q.mu i a * Q.mu i b) := by
      rw [hsig]
      unfold calculateCovariances
      rw [mul_div_cancel₀ _ (hne i)]
      have e : ∑ j, g j i * ((x j a - Q.mu i a) * (x j b - Q.mu i b)) =
          (∑ j, g j i * (x j a * x j b)) - Q.mu i b * (∑ j, g j i * x j a) - Q.mu i a * (∑ j, g j i * x j b) + (∑ j, g j i) * (Q.mu i a * Q.mu i b) := by
        rw [mul_sum, mul_sum, sum_mul, ← sum_sub_distrib, ← sum_sub_distrib, ← sum_add_distrib]
        refine sum_congr rfl fun j _ => ?_
        ring
      rw [e, ← hmul i a, ← hmul i b]; ring
    rw [hcoef, div_mul_eq_mul_div]
    congr 1
    linear_combination hs

/-- **C247** for `fit` of the Gaussian mixture: the trained parameters are the initial ones (no step changed them by more than the tolerance, or `epochs = 0`), or the
mixture has exactly the mean and the second moments of the training data. -/
theorem C247_mixture (dens : Density K d) (x : Fin n → Fin d → K) (tol : K) (epochs : Nat) (P0 P : Params K k d) (c : Fin n → Option Nat)
    (h : fit dens x tol epochs P0 = some (P, c)) :
    P = P0 ∨ (∀ l, ∑ i, P.alpha i * P.mu i l = (∑ j, x j l) / n) ∧
      ∀ a b, ∑ i, P.alpha i * (P.sigma i a b + P.mu i a * P.mu i b) = (∑ j, x j a * x j b) / n := by
  unfold fit at h
  split at h
  · simp at h
  · rename_i Q hQ
    obtain ⟨c', _, h'⟩ := Option.map_eq_some_iff.1 h
    obtain ⟨rfl, rfl⟩ := Prod.mk.inj h'
    obtain ⟨t, -, hs⟩ := steps_of_fitLoop dens x tol epochs P0 Q hQ
    cases hs with
    | zero => exact .inl rfl
    | succ t P Q h hs => exact .inr (C247_mixture_step dens x _ _ hs)

/-- The initial parameters need not have the mean of the data: with a large tolerance they are returned as they are. -/
theorem C247_start_kept : ∃ (x : Fin 2 → Fin 1 → ℚ) (P0 : Params ℚ 2 1) (c : Fin 2 → Option Nat), fit (fun _ _ _ => some 1) x 100 5 P0 = some (P0, c) ∧
    ∑ i, P0.alpha i * P0.mu i 0 ≠ (∑ j, x j 0) / 2 := by
  refine ⟨fun j _ => j, ⟨fun _ _ => 7, fun _ _ _ => 1, fun _ => 1 / 2⟩, fun _ => some 0, ?_, by decide +kernel⟩
  have hp : posterior (fun _ _ _ => some 1) (fun (j : Fin 2) (_ : Fin 1) => (j : ℚ)) (⟨fun _ _ => 7, fun _ _ _ => 1, fun _ => 1 / 2⟩ : Params ℚ 2 1) = some fun _ _ => 1 / 2 := by
    unfold posterior
    rw [if_neg (by simp)]
    dsimp only
    rw [if_neg (by norm_num [mixtureDensity, Fin.sum_univ_two])]
    congr 1
    funext j i
    norm_num [mixtureDensity, Fin.sum_univ_two]
  have hs : ∃ Q, emStep (fun _ _ _ => some 1) (fun (j : Fin 2) (_ : Fin 1) => (j : ℚ)) (⟨fun _ _ => 7, fun _ _ _ => 1, fun _ => 1 / 2⟩ : Params ℚ 2 1) = some Q ∧
      ¬ differs 100 (⟨fun _ _ => 7, fun _ _ _ => 1, fun _ => 1 / 2⟩ : Params ℚ 2 1) Q := by
    unfold emStep
    rw [hp]
    dsimp only
    rw [if_neg (by norm_num [Fin.sum_univ_two])]
    refine ⟨_, rfl, ?_⟩
    unfold differs
    norm_num [calculateMeans, calculateCovariances, calculateMixtureCoefficient, Fin.sum_univ_two]
  obtain ⟨Q, h1, h2⟩ := hs
  unfold fit
  have hl : fitLoop (fun _ _ _ => some 1) (fun (j : Fin 2) (_ : Fin 1) => (j : ℚ)) 100 5 (⟨fun _ _ => 7, fun _ _ _ => 1, fun _ => 1 / 2⟩ : Params ℚ 2 1) =
      some ⟨fun _ _ => 7, fun _ _ _ => 1, fun _ => 1 / 2⟩ := by
    unfold fitLoop
    rw [h1]
    dsimp only
    rw [if_neg h2]
  rw [hl]
  dsimp only
  unfold predict
  rw [hp]
  simp only [Option.map_some, Option.some.injEq, Prod.mk.injEq, true_and]
  funext j
  decide +kernel

end CML.GMM

namespace CML.KMeans
open Finset

variable {K : Type*} [Field K] [LinearOrder K] [IsStrictOrderedRing K] {d : Nat}

/-- Entry `l` of the centroid that a label names. -/
def centroidOf (cs : List (Fin d → K)) (label : Nat) : Fin d → K := (cs[label]?).getD 0

theorem scatter (x : List (Fin d → K)) (lab : List Nat) (hl : lab.length = x.length) (cs : List (Fin d → K)) (hlt : ∀ l ∈ lab, l < cs.length)
    (hm : ∀ c v, cs[c]? = some v → IsClusterMean x lab c v) :
    (∀ k, (lab.map fun c => centroidOf cs c k).sum = (x.map fun r => r k).sum) ∧
    ∀ p : Fin d → K, (x.map fun r => dist2 r p).sum = wcss x cs lab + (lab.map fun c => dist2 (centroidOf cs c) p).sum := by
  have hz : ∀ q ∈ x.zip lab, q.2 < cs.length := fun q hq => hlt _ (mem_zip_lab hq)
  have e1 : ∀ f : (Fin d → K) → K, (x.map f).sum =
      ∑ c ∈ range cs.length, ((((x.zip lab).filter fun p => p.2 = c).map Prod.fst).map fun r => f r).sum := by
    intro f
    rw [← sum_by_label (x.zip lab) cs.length (fun r _ => f r) hz]
    have : x = (x.zip lab).map Prod.fst := (List.map_fst_zip (by omega)).symm
    conv_lhs => rw [this]
    rw [List.map_map]; rfl
  have e2 : ∀ f : Nat → K, (lab.map f).sum =
      ∑ c ∈ range cs.length, ((((x.zip lab).filter fun p => p.2 = c).map Prod.fst).map fun _ => f c).sum := by
    intro f
    rw [← sum_by_label (x.zip lab) cs.length (fun _ c => f c) hz]
    have : lab = (x.zip lab).map Prod.snd := (List.map_snd_zip (by omega)).symm
    conv_lhs => rw [this]
    rw [List.map_map]; rfl
  constructor
  · intro k
    rw [e1, e2]
    refine sum_congr rfl fun c hc => ?_
    have hc' := mem_range.1 hc
    have h := (hm c _ (List.getElem?_eq_getElem hc')).2 k
    have hcen : centroidOf cs c = cs[c] := by unfold centroidOf; rw [List.getElem?_eq_getElem hc']; rfl
    rw [hcen, List.map_const', List.sum_replicate, nsmul_eq_mul]
    exact h
  · intro p
    unfold wcss
    rw [e1, e2, sum_by_label _ cs.length (distTo cs) hz, ← sum_add_distrib]
    refine sum_congr rfl fun c hc => ?_
    have hc' := mem_range.1 hc
    have h := (hm c _ (List.getElem?_eq_getElem hc')).2
    have hcen : centroidOf cs c = cs[c] := by unfold centroidOf; rw [List.getElem?_eq_getElem hc']; rfl
    rw [hcen, List.map_const', List.sum_replicate, nsmul_eq_mul]
    simp only [distTo, List.getElem?_eq_getElem hc']
    rw [sum_dist2, sum_dist2, dist2, mul_sum, ← sum_add_distrib]
    refine sum_congr rfl fun k _ => ?_
    rw [sum_sq_shift _ (cs[c] k) (p k), ← h k]
    simp only [List.length_map]
    ring

/-- **C247** for k-means: the centroids that `fit` returns are the initial ones, or there are labels for the training samples such that replacing every sample by its
centroid keeps the sum of the samples (hence their mean), and such that the scatter of the samples around ANY point is the scatter within the clusters plus the scatter of
the centroids around that point. -/
theorem C247_kmeans {root : K → K} (hr : RootOK root) (x : List (Fin d → K)) (tol : K) (epochs : Nat) (init : List (Fin d → K)) (hi : init ≠ [])
    (r : Fitted K d) (h : fit root x tol epochs init = .ok r) :
    r.centroids = init.map some ∨ ∃ (cs : List (Fin d → K)) (lab : List Nat), r.centroids = cs.map some ∧ ValidLabels cs x lab ∧
      (∀ k, (lab.map fun c => centroidOf cs c k).sum = (x.map fun v => v k).sum) ∧
      ∀ p : Fin d → K, (x.map fun v => dist2 v p).sum = wcss x cs lab + (lab.map fun c => dist2 (centroidOf cs c) p).sum := by
  have key : ∀ (e : Nat) (cs : List (Fin d → K)) (lab0 : Option (List Nat)), cs ≠ [] → fitLoop root x tol e (cs.map some) lab0 = .ok r →
      r.centroids = cs.map some ∨ ∃ (cs : List (Fin d → K)) (lab : List Nat), r.centroids = cs.map some ∧ ValidLabels cs x lab ∧
      (∀ k, (lab.map fun c => centroidOf cs c k).sum = (x.map fun v => v k).sum) ∧
      ∀ p : Fin d → K, (x.map fun v => dist2 v p).sum = wcss x cs lab + (lab.map fun c => dist2 (centroidOf cs c) p).sum := by
    intro e
    induction e with
    | zero =>
      intro cs lab0 _ h
      simp only [fitLoop] at h
      injection h with h
      subst h
      exact .inl rfl
    | succ e ih =>
      intro cs lab0 hcs h
      simp only [fitLoop] at h
      split at h
      · simp at h
      · rename_i lab hlab
        split at h
        · simp at h
        · rename_i diff hdiff
          have hv := getCluster_valid hr hlab
          split at h
          · rename_i hany
            obtain ⟨cs1, e1, e2, e3, e4, e5⟩ := continue_spec hcs hv hdiff hany
            rw [e1] at h
            rcases ih cs1 (some lab) e2 h with h1 | h1
            · exact .inr ⟨cs1, lab, h1, ⟨hv.1, e4⟩, scatter x lab hv.1 cs1 e4 e5⟩
            · exact .inr h1
          · injection h with h
            subst h
            exact .inl rfl
  exact key epochs init none hi h

/-- A training that moves the centroids: the samples 0, 1, 10, 11 from the centroids 0 and 1. -/
example : ∃ r : Fitted ℚ 1, fit id [![0], ![1], ![10], ![11]] (1/1000) 10 [![0], ![1]] = .ok r ∧ r.centroids = [![1/2], ![21/2]].map some ∧
    r.centroids ≠ ([![0], ![1]] : List (Fin 1 → ℚ)).map some := by
  exact ⟨⟨[![1/2], ![21/2]].map some, some [0, 0, 1, 1], true⟩, by decide +kernel, rfl, by decide +kernel⟩

end CML.KMeans
