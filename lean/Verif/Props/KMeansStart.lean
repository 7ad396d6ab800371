import Verif.Props.KMeansStop
import Mathlib.Data.Fintype.CardEmbedding
import Mathlib.Algebra.Order.Ring.Rat

set_option linter.unusedSectionVars false

/-! # Property C248 (k-means from randomly drawn samples) -/

namespace CML.KMeans
open Finset

variable {K : Type*} [Field K] [LinearOrder K] [IsStrictOrderedRing K] {d : Nat}

theorem dist2_self (u : Fin d → K) : dist2 u u = 0 := by simp [dist2]

theorem dist2_nonneg (u v : Fin d → K) : 0 ≤ dist2 u v := sum_nonneg fun _ _ => sq_nonneg _

theorem dist2_le_zero {u v : Fin d → K} (h : dist2 u v ≤ 0) : u = v := by
  have h0 := le_antisymm h (dist2_nonneg u v)
  unfold dist2 at h0
  rw [sum_eq_zero_iff_of_nonneg fun _ _ => sq_nonneg _] at h0
  funext k
  have := h0 k (mem_univ k)
  rw [pow_eq_zero_iff (by norm_num), sub_eq_zero] at this
  exact this

/-- A sample that is a centroid gets the first centroid that is equal to it. -/
theorem nearest_self {cs : List (Fin d → K)} {u : Fin d → K} {c : Nat} (h : IsNearest cs u c) (hu : u ∈ cs) : cs[c]? = some u := by
  obtain ⟨v, hv, hmin, -⟩ := h
  have := hmin u hu
  rw [dist2_self] at this
  rw [hv, dist2_le_zero this]

/-- No sample gets the second of two equal centroids. -/
theorem nearest_first {cs : List (Fin d → K)} {u v : Fin d → K} {i j : Nat} (hij : i < j) (hi : cs[i]? = some v) (hj : cs[j]? = some v) : ¬ IsNearest cs u j := by
  rintro ⟨w, hw, -, hfirst⟩
  rw [hj, Option.some.injEq] at hw
  subst hw
  exact lt_irrefl _ (hfirst i hij v hi)

theorem dup_index {α : Type*} {l : List α} (h : ¬ l.Nodup) : ∃ (i j : Nat) (v : α), i < j ∧ l[i]? = some v ∧ l[j]? = some v := by
  rw [List.nodup_iff_getElem?_ne_getElem?] at h
  push Not at h
  obtain ⟨i, j, hij, hj, he⟩ := h
  exact ⟨i, j, l[j], hij, by rw [he, List.getElem?_eq_getElem hj], List.getElem?_eq_getElem hj⟩

/-- **C248 is false**: if the initial centroids are samples, two of them are equal and not all of them are, training raises `ValueError` in the first epoch, whatever the
data, the tolerance and the number of epochs. -/
theorem C248_repeated_draw {root : K → K} (hr : RootOK root) (x : List (Fin d → K)) (tol : K) (e : Nat) (init : List (Fin d → K)) (hx : ∀ u ∈ init, u ∈ x)
    (hdup : ¬ init.Nodup) (u v : Fin d → K) (hu : u ∈ init) (hv : v ∈ init) (huv : u ≠ v) : fit root x tol (e + 1) init = .error .valueError := by
  have hne : init ≠ [] := List.ne_nil_of_mem hu
  obtain ⟨lab, hlab⟩ := getCluster_some root x hne
  have hval := getCluster_valid hr hlab
  obtain ⟨hlen, hnear⟩ := getCluster_nearest hr hlab
  obtain ⟨i, j, w, hij, hi, hj⟩ := dup_index hdup
  have hjl : j < init.length := (List.getElem?_eq_some_iff.1 hj).1
  have hjn : j ∉ lab := by
    intro hm
    obtain ⟨p, hp, hpe⟩ := List.mem_iff_getElem.1 hm
    obtain ⟨c, hc, hcn⟩ := hnear p x[p] (List.getElem?_eq_getElem (hlen ▸ hp))
    rw [List.getElem?_eq_getElem hp, hpe, Option.some.injEq] at hc
    subst hc
    exact nearest_first hij hi hj hcn
  have hlt : Ops.numUnique lab ≠ init.length := fun he => hjn (numUnique_eq_all hval.2 he j hjl)
  have label : ∀ z ∈ init, ∃ c ∈ lab, init[c]? = some z := by
    intro z hz
    obtain ⟨p, hp, rfl⟩ := List.mem_iff_getElem.1 (hx z hz)
    obtain ⟨c, hc, hcn⟩ := hnear p x[p] (List.getElem?_eq_getElem hp)
    exact ⟨c, List.mem_of_getElem? hc, nearest_self hcn hz⟩
  have htwo : Ops.numUnique lab ≠ 1 := by
    intro h1
    obtain ⟨c, hc, hcu⟩ := label u hu
    obtain ⟨c', hc', hcv⟩ := label v hv
    rw [numUnique_one h1 c hc c' hc', hcv, Option.some.injEq] at hcu
    exact huv hcu.symm
  have hclen : (calculateCentroids x lab).length = Ops.numUnique lab := by simp [calculateCentroids]
  have hcmp : compareDifferences (init.map some) (calculateCentroids x lab) tol = .error .valueError := by
    unfold compareDifferences
    rw [if_neg (by rw [hclen, List.length_map]; exact fun h => hlt h.symm)]
    split
    · rename_i b heq
      rw [heq] at hclen
      exact absurd hclen.symm htwo
    · rename_i a heq _
      have : init.length = 1 := by simpa using congrArg List.length heq
      omega
    · rfl
  unfold fit
  simp only [fitLoop, hlab, hcmp]

example : (∀ u ∈ ([![1], ![1], ![3]] : List (Fin 1 → ℚ)), u ∈ [![1], ![2], ![3]]) ∧ ¬ ([![1], ![1], ![3]] : List (Fin 1 → ℚ)).Nodup ∧
    fit (id : ℚ → ℚ) [![1], ![2], ![3]] (1/1000) 10 [![1], ![1], ![3]] = .error .valueError := by decide +kernel

/-- If all initial centroids are the same sample, every sample gets label 0: there is one cluster, whatever `n_clusters` is. -/
theorem C248_one_row_drawn {root : K → K} (hr : RootOK root) (x : List (Fin d → K)) (tol : K) (e k : Nat) (u : Fin d → K) (r : Fitted K d)
    (h : fit root x tol (e + 1) (List.replicate (k + 1) u) = .ok r) : r.clusters = some (List.replicate x.length 0) := by
  have zero : ∀ (m : Nat) (v : Fin d → K) lab, getCluster root x ((List.replicate (m + 1) v).map some) = some lab → lab = List.replicate x.length 0 := by
    intro m v lab hlab
    obtain ⟨hlen, hnear⟩ := getCluster_nearest hr hlab
    rw [List.eq_replicate_iff]
    refine ⟨hlen, ?_⟩
    intro c hc
    obtain ⟨p, hp, hpe⟩ := List.mem_iff_getElem.1 hc
    obtain ⟨c', hc', hcn⟩ := hnear p x[p] (List.getElem?_eq_getElem (hlen ▸ hp))
    rw [List.getElem?_eq_getElem hp, hpe, Option.some.injEq] at hc'
    subst hc'
    by_contra h0
    obtain ⟨w, hw, -⟩ := id hcn
    have hcl : c < m + 1 := by simpa using (List.getElem?_eq_some_iff.1 hw).1
    exact nearest_first (v := v) (Nat.pos_of_ne_zero h0) (by simp) (by simp [hcl]) hcn
  have key : ∀ (e : Nat) (m : Nat) (v : Fin d → K) (lab0 : Option (List Nat)) (r : Fitted K d), (e = 0 → lab0 = some (List.replicate x.length 0)) →
      fitLoop root x tol e ((List.replicate (m + 1) v).map some) lab0 = .ok r → r.clusters = some (List.replicate x.length 0) := by
    intro e
    induction e with
    | zero =>
      intro m v lab0 r h0 h
      simp only [fitLoop] at h
      injection h with h
      subst h
      exact h0 rfl
    | succ e ih =>
      intro m v lab0 r _ h
      simp only [fitLoop] at h
      split at h
      · simp at h
      · rename_i lab hlab
        have hz := zero m v lab hlab
        split at h
        · simp at h
        · rename_i diff hdiff
          split at h
          · rename_i hany
            obtain ⟨cs1, e1, e2, e3, e4, e5⟩ := continue_spec (by simp) (getCluster_valid hr hlab) hdiff hany
            have hl : cs1.length = 1 := by
              have h1 : (calculateCentroids x lab).length = cs1.length := by rw [e1]; simp
              have h2 : (calculateCentroids x lab).length = Ops.numUnique lab := by simp [calculateCentroids]
              have h3 : Ops.numUnique lab ≤ 1 := numUnique_le (by
                rw [hz]; intro l hl; rw [List.eq_of_mem_replicate hl]; omega)
              have := List.length_pos_of_ne_nil e2
              omega
            obtain ⟨w, rfl⟩ := List.length_eq_one_iff.1 hl
            rw [e1] at h
            exact ih 0 w (some lab) r (fun _ => by rw [hz]) h
          · injection h with h
            subst h
            dsimp only
            rw [hz]
  exact key (e + 1) k u none r (by omega) h

/-- **C248**, how often: of the `n ^ k` draws of `k ≥ 2` rows out of `n` pairwise different samples, at most `n (n-1) ... (n-k+1) + n` let training start; all others raise
`ValueError`. -/
theorem C248_draws {n k : Nat} {root : K → K} (hr : RootOK root) (x : Fin n → Fin d → K) (hinj : Function.Injective x) (tol : K) (e : Nat) :
    Fintype.card (Fin k → Fin n) = n ^ k ∧
    (univ.filter fun f : Fin k → Fin n => fit root (List.ofFn x) tol (e + 1) (List.ofFn fun i => x (f i)) ≠ .error .valueError).card ≤ n.descFactorial k + n := by
  classical
  · refine ⟨by simp, ?_⟩
    have hsub : (univ.filter fun f : Fin k → Fin n => fit root (List.ofFn x) tol (e + 1) (List.ofFn fun i => x (f i)) ≠ .error .valueError) ⊆
        (univ.filter fun f : Fin k → Fin n => Function.Injective f) ∪ univ.image fun a : Fin n => fun _ : Fin k => a := by
      intro f hf
      rw [mem_filter] at hf
      rw [mem_union, mem_filter, mem_image]
      by_contra hcon
      push Not at hcon
      obtain ⟨h1, h2⟩ := hcon
      have h1 := h1 (mem_univ f)
      have hdup : ¬ (List.ofFn fun i => x (f i)).Nodup := by
        rw [List.nodup_ofFn]
        exact fun h => h1 (Function.Injective.of_comp (f := x) h)
      have hk : 0 < k := by
        rcases Nat.eq_zero_or_pos k with rfl | hk
        · exact absurd (fun a => a.elim0) h1
        · exact hk
      have hex : ∃ i, f i ≠ f ⟨0, hk⟩ := by
        by_contra hall
        push Not at hall
        exact h2 (f ⟨0, hk⟩) (mem_univ _) (funext fun i => (hall i).symm)
      obtain ⟨i, hi⟩ := hex
      exact hf.2 (C248_repeated_draw hr _ tol e _ (by
        intro u hu
        obtain ⟨j, rfl⟩ := (List.mem_ofFn' _ _).1 hu
        exact (List.mem_ofFn' _ _).2 ⟨f j, rfl⟩) hdup (x (f i)) (x (f ⟨0, hk⟩)) ((List.mem_ofFn' _ _).2 ⟨i, rfl⟩) ((List.mem_ofFn' _ _).2 ⟨_, rfl⟩) fun h => hi (hinj h))
    refine (card_le_card hsub).trans ((card_union_le _ _).trans (Nat.add_le_add (le_of_eq ?_) ?_))
    · have h := Fintype.card_embedding_eq (α := Fin k) (β := Fin n)
      rw [Fintype.card_fin, Fintype.card_fin] at h
      rw [← h, ← Fintype.card_subtype]
      exact Fintype.card_congr (Equiv.subtypeInjectiveEquivEmbedding (Fin k) (Fin n))
    · exact card_image_le.trans (by simp)

/-- Five clusters, ten samples: more than two draws out of three raise. -/
example : 3 * ((10 : Nat).descFactorial 5 + 10) < 10 ^ 5 := by decide

/-- **C248**, the part that holds: if the initial centroids are pairwise different samples and every sample is one of them (a cluster for every different sample), the first
epoch ends the training, every sample has the centroid equal to it, and the sum of squares is 0. -/
theorem C248_all_rows_partial {root : K → K} (hr : RootOK root) (x : List (Fin d → K)) (tol : K) (ht : 0 ≤ tol) (e : Nat) (init : List (Fin d → K)) (hne : init ≠ [])
    (hn : init.Nodup) (hx : ∀ u ∈ init, u ∈ x) (hx' : ∀ u ∈ x, u ∈ init) :
    ∃ lab, fit root x tol (e + 1) init = .ok ⟨init.map some, some lab, true⟩ ∧ lab.map (fun c => init[c]?) = x.map some ∧ wcss x init lab = 0 := by
  obtain ⟨lab, hlab⟩ := getCluster_some root x hne
  have hval := getCluster_valid hr hlab
  obtain ⟨hlen, hnear⟩ := getCluster_nearest hr hlab
  have hown : ∀ (p : Nat) (hp : p < x.length), ∃ c, lab[p]? = some c ∧ init[c]? = some x[p] := by
    intro p hp
    obtain ⟨c, hc, hcn⟩ := hnear p x[p] (List.getElem?_eq_getElem hp)
    exact ⟨c, hc, nearest_self hcn (hx' _ (List.getElem_mem hp))⟩
  have hpair : ∀ q ∈ x.zip lab, init[q.2]? = some q.1 := by
    intro q hq
    obtain ⟨p, hp, rfl⟩ := List.mem_iff_getElem.1 hq
    have hpx : p < x.length := by simp at hp; omega
    obtain ⟨c, hc, hci⟩ := hown p hpx
    rw [List.getElem_zip]
    have : lab[p]'(hlen ▸ hpx) = c := by rw [List.getElem?_eq_getElem (hlen ▸ hpx)] at hc; simpa using hc
    dsimp only
    rw [this, hci]
  have hall : ∀ c < init.length, c ∈ lab := by
    intro c hc
    obtain ⟨p, hp, hpe⟩ := List.mem_iff_getElem.1 (hx init[c] (List.getElem_mem hc))
    obtain ⟨c', hc', hci⟩ := hown p hp
    obtain ⟨hc'', he⟩ := List.getElem?_eq_some_iff.1 hci
    rw [hpe] at he
    have := (List.Nodup.getElem_inj_iff hn).1 he
    subst this
    exact List.mem_of_getElem? hc'
  have hnum := numUnique_all hval.2 hall
  have hcen : calculateCentroids x lab = init.map some := by
    unfold calculateCentroids
    rw [hnum]
    apply List.ext_getElem (by simp)
    intro c h1 h2
    have hc : c < init.length := by simpa using h2
    rw [List.getElem_map, List.getElem_map, List.getElem_range]
    have hmem : ∀ r ∈ members x lab c, r = init[c] := by
      intro r hrm
      unfold members at hrm
      obtain ⟨q, hq, rfl⟩ := List.mem_map.1 hrm
      obtain ⟨hq1, hq2⟩ := List.mem_filter.1 hq
      have h3 := hpair q hq1
      have : q.2 = c := by simpa using hq2
      rw [this, List.getElem?_eq_getElem hc, Option.some.injEq] at h3
      exact h3.symm
    have hmn := members_ne_nil hlen (hall c hc)
    unfold mean
    rw [if_neg hmn]
    congr 1
    funext k
    have : (members x lab c).map (fun r => r k) = List.replicate (members x lab c).length (init[c] k) := by
      rw [List.eq_replicate_iff]
      refine ⟨by simp, ?_⟩
      intro b hb
      obtain ⟨r, hrm, rfl⟩ := List.mem_map.1 hb
      rw [hmem r hrm]
    rw [this, List.sum_replicate, nsmul_eq_mul]
    have h0 : ((members x lab c).length : K) ≠ 0 := by exact_mod_cast (List.length_pos_of_ne_nil hmn).ne'
    field_simp
  have hcmp : ∃ diff, compareDifferences (init.map some) (init.map some) tol = .ok diff ∧ diff.any id = false := by
    refine ⟨_, by unfold compareDifferences; rw [if_pos rfl], ?_⟩
    rw [List.any_eq_false]
    intro b hb
    rw [List.zipWith_self] at hb
    obtain ⟨c, hc, rfl⟩ := List.mem_map.1 hb
    obtain ⟨v, -, rfl⟩ := List.mem_map.1 hc
    simp [rowDiffers, ht]
  obtain ⟨diff, hd1, hd2⟩ := hcmp
  refine ⟨lab, ?_, ?_, ?_⟩
  · unfold fit
    simp only [fitLoop, hlab, hcen, hd1, hd2, Bool.false_eq_true, if_false]
  · apply List.ext_getElem (by simp [hlen])
    intro p h1 h2
    have hp : p < x.length := by simpa using h2
    obtain ⟨c, hc, hci⟩ := hown p hp
    rw [List.getElem_map, List.getElem_map]
    have : lab[p]'(hlen ▸ hp) = c := by rw [List.getElem?_eq_getElem (hlen ▸ hp)] at hc; simpa using hc
    rw [this, hci]
  · unfold wcss
    apply List.sum_eq_zero
    intro a ha
    obtain ⟨q, hq, rfl⟩ := List.mem_map.1 ha
    simp only [distTo, hpair q hq, dist2_self]

example : ∃ lab, fit (id : ℚ → ℚ) [![3], ![1], ![3]] (1/1000) 10 [![1], ![3]] = .ok ⟨[![1], ![3]].map some, some lab, true⟩ ∧ lab = [1, 0, 1] := by
  exact ⟨[1, 0, 1], by decide +kernel, rfl⟩

end CML.KMeans
