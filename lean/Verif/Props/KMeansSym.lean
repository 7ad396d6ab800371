import Verif.Props.KMeans
import Verif.Lemmas.Sym

set_option linter.unusedSectionVars false

/-! # Properties C180, C181: k-means does not depend on the units, on the origin, on the order of the features or on the order of the samples -/

namespace CML.KMeans
open Finset

variable {K : Type*} [Field K] [LinearOrder K] [IsStrictOrderedRing K] {d : Nat}

theorem sqDist_change (a : K) (t : Fin d → K) (σ : Equiv.Perm (Fin d)) (u v : Fin d → K) :
    sqDist (change a t σ u) (change a t σ v) = a ^ 2 * sqDist u v := by
  unfold sqDist change
  rw [mul_sum, ← Equiv.sum_comp σ (fun k => a ^ 2 * ((u k - v k) * (u k - v k)))]
  exact sum_congr rfl fun k _ => by ring

theorem distances_change {root : K → K} (hr : RootOK root) {a : K} (ha : a ≠ 0) (t : Fin d → K) (σ : Equiv.Perm (Fin d)) (u : Fin d → K)
    (cs : List (Option (Fin d → K))) :
    argminNaN (distances root (change a t σ u) (cs.map (Option.map (change a t σ)))) = argminNaN (distances root u cs) := by
  unfold argminNaN
  have h1 : (distances root (change a t σ u) (cs.map (Option.map (change a t σ)))).findIdx? Option.isNone = (distances root u cs).findIdx? Option.isNone := by
    unfold distances
    rw [List.map_map, List.findIdx?_map, List.findIdx?_map]
    congr 1
    funext c
    cases c <;> rfl
  rw [h1]
  cases (distances root u cs).findIdx? Option.isNone with
  | some i => rfl
  | none =>
    dsimp only
    have h2 : (distances root u cs).filterMap id = (cs.filterMap id).map fun v => root (sqDist u v) := by
      unfold distances
      rw [List.filterMap_map, List.map_filterMap]
      rfl
    have h3 : (distances root (change a t σ u) (cs.map (Option.map (change a t σ)))).filterMap id = (cs.filterMap id).map fun v => root (a ^ 2 * sqDist u v) := by
      unfold distances
      rw [List.map_map, List.filterMap_map, List.map_filterMap]
      congr 1
      funext c
      cases c with
      | none => rfl
      | some v => simp [sqDist_change]
    rw [h2, h3]
    have ha2 : 0 < a ^ 2 := by positivity
    refine argmin?_congr _ _ _ fun v _ w _ => ?_
    rw [hr _ _ (mul_nonneg ha2.le (sqDist_nonneg _ _)) (mul_nonneg ha2.le (sqDist_nonneg _ _)), hr _ _ (sqDist_nonneg _ _) (sqDist_nonneg _ _)]
    exact mul_lt_mul_iff_right₀ ha2

theorem getCluster_change {root : K → K} (hr : RootOK root) {a : K} (ha : a ≠ 0) (t : Fin d → K) (σ : Equiv.Perm (Fin d)) (x : List (Fin d → K))
    (cs : List (Option (Fin d → K))) :
    getCluster root (x.map (change a t σ)) (cs.map (Option.map (change a t σ))) = getCluster root x cs := by
  unfold getCluster
  rw [mapM_map_option]
  exact mapM_congr_option _ _ _ fun u _ => distances_change hr ha t σ u cs

theorem members_change (f : (Fin d → K) → Fin d → K) (x : List (Fin d → K)) (lab : List Nat) (c : Nat) :
    members (x.map f) lab c = (members x lab c).map f := by
  unfold members
  induction x generalizing lab with
  | nil => simp
  | cons u x ih =>
    cases lab with
    | nil => simp
    | cons l lab =>
      simp only [List.map_cons, List.zip_cons_cons, List.filter_cons]
      by_cases h : l = c
      · simp only [h, decide_true, if_true, List.map_cons, ih]
      · simp only [h, decide_false, Bool.false_eq_true, if_false, ih]

theorem sum_affine (l : List K) (a b : K) : (l.map fun r => a * r + b).sum = a * l.sum + l.length * b := by
  induction l with
  | nil => simp
  | cons r l ih => simp only [List.map_cons, List.sum_cons, ih, List.length_cons]; push_cast; ring

theorem mean_change (a : K) (t : Fin d → K) (σ : Equiv.Perm (Fin d)) (rows : List (Fin d → K)) :
    mean (rows.map (change a t σ)) = (mean rows).map (change a t σ) := by
  unfold mean
  by_cases h : rows = []
  · simp [h]
  · rw [if_neg (by simpa using h), if_neg h]
    simp only [Option.map_some, Option.some.injEq, List.length_map, List.map_map]
    funext k
    have hn : (rows.length : K) ≠ 0 := by exact_mod_cast (List.length_pos_of_ne_nil h).ne'
    have : (rows.map fun r => a * r (σ k) + t k) = (rows.map fun r => r (σ k)).map fun s => a * s + t k := by simp
    simp only [Function.comp_def, change, this, sum_affine, List.length_map]
    field_simp

theorem calculateCentroids_change (a : K) (t : Fin d → K) (σ : Equiv.Perm (Fin d)) (x : List (Fin d → K)) (lab : List Nat) :
    calculateCentroids (x.map (change a t σ)) lab = (calculateCentroids x lab).map (Option.map (change a t σ)) := by
  simp only [calculateCentroids, List.map_map, Function.comp_def, members_change, mean_change]

theorem rowDiffers_change {a : K} (ha : a ≠ 0) (t : Fin d → K) (σ : Equiv.Perm (Fin d)) (tol : K) (u v : Option (Fin d → K)) :
    rowDiffers (|a| * tol) (u.map (change a t σ)) (v.map (change a t σ)) = rowDiffers tol u v := by
  cases u with
  | none => rfl
  | some u =>
    cases v with
    | none => rfl
    | some v =>
      simp only [Option.map_some, rowDiffers, decide_eq_decide]
      have hk : ∀ k, (|a| * tol < |change a t σ u k - change a t σ v k| ↔ tol < |u (σ k) - v (σ k)|) := by
        intro k
        have : change a t σ u k - change a t σ v k = a * (u (σ k) - v (σ k)) := by unfold change; ring
        rw [this, abs_mul]
        exact mul_lt_mul_iff_right₀ (abs_pos.2 ha)
      constructor
      · rintro ⟨k, h⟩; exact ⟨σ k, (hk k).1 h⟩
      · rintro ⟨k, h⟩; exact ⟨σ.symm k, (hk _).2 (by simpa using h)⟩

theorem compareDifferences_change {a : K} (ha : a ≠ 0) (t : Fin d → K) (σ : Equiv.Perm (Fin d)) (tol : K) (cs cs' : List (Option (Fin d → K))) :
    compareDifferences (cs.map (Option.map (change a t σ))) (cs'.map (Option.map (change a t σ))) (|a| * tol) = compareDifferences cs cs' tol := by
  unfold compareDifferences
  by_cases h : cs.length = cs'.length
  · rw [if_pos (by simpa using h), if_pos h, List.zipWith_map]
    simp only [rowDiffers_change ha]
  · rw [if_neg (by simpa using h), if_neg h]
    match cs, cs' with
    | cs, [b] => simp [Function.comp_def, rowDiffers_change ha]
    | [c], [] => simp
    | [c], b :: b' :: l => simp [Function.comp_def, rowDiffers_change ha]
    | [], [] => simp
    | [], b :: b' :: l => rfl
    | c :: c' :: l, [] => rfl
    | c :: c' :: l, b :: b' :: m => rfl

/-- **C180.** Measuring the features in another unit (a factor `a ≠ 0` and the tolerance scaled with it), from another origin or listing them in another order
changes nothing: `fit` raises in the same cases, stops in the same epoch, gives the same labels and the same centroids in the new coordinates. -/
theorem C180_units_and_origin {root : K → K} (hr : RootOK root) (a : K) (ha : a ≠ 0) (t : Fin d → K) (σ : Equiv.Perm (Fin d)) (x init : List (Fin d → K)) (tol : K)
    (epochs : Nat) :
    fit root (x.map (change a t σ)) (|a| * tol) epochs (init.map (change a t σ)) =
      (fit root x tol epochs init).map fun r => { r with centroids := r.centroids.map (Option.map (change a t σ)) } := by
  have key : ∀ (e : Nat) (cs : List (Option (Fin d → K))) (lab : Option (List Nat)),
      fitLoop root (x.map (change a t σ)) (|a| * tol) e (cs.map (Option.map (change a t σ))) lab =
        (fitLoop root x tol e cs lab).map fun r => { r with centroids := r.centroids.map (Option.map (change a t σ)) } := by
    intro e
    induction e with
    | zero => intro cs lab; rfl
    | succ e ih =>
      intro cs lab
      simp only [fitLoop, getCluster_change hr ha]
      cases getCluster root x cs with
      | none => rfl
      | some lab' =>
        dsimp only
        rw [calculateCentroids_change, compareDifferences_change ha]
        cases compareDifferences cs (calculateCentroids x lab') tol with
        | error er => rfl
        | ok diff =>
          dsimp only
          by_cases h : diff.any id = true
          · rw [if_pos h, if_pos h]; exact ih _ _
          · rw [if_neg h, if_neg h]; rfl
  have := key epochs (init.map some) none
  rw [List.map_map] at this
  unfold fit
  rw [List.map_map]
  exact this

/-- …and the predictions of the two models agree on every sample. -/
theorem C180_predict {root : K → K} (hr : RootOK root) (a : K) (ha : a ≠ 0) (t : Fin d → K) (σ : Equiv.Perm (Fin d)) (cs : List (Option (Fin d → K)))
    (x : List (Fin d → K)) :
    predict root (cs.map (Option.map (change a t σ))) (x.map (change a t σ)) = predict root cs x :=
  getCluster_change hr ha t σ x cs

/-- Centimetres instead of metres, another origin and the two features swapped. -/
example : fit id ([![0, 1], ![1, 2], ![10, 10]].map (change 100 ![5, 7] (Equiv.swap 0 1))) (|100| * (1 / 10)) 5 ([![0, 0], ![9, 9]].map (change 100 ![5, 7] (Equiv.swap 0 1)))
    = .ok (⟨[some ![155, 57], some ![1005, 1007]], some [0, 0, 1], true⟩ : Fitted ℚ 2) := by decide +kernel

/-! ## The order of the samples -/

section order
variable {n : Nat}

theorem getCluster_ofFn (root : K → K) (cs : List (Option (Fin d → K))) (x : Fin n → Fin d → K) :
    (∃ g : (Fin d → K) → Nat, ∀ σ : Equiv.Perm (Fin n), getCluster root (List.ofFn (x ∘ σ)) cs = some (List.ofFn fun i => g (x (σ i)))) ∨
    (∀ σ : Equiv.Perm (Fin n), getCluster root (List.ofFn (x ∘ σ)) cs = none) := by
  by_cases h : ∀ i, (argminNaN (distances root (x i) cs)).isSome
  · left
    refine ⟨fun u => (argminNaN (distances root u cs)).getD 0, fun σ => ?_⟩
    unfold getCluster
    rw [mapM_eq_some_map _ (fun u => (argminNaN (distances root u cs)).getD 0), List.map_ofFn]
    · rfl
    · intro u hu
      obtain ⟨i, rfl⟩ := List.mem_ofFn.1 hu
      obtain ⟨c, hc⟩ := Option.isSome_iff_exists.1 (h (σ i))
      simp [hc]
  · right
    push Not at h
    obtain ⟨i, hi⟩ := h
    intro σ
    refine mapM_eq_none _ _ (x i) (List.mem_ofFn.2 ⟨σ.symm i, by simp⟩) (by simpa using hi)

theorem mean_perm {l l' : List (Fin d → K)} (h : l.Perm l') : mean l = mean l' := by
  unfold mean
  by_cases hl : l = []
  · subst hl; have := h.symm.eq_nil; subst this; rfl
  · rw [if_neg hl, if_neg (fun e => hl (by subst e; exact h.eq_nil))]
    rw [h.length_eq]
    congr 1
    funext k
    rw [(h.map fun r => r k).sum_eq]

theorem calculateCentroids_perm (x : Fin n → Fin d → K) (g : (Fin d → K) → Nat) (σ : Equiv.Perm (Fin n)) :
    calculateCentroids (List.ofFn (x ∘ σ)) (List.ofFn fun i => g (x (σ i))) = calculateCentroids (List.ofFn x) (List.ofFn fun i => g (x i)) := by
  have hp : (List.ofFn fun i => g (x (σ i))).Perm (List.ofFn fun i => g (x i)) := Equiv.Perm.ofFn_comp_perm σ (fun i => g (x i))
  have hz : ((List.ofFn (x ∘ σ)).zip (List.ofFn fun i => g (x (σ i)))).Perm ((List.ofFn x).zip (List.ofFn fun i => g (x i))) := by
    rw [zip_ofFn, zip_ofFn]
    exact Equiv.Perm.ofFn_comp_perm σ (fun i => (x i, g (x i)))
  have hn : Ops.numUnique (List.ofFn fun i => g (x (σ i))) = Ops.numUnique (List.ofFn fun i => g (x i)) := hp.dedup.length_eq
  unfold calculateCentroids
  rw [hn]
  refine List.map_congr_left fun c _ => mean_perm ?_
  exact (hz.filter _).map _

/-- **C181.** Listing the samples in another order gives the same centroids, and every sample the label it had. -/
theorem C181_sample_order (root : K → K) (x : Fin n → Fin d → K) (σ : Equiv.Perm (Fin n)) (tol : K) (epochs : Nat) (init : List (Fin d → K)) :
    (∃ er, fit root (List.ofFn x) tol epochs init = .error er ∧ fit root (List.ofFn (x ∘ σ)) tol epochs init = .error er) ∨
    ∃ r r', fit root (List.ofFn x) tol epochs init = .ok r ∧ fit root (List.ofFn (x ∘ σ)) tol epochs init = .ok r' ∧
      r'.centroids = r.centroids ∧ r'.stopped = r.stopped ∧
      ((r.clusters = none ∧ r'.clusters = none) ∨ ∃ label : Fin n → Nat, r.clusters = some (List.ofFn label) ∧ r'.clusters = some (List.ofFn (label ∘ σ))) := by
  have key : ∀ (e : Nat) (cs : List (Option (Fin d → K))) (lab lab' : Option (List Nat)),
      ((lab = none ∧ lab' = none) ∨ ∃ label : Fin n → Nat, lab = some (List.ofFn label) ∧ lab' = some (List.ofFn (label ∘ σ))) →
      (∃ er, fitLoop root (List.ofFn x) tol e cs lab = .error er ∧ fitLoop root (List.ofFn (x ∘ σ)) tol e cs lab' = .error er) ∨
      ∃ r r', fitLoop root (List.ofFn x) tol e cs lab = .ok r ∧ fitLoop root (List.ofFn (x ∘ σ)) tol e cs lab' = .ok r' ∧
        r'.centroids = r.centroids ∧ r'.stopped = r.stopped ∧
        ((r.clusters = none ∧ r'.clusters = none) ∨ ∃ label : Fin n → Nat, r.clusters = some (List.ofFn label) ∧ r'.clusters = some (List.ofFn (label ∘ σ))) := by
    intro e
    induction e with
    | zero => intro cs lab lab' h; exact .inr ⟨_, _, rfl, rfl, rfl, rfl, h⟩
    | succ e ih =>
      intro cs lab lab' h
      simp only [fitLoop]
      rcases getCluster_ofFn root cs x with ⟨g, hg⟩ | hg
      · have h1 : getCluster root (List.ofFn x) cs = some (List.ofFn fun i => g (x i)) := hg 1
        rw [h1, hg σ]
        dsimp only
        rw [calculateCentroids_perm x g σ]
        have hlab : ((some (List.ofFn fun i => g (x i)) : Option (List Nat)) = none ∧ (some (List.ofFn fun i => g (x (σ i))) : Option (List Nat)) = none) ∨
            ∃ label : Fin n → Nat, some (List.ofFn fun i => g (x i)) = some (List.ofFn label) ∧
              some (List.ofFn fun i => g (x (σ i))) = some (List.ofFn (label ∘ σ)) := .inr ⟨fun i => g (x i), rfl, rfl⟩
        cases compareDifferences cs (calculateCentroids (List.ofFn x) (List.ofFn fun i => g (x i))) tol with
        | error er => exact .inl ⟨er, rfl, rfl⟩
        | ok diff =>
          dsimp only
          by_cases hd : diff.any id = true
          · rw [if_pos hd, if_pos hd]
            exact ih _ _ _ hlab
          · rw [if_neg hd, if_neg hd]
            exact .inr ⟨_, _, rfl, rfl, rfl, rfl, hlab⟩
      · have h1 : getCluster root (List.ofFn x) cs = none := hg 1
        rw [h1, hg σ]
        exact .inl ⟨_, rfl, rfl⟩
  exact key epochs _ none none (.inl ⟨rfl, rfl⟩)

/-- Three samples in two orders. -/
example : fit id (List.ofFn ![![0], ![10], ![1]]) (1/1000) 9 [![0], ![1]] = .ok (⟨[some ![1/2], some ![10]], some [0, 1, 0], true⟩ : Fitted ℚ 1) ∧
    fit id (List.ofFn (![![0], ![10], ![1]] ∘ Equiv.swap 0 1)) (1/1000) 9 [![0], ![1]] = .ok (⟨[some ![1/2], some ![10]], some [1, 0, 0], true⟩ : Fitted ℚ 1) := by
  decide +kernel

end order

/-! ## Repeated samples -/

theorem members_append (x x' : List (Fin d → K)) (lab lab' : List Nat) (h : lab.length = x.length) (c : Nat) :
    members (x ++ x') (lab ++ lab') c = members x lab c ++ members x' lab' c := by
  unfold members
  rw [List.zip_append h.symm, List.filter_append, List.map_append]

theorem mean_twice (l : List (Fin d → K)) : mean (l ++ l) = mean l := by
  unfold mean
  by_cases h : l = []
  · simp [h]
  · rw [if_neg (by simpa using h), if_neg h]
    congr 1
    funext k
    have hn : (l.length : K) ≠ 0 := by exact_mod_cast (List.length_pos_of_ne_nil h).ne'
    simp only [List.map_append, List.sum_append, List.length_append]
    push_cast
    field_simp

/-- **C181.** A data set in which every sample is given twice is clustered like the data set itself: the same centroids, and both copies of every sample have its label. -/
theorem C181_samples_twice (root : K → K) (x : List (Fin d → K)) (tol : K) (epochs : Nat) (init : List (Fin d → K)) :
    fit root (x ++ x) tol epochs init = (fit root x tol epochs init).map fun r => { r with clusters := r.clusters.map fun l => l ++ l } := by
  have hg : ∀ cs, getCluster root (x ++ x) cs = (getCluster root x cs).map fun l => l ++ l := by
    intro cs
    unfold getCluster
    rw [List.mapM_append]
    cases x.mapM fun u => argminNaN (distances root u cs) <;> rfl
  have hc : ∀ lab : List Nat, lab.length = x.length → calculateCentroids (x ++ x) (lab ++ lab) = calculateCentroids x lab := by
    intro lab hl
    unfold calculateCentroids
    have : Ops.numUnique (lab ++ lab) = Ops.numUnique lab := by
      unfold Ops.numUnique
      rw [← List.card_toFinset, ← List.card_toFinset]
      simp
    rw [this]
    exact List.map_congr_left fun c _ => by rw [members_append _ _ _ _ hl, mean_twice]
  have key : ∀ (e : Nat) (cs : List (Option (Fin d → K))) (lab : Option (List Nat)),
      fitLoop root (x ++ x) tol e cs (lab.map fun l => l ++ l) = (fitLoop root x tol e cs lab).map fun r => { r with clusters := r.clusters.map fun l => l ++ l } := by
    intro e
    induction e with
    | zero => intro cs lab; rfl
    | succ e ih =>
      intro cs lab
      simp only [fitLoop, hg]
      cases hgx : getCluster root x cs with
      | none => rfl
      | some lab' =>
        have hl := (mapM_some _ _ hgx).1
        simp only [Option.map_some]
        rw [hc lab' hl]
        cases compareDifferences cs (calculateCentroids x lab') tol with
        | error er => rfl
        | ok diff =>
          dsimp only
          by_cases h : diff.any id = true
          · rw [if_pos h, if_pos h]; exact ih _ (some lab')
          · rw [if_neg h, if_neg h]; rfl
  exact key epochs _ none

/-- The order of the *centroids*, in contrast, decides what happens when a cluster is empty: with the occupied centroid first training goes on with a single
centroid, with the occupied one last it stops at once and keeps both. -/
theorem C181_centroid_order_matters :
    fit id [![0], ![1]] (1/1000) 10 [![0], ![100]] = .ok (⟨[some ![1/2]], some [0, 0], true⟩ : Fitted ℚ 1) ∧
    fit id [![0], ![1]] (1/1000) 10 [![100], ![0]] = .ok (⟨[some ![100], some ![0]], some [1, 1], true⟩ : Fitted ℚ 1) := by
  decide +kernel

end CML.KMeans
