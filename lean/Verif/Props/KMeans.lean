import Verif.Lemmas.KMeans
import Mathlib.Algebra.Order.Ring.Rat
import Mathlib.Algebra.Field.Rat
import Mathlib.Tactic.NormNum
import Mathlib.Data.Fin.VecNotation
import Mathlib.Algebra.BigOperators.Fin
import Mathlib.Data.Rat.Floor
import Mathlib.Analysis.Real.Sqrt
import Mathlib.Tactic.FinCases

set_option linter.unusedSectionVars false

/-! # Properties C12 - C16 (k-means) -/

namespace CML.KMeans
open Finset

variable {K : Type*} [Field K] [LinearOrder K] [IsStrictOrderedRing K] {d : Nat}

/-- The hypothesis on the root is met by the real square root, the one the code uses ... -/
theorem rootOK_sqrt : RootOK Real.sqrt := fun _ _ ha _ => Real.sqrt_lt_sqrt_iff ha

/-- ... and by the identity, used below to evaluate examples (comparing squares is comparing distances). -/
theorem rootOK_id : RootOK (id : K → K) := fun _ _ _ _ => Iff.rfl

/-! ## C12 -/

/-- C12: with at least one centroid `predict` succeeds and labels every sample with the smallest index of a nearest
centroid. -/
theorem C12_predict_nearest {root : K → K} (hr : RootOK root) (cs : List (Fin d → K)) (hcs : cs ≠ [])
    (x : List (Fin d → K)) :
    ∃ labels, predict root (cs.map some) x = some labels ∧ labels.length = x.length ∧
      ∀ (i : Nat) (u : Fin d → K), x[i]? = some u → ∃ c, labels[i]? = some c ∧ IsNearest cs u c := by
  obtain ⟨lab, h⟩ := getCluster_some root x hcs
  exact ⟨lab, h, getCluster_nearest hr h⟩

/-- Non-vacuity: two centroids at distance 1 of the sample 0 (a tie, the smaller index wins) and a third farther. -/
example : predict (id : ℚ → ℚ) ([![5], ![1], ![-1]].map some) [![0], ![-3], ![4]] = some [1, 2, 0] := by
  decide +kernel

/-! ## C13 -/

/-- C13, labels: if the loop was left before the epoch limit, the stored labels are exactly what `predict` returns for
the training data with the stored centroids, and they are nearest-centroid labels. -/
theorem C13_stopped_labels {root : K → K} (hr : RootOK root) (x : List (Fin d → K)) (tol : K) (epochs : Nat)
    (init : List (Fin d → K)) (hi : init ≠ []) (r : Fitted K d) (h : fit root x tol epochs init = .ok r)
    (hs : r.stopped = true) :
    ∃ (cs : List (Fin d → K)) (labels : List Nat), r.centroids = cs.map some ∧ r.clusters = some labels ∧
      predict root r.centroids x = some labels ∧ labels.length = x.length ∧
      ∀ (i : Nat) (u : Fin d → K), x[i]? = some u → ∃ c, labels[i]? = some c ∧ IsNearest cs u c := by
  obtain ⟨cs, h1, _, _, _, h5⟩ := fitLoop_spec hr x tol epochs init none r hi h
  obtain ⟨lab, diff, g1, g2, _, _⟩ := h5 hs
  exact ⟨cs, lab, h1, g1, by rw [h1]; exact g2, getCluster_nearest hr g2⟩

/-- C13, means: missing from the full statement is the case of a cluster that lost all its samples, for which it is false
(`C13_stop_with_empty_cluster`). -/
theorem C13_stopped_means_partial {root : K → K} (hr : RootOK root) (x : List (Fin d → K)) (tol : K) (epochs : Nat)
    (init : List (Fin d → K)) (hi : init ≠ []) (r : Fitted K d) (h : fit root x tol epochs init = .ok r)
    (hs : r.stopped = true) (cs : List (Fin d → K)) (hc : r.centroids = cs.map some) (labels : List Nat)
    (hl : r.clusters = some labels) (hall : ∀ c < cs.length, c ∈ labels) :
    ∀ (c : Nat) (v : Fin d → K), cs[c]? = some v → ∃ m, IsClusterMean x labels c m ∧ ∀ k, |v k - m k| ≤ tol := by
  obtain ⟨cs', h1, _, _, _, h5⟩ := fitLoop_spec hr x tol epochs init none r hi h
  obtain ⟨lab, diff, g1, g2, g3, g4⟩ := h5 hs
  have hcs : cs' = cs := by
    have := h1.symm.trans hc
    exact List.map_injective_iff.2 (Option.some_injective _) this
  subst hcs
  have hlab : lab = labels := by rw [g1] at hl; exact Option.some.inj hl
  subst hlab
  have hv := getCluster_valid hr g2
  have hn := numUnique_all hv.2 hall
  have hlen : (calculateCentroids x lab).length = cs'.length := by simp [calculateCentroids, hn]
  unfold compareDifferences at g3
  rw [if_pos (by simp [hlen])] at g3
  injection g3 with g3
  intro c v hcv
  have hcl : c < cs'.length := (List.getElem?_eq_some_iff.1 hcv).1
  obtain ⟨m, hm⟩ := mean_some (members_ne_nil hv.1 (hall c hcl))
  refine ⟨m, mean_isClusterMean hm, fun k => ?_⟩
  have hnew : (calculateCentroids x lab)[c]? = some (some m) := by
    unfold calculateCentroids
    rw [List.getElem?_map, List.getElem?_range (by omega)]
    simp [hm]
  have hd : diff[c]? = some (rowDiffers tol (some v) (some m)) := by
    rw [← g3, List.getElem?_zipWith, List.getElem?_map, hcv, hnew]; rfl
  have := List.any_eq_false.1 g4 _ (List.mem_of_getElem? hd)
  simp only [rowDiffers, id, decide_eq_true_eq, not_exists, not_lt] at this
  exact this k

/-- Non-vacuity of both: two clusters on a line, stopped early with all labels occurring. -/
example : (match fit (id : ℚ → ℚ) [![0], ![1], ![10], ![11]] (1/1000) 10 [![0], ![1]] with
    | .ok r => r.stopped && (r.clusters == some [0, 0, 1, 1]) && decide (r.centroids = [some ![1/2], some ![21/2]])
    | .error _ => false) = true := by
  decide +kernel

/-- The second half of C13 fails: samples 10 and 20, initial centroids -100 and 0. Both samples go to centroid 1, so
`calculate_centroids` builds a single row, the mean of cluster 0, which is `NaN`; nothing compares greater than `tol` and
`fit` stops at once with centroid 0 for a cluster whose mean is 15. -/
theorem C13_stop_with_empty_cluster :
    ∃ r : Fitted ℚ 1, fit id [![10], ![20]] (1/1000) 10 [![-100], ![0]] = .ok r ∧ r.stopped = true ∧
      r.centroids = [some ![-100], some ![0]] ∧ r.clusters = some [1, 1] ∧
      IsClusterMean [![10], ![20]] [1, 1] 1 (![15] : Fin 1 → ℚ) ∧ ¬ |(0 : ℚ) - 15| ≤ 1/1000 := by
  refine ⟨⟨[some ![-100], some ![0]], some [1, 1], true⟩, ?_, rfl, rfl, rfl, ?_, by norm_num [abs_of_neg]⟩
  · decide +kernel
  · refine ⟨by simp, fun k => ?_⟩
    fin_cases k
    norm_num

/-- C12 fails for a model with a `NaN` centroid (only loaded weights can have one): every sample gets the index of the first such
centroid, however close other centroids are. -/
theorem C12_nan_wins (root : K → K) (pre : List (Fin d → K)) (post : List (Option (Fin d → K))) (x : List (Fin d → K)) :
    predict root (pre.map some ++ none :: post) x = some (List.replicate x.length pre.length) := by
  have key : ∀ u : Fin d → K, argminNaN (distances root u (pre.map some ++ none :: post)) = some pre.length := by
    intro u
    have : (distances root u (pre.map some ++ none :: post)).findIdx? Option.isNone = some pre.length := by
      have h : ∀ q : List (Fin d → K), (distances root u (q.map some ++ none :: post)).findIdx? Option.isNone = some q.length := by
        intro q
        induction q with
        | nil => simp [distances, List.findIdx?_cons]
        | cons a q ih =>
          simp only [distances, List.map_cons, List.cons_append] at ih ⊢
          rw [List.findIdx?_cons, ih]
          simp
      exact h pre
    rw [argminNaN, this]
  simp only [predict, getCluster]
  induction x with
  | nil => rfl
  | cons u x ih => rw [List.mapM_cons, key, ih]; rfl

/-! ## C14 -/

/-- C14, one iteration: nearest labels, then means (no cluster becoming empty), then nearest labels again: the within-cluster
sum of squares is at most what it was with any valid labels before. -/
theorem C14_iteration_wcss {root : K → K} (hr : RootOK root) (x : List (Fin d → K)) (cs cs' : List (Fin d → K))
    (before labels : List Nat) (hb : ValidLabels cs x before)
    (hl : getCluster root x (cs.map some) = some labels)
    (hall : ∀ c < cs.length, c ∈ labels)
    (hc : calculateCentroids x labels = cs'.map some) :
    cs'.length = cs.length ∧ wcss x cs' labels ≤ wcss x cs labels ∧ wcss x cs labels ≤ wcss x cs before := by
  have hv := getCluster_valid hr hl
  obtain ⟨g1, g2⟩ := getCluster_nearest hr hl
  have hn := numUnique_all hv.2 hall
  have hlen : cs'.length = cs.length := by
    have := congrArg List.length hc
    simp [calculateCentroids, hn] at this
    exact this.symm
  refine ⟨hlen, wcss_mean_le hv.2 (by rw [hlen]; exact hv.2) ?_, wcss_nearest_le g2 g1 hb⟩
  intro c v hcv
  have h1 : (calculateCentroids x labels)[c]? = some (some v) := by rw [hc, List.getElem?_map, hcv]; rfl
  have hcl : c < Ops.numUnique labels := by
    rw [hn, ← hlen]; exact (List.getElem?_eq_some_iff.1 hcv).1
  unfold calculateCentroids at h1
  rw [List.getElem?_map, List.getElem?_range hcl] at h1
  simp only [Option.map_some, Option.some.injEq] at h1
  exact mean_isClusterMean h1

/-- C14, a whole training run: whenever `fit` returns (whatever the epochs, and whether or not it stopped early), the
labels `predict` gives the training data have a within-cluster sum of squares at most that of the initial centroids with
any valid labels. -/
theorem C14_fit_wcss {root : K → K} (hr : RootOK root) (x : List (Fin d → K)) (tol : K) (epochs : Nat)
    (init : List (Fin d → K)) (hi : init ≠ []) (r : Fitted K d) (h : fit root x tol epochs init = .ok r)
    (before : List Nat) (hb : ValidLabels init x before) :
    ∃ (cs : List (Fin d → K)) (labels : List Nat), r.centroids = cs.map some ∧
      predict root r.centroids x = some labels ∧ wcss x cs labels ≤ wcss x init before := by
  obtain ⟨cs, h1, h2, _, h4, _⟩ := fitLoop_spec hr x tol epochs init none r hi h
  obtain ⟨lab, hl⟩ := getCluster_some root x h2
  exact ⟨cs, lab, h1, by rw [h1]; exact hl, h4 lab hl before hb⟩

/-- Non-vacuity: on four points the first iteration strictly decreases the sum of squares (101/2 after, 182 before). -/
example : ValidLabels ([![0], ![1]] : List (Fin 1 → ℚ)) [![0], ![1], ![10], ![11]] [0, 1, 1, 1] ∧
    getCluster (id : ℚ → ℚ) [![0], ![1], ![10], ![11]] ([![0], ![1]].map some) = some [0, 1, 1, 1] ∧
    (∀ c < 2, c ∈ [0, 1, 1, 1]) ∧
    wcss [![0], ![1], ![10], ![11]] [![0], ![22/3]] [0, 1, 1, 1] <
      wcss [![0], ![1], ![10], ![11]] ([![0], ![1]] : List (Fin 1 → ℚ)) [0, 1, 1, 1] := by
  refine ⟨⟨by decide, by decide⟩, by decide +kernel, by decide, by decide +kernel⟩

/-! ## C15 -/

/-- C15: every centroid is finite, and there are `n_clusters` of them, or exactly one. Missing from the full statement: the
collapse to a single centroid (`C15_collapse`) and the failure of `fit` (`C15_fit_fails`) cannot be excluded. -/
theorem C15_centroids_partial {root : K → K} (hr : RootOK root) (x : List (Fin d → K)) (tol : K) (epochs : Nat)
    (init : List (Fin d → K)) (hi : init ≠ []) (r : Fitted K d) (h : fit root x tol epochs init = .ok r) :
    (∀ c ∈ r.centroids, c.isSome) ∧ (r.centroids.length = init.length ∨ r.centroids.length = 1) := by
  obtain ⟨cs, h1, _, h3, _⟩ := fitLoop_spec hr x tol epochs init none r hi h
  rw [h1]
  exact ⟨by simp, by simpa using h3⟩

/-- C15 under the condition that makes it true: as long as no iteration leaves a centroid without samples, `fit` succeeds
with `n_clusters` finite centroids. -/
theorem C15_no_empty_cluster_partial (root : K → K) (hr : RootOK root) (x : List (Fin d → K)) (tol : K) (epochs : Nat)
    (init : List (Fin d → K)) (hi : init ≠ [])
    (hall : ∀ (cs : List (Fin d → K)) labels, Visited root x init cs →
      getCluster root x (cs.map some) = some labels → ∀ c < cs.length, c ∈ labels) :
    ∃ (r : Fitted K d) (cs : List (Fin d → K)), fit root x tol epochs init = .ok r ∧
      r.centroids = cs.map some ∧ cs.length = init.length := by
  have key : ∀ (e : Nat) (cs : List (Fin d → K)) lab0, Visited root x init cs → cs.length = init.length →
      ∃ (r : Fitted K d) (cs' : List (Fin d → K)), fitLoop root x tol e (cs.map some) lab0 = .ok r ∧
        r.centroids = cs'.map some ∧ cs'.length = init.length := by
    intro e
    induction e with
    | zero => intro cs lab0 _ hl; exact ⟨_, cs, rfl, rfl, hl⟩
    | succ e ih =>
      intro cs lab0 hvis hl
      have hne : cs ≠ [] := by
        intro h0; subst h0; exact hi (List.length_eq_zero_iff.1 hl.symm)
      obtain ⟨lab, hlab⟩ := getCluster_some root x hne
      have hv := getCluster_valid hr hlab
      have hn := numUnique_all hv.2 (hall cs lab hvis hlab)
      obtain ⟨cs1, h1⟩ := list_all_some (List.range (Ops.numUnique lab))
        (fun c => mean (members x lab c)) (by
          intro c hc
          exact mean_some (members_ne_nil hv.1 (hall cs lab hvis hlab c (by rw [hn] at hc; simpa using hc))))
      have h1' : calculateCentroids x lab = cs1.map some := h1
      have hl1 : cs1.length = cs.length := by
        have := congrArg List.length h1
        simp at this; omega
      simp only [fitLoop, hlab, h1', compareDifferences, List.length_map, hl1, if_true]
      split
      · exact ih cs1 (some lab) (.step cs cs1 lab hvis hlab h1') (by omega)
      · exact ⟨_, cs, rfl, rfl, hl⟩
  exact key epochs init none .start rfl

/-- Non-vacuity: from centroids 0 and 1 the points 0, 1, 10, 11 visit three centroid pairs, never emptying a cluster. -/
example : ∀ (cs : List (Fin 1 → ℚ)) labels, Visited id [![0], ![1], ![10], ![11]] [![0], ![1]] cs →
    getCluster id [![0], ![1], ![10], ![11]] (cs.map some) = some labels → ∀ c < cs.length, c ∈ labels := by
  have hg1 : getCluster (id : ℚ → ℚ) [![0], ![1], ![10], ![11]] ([![0], ![1]].map some) = some [0, 1, 1, 1] := by
    decide +kernel
  have hg2 : getCluster (id : ℚ → ℚ) [![0], ![1], ![10], ![11]] ([![0], ![22/3]].map some) = some [0, 0, 1, 1] := by
    decide +kernel
  have hg3 : getCluster (id : ℚ → ℚ) [![0], ![1], ![10], ![11]] ([![1/2], ![21/2]].map some) = some [0, 0, 1, 1] := by
    decide +kernel
  have hc1 : calculateCentroids [![0], ![1], ![10], ![11]] [0, 1, 1, 1] =
      ([![0], ![22/3]] : List (Fin 1 → ℚ)).map some := by decide +kernel
  have hc2 : calculateCentroids [![0], ![1], ![10], ![11]] [0, 0, 1, 1] =
      ([![1/2], ![21/2]] : List (Fin 1 → ℚ)).map some := by decide +kernel
  have inj : ∀ a b : List (Fin 1 → ℚ), a.map some = b.map some → a = b := fun a b h =>
    List.map_injective_iff.2 (Option.some_injective _) h
  have hvis : ∀ cs, Visited (id : ℚ → ℚ) [![0], ![1], ![10], ![11]] [![0], ![1]] cs →
      cs = [![0], ![1]] ∨ cs = [![0], ![22/3]] ∨ cs = [![1/2], ![21/2]] := by
    intro cs h
    induction h with
    | start => exact Or.inl rfl
    | step cs cs' labels _ hl hc ih =>
      rcases ih with rfl | rfl | rfl
      · rw [hg1, Option.some.injEq] at hl; subst hl; exact Or.inr (Or.inl (inj _ _ (hc.symm.trans hc1)))
      · rw [hg2, Option.some.injEq] at hl; subst hl; exact Or.inr (Or.inr (inj _ _ (hc.symm.trans hc2)))
      · rw [hg3, Option.some.injEq] at hl; subst hl; exact Or.inr (Or.inr (inj _ _ (hc.symm.trans hc2)))
  intro cs labels hv hl
  rcases hvis cs hv with rfl | rfl | rfl
  · rw [hg1, Option.some.injEq] at hl; subst hl; decide
  · rw [hg2, Option.some.injEq] at hl; subst hl; decide
  · rw [hg3, Option.some.injEq] at hl; subst hl; decide

/-- C15 fails: with samples 0 and 1 and initial centroids 0 and 100, `fit` ends with one centroid instead of two. -/
theorem C15_collapse :
    ∃ r : Fitted ℚ 1, fit id [![0], ![1]] (1/1000) 10 [![0], ![100]] = .ok r ∧ r.centroids = [some ![1/2]] := by
  exact ⟨⟨[some ![1/2]], some [0, 0], true⟩, by decide +kernel, rfl⟩

/-- C15 fails: with three centroids one of which gets no sample while two do, the shapes (3, d) and (2, d) do not broadcast
and `fit` raises `ValueError`. -/
theorem C15_fit_fails :
    fit (id : ℚ → ℚ) [![0], ![10], ![1]] (1/1000) 10 [![0], ![10], ![100]] = .error .valueError := by
  decide +kernel

/-- C15 for `n_clusters = 0`: training on a non-empty data set raises `ValueError` (there is no nearest centroid). -/
theorem C15_no_clusters (root : K → K) (x : List (Fin d → K)) (hx : x ≠ []) (tol : K) (epochs : Nat) :
    fit root x tol (epochs + 1) [] = .error .valueError := by
  cases x with
  | nil => exact absurd rfl hx
  | cons u x => rfl

/-! ## C16 -/

section Init
variable [FloorSemiring K]

/-- C16, default initialisation: for draws in range (what `np.random.randint(0, len(x), n)` returns), the centroids are
`n_clusters` rows of `x`. -/
theorem C16_random (x : List (List K)) (nF nC : Nat) (draw : List Nat) (hd : draw.length = nC)
    (hr : ∀ i ∈ draw, i < x.length) :
    ∃ rows, initCentroids x nF nC .random draw = .ok rows ∧ rows.length = nC ∧ ∀ r ∈ rows, r ∈ x := by
  obtain ⟨rows, h⟩ := mapM_isSome (fun i => x[i]?) draw (fun i hi => by simp [hr i hi])
  have hf : Ops.fancy x draw = some rows := h
  obtain ⟨h1, h2⟩ := mapM_some _ _ h
  refine ⟨rows, by simp [initCentroids, hf], by omega, fun r hrm => ?_⟩
  obtain ⟨i, hi, rfl⟩ := List.mem_iff_getElem.1 hrm
  obtain ⟨b, hb1, hb2⟩ := h2 i draw[i] (by simp)
  have : rows[i] = b := by simpa [hi] using hb1
  rw [this]
  exact List.mem_of_getElem? hb2

/-- C16, index list: at least two integer indices, one per cluster, all in range: row `j` of the result is row `l[j]` of
`x`. Missing from the full statement: a single index (one cluster), which is refused (`C16_single_index_refused`). -/
theorem C16_indices_partial (x : List (List K)) (nF : Nat) (l : List Nat) (draw : List Nat)
    (hl : 2 ≤ l.length) (hr : ∀ i ∈ l, i < x.length) :
    ∃ rows, initCentroids x nF l.length (.vec true (l.map (Nat.cast : Nat → K))) draw = .ok rows ∧
      rows.length = l.length ∧ ∀ (j i : Nat), l[j]? = some i → rows[j]? = x[i]? := by
  obtain ⟨rows, h⟩ := mapM_isSome (fun i => x[i]?) l (fun i hi => by simp [hr i hi])
  have hf : Ops.fancy x l = some rows := h
  obtain ⟨h1, h2⟩ := mapM_some _ _ h
  match l, hl with
  | a :: b :: l, _ =>
    refine ⟨rows, ?_, by simpa using h1, ?_⟩
    · have hn : ¬ (((a :: b :: l).map (Nat.cast : Nat → K)).any (fun v => decide (v < 0)) = true ∨
          ((a :: b :: l).map (Nat.cast : Nat → K)).any (fun v => decide ((x.length : K) ≤ v)) = true) := by
        simp only [List.any_map, List.any_eq_true, Function.comp, decide_eq_true_eq, not_or, not_exists, not_and, not_le,
          not_lt]
        exact ⟨fun i _ => Nat.cast_nonneg _, fun i hi => Nat.cast_lt.2 (hr i hi)⟩
      have hfl : (((a :: b :: l).map (Nat.cast : Nat → K)).map fun v => ⌊v⌋₊) = a :: b :: l := by
        rw [List.map_map]
        conv_rhs => rw [← List.map_id (a :: b :: l)]
        exact List.map_congr_left fun i _ => by simp
      simp only [List.map_cons] at hn hfl
      simp only [initCentroids, squeeze, List.map_cons]
      rw [if_neg (by simp), if_neg (by simp), if_neg hn, if_pos trivial]
      rw [hfl, hf]
    · intro j i hj
      obtain ⟨c, hc1, hc2⟩ := h2 j i hj
      rw [hc1, hc2]

/-- C16, index list refused: wrong length, or an index that is negative or not below the number of rows. -/
theorem C16_indices_refused (x : List (List K)) (nF nC : Nat) (isInt : Bool) (l : List K) (draw : List Nat)
    (h : l.length ≠ nC ∨ ∃ v ∈ l, v < 0 ∨ (x.length : K) ≤ v) :
    initCentroids x nF nC (.vec isInt l) draw = .error .valueError := by
  match l with
  | [] =>
    simp only [initCentroids, squeeze]
    split
    · rfl
    · simp
  | [_] => rfl
  | a :: b :: l =>
    simp only [initCentroids, squeeze]
    by_cases hc : (a :: b :: l).length ≠ nC
    · rw [if_pos hc]
    · rw [if_neg hc, if_neg (by simp), if_pos]
      obtain ⟨v, hv, hv'⟩ := h.resolve_left hc
      rcases hv' with hv' | hv'
      · exact Or.inl (List.any_eq_true.2 ⟨v, hv, by simpa using hv'⟩)
      · exact Or.inr (List.any_eq_true.2 ⟨v, hv, by simpa using hv'⟩)

/-- C16, index list of floating-point numbers: refused with `IndexError`, even if all are integral and in range. -/
theorem C16_float_indices_refused (x : List (List K)) (nF : Nat) (l : List K) (draw : List Nat) (h2 : 2 ≤ l.length)
    (h : ∀ v ∈ l, 0 ≤ v ∧ v < (x.length : K)) :
    initCentroids x nF l.length (.vec false l) draw = .error .indexError := by
  match l, h2 with
  | a :: b :: l, _ =>
    simp only [initCentroids, squeeze]
    rw [if_neg (by simp), if_neg (by simp), if_neg]
    · rfl
    · rintro (hc | hc) <;> obtain ⟨v, hv, hv'⟩ := List.any_eq_true.1 hc
      · exact absurd (h v hv).1 (not_le.2 (by simpa using hv'))
      · exact absurd (h v hv).2 (not_lt.2 (by simpa using hv'))

/-- C16, matrix: at least two clusters and two features. The given matrix is returned verbatim if it has `n_clusters` rows
of `n_features` numbers and refused with `ValueError` otherwise. Missing from the full statement: one cluster or one feature,
for which it is false (`C16_column_is_indices`, `C16_row_refused`). -/
theorem C16_matrix_partial (x : List (List K)) (nF nC : Nat) (isInt : Bool) (rows : List (List K)) (draw : List Nat)
    (h2 : 2 ≤ rows.length) (w : Nat) (hw : 2 ≤ w) (hrect : ∀ r ∈ rows, r.length = w) :
    initCentroids x nF nC (.mat isInt rows) draw =
      if rows.length = nC ∧ w = nF then .ok rows else .error .valueError := by
  match rows, h2 with
  | a :: b :: rows, _ =>
    have ha := hrect a (by simp)
    have hsq : squeeze (.mat isInt (a :: b :: rows)) = .mat isInt (a :: b :: rows) := by
      simp only [squeeze]
      rw [if_neg]
      intro hall
      have := List.all_eq_true.1 hall a (by simp)
      simp at this; omega
    simp only [initCentroids, hsq]
    by_cases hw' : w = nF
    · have hall : ((a :: b :: rows).all fun r => decide (r.length = nF)) = true :=
        List.all_eq_true.2 fun r hr => by simp [hrect r hr, hw']
      simp only [hall, hw', and_true]
    · have hall : ((a :: b :: rows).all fun r => decide (r.length = nF)) = false := by
        rw [List.all_eq_false]
        exact ⟨a, by simp, by simp [ha, hw']⟩
      simp [hall, hw']

/-- C16: what is not `'random'`, a list or an array is refused with `TypeError`; scalars and arrays of three or more
dimensions with `ValueError`. -/
theorem C16_other_refused (x : List (List K)) (nF nC : Nat) (draw : List Nat) :
    initCentroids x nF nC .other draw = .error .typeError ∧
    initCentroids x nF nC .scalar draw = .error .valueError ∧
    initCentroids x nF nC .tensor draw = .error .valueError := ⟨rfl, rfl, rfl⟩

end Init

/-- C16 fails for one feature: the 2 x 1 integer centroid matrix ((1), (0)) is squeezed and taken as row indices. -/
theorem C16_column_is_indices :
    initCentroids ([[7], [8], [9]] : List (List ℚ)) 1 2 (.mat true [[1], [0]]) [] = .ok [[8], [7]] := by
  have : Ops.fancy ([[7], [8], [9]] : List (List ℚ)) [1, 0] = some [[8], [7]] := by decide +kernel
  simp [initCentroids, squeeze, this]

/-- C16 fails for one cluster: a valid 1 x 2 centroid matrix is squeezed to a vector of length 2 and refused. -/
theorem C16_row_refused :
    initCentroids ([[7, 7], [8, 8], [9, 9]] : List (List ℚ)) 2 1 (.mat false [[8, 8]]) [] = .error .valueError := by
  simp [initCentroids, squeeze]

/-- C16 fails for one cluster also with an index list: `[1]` is squeezed to a scalar and refused. -/
theorem C16_single_index_refused :
    initCentroids ([[7, 7], [8, 8], [9, 9]] : List (List ℚ)) 2 1 (.vec true [1]) [] = .error .valueError := rfl

/-- Non-vacuity of the accepting cases. -/
example : initCentroids ([[7, 1], [8, 2], [9, 3]] : List (List ℚ)) 2 2 (.vec true [2, 0]) [] = .ok [[9, 3], [7, 1]] ∧
    initCentroids ([[7, 1], [8, 2], [9, 3]] : List (List ℚ)) 2 2 (.mat false [[1, 2], [3, 4]]) [] =
      .ok [[1, 2], [3, 4]] ∧
    initCentroids ([[7, 1], [8, 2], [9, 3]] : List (List ℚ)) 2 2 .random [1, 1] = .ok [[8, 2], [8, 2]] := by
  have h1 : Ops.fancy ([[7, 1], [8, 2], [9, 3]] : List (List ℚ)) [2, 0] = some [[9, 3], [7, 1]] := by decide +kernel
  have h2 : Ops.fancy ([[7, 1], [8, 2], [9, 3]] : List (List ℚ)) [1, 1] = some [[8, 2], [8, 2]] := by decide +kernel
  refine ⟨?_, ?_, ?_⟩
  · simp [initCentroids, squeeze, h1]; norm_num
  · simp [initCentroids, squeeze]
  · simp [initCentroids, h2]

end CML.KMeans
