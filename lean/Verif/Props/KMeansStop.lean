import Verif.Props.KMeans
import Mathlib.Data.Fintype.CardEmbedding

set_option linter.unusedSectionVars false

/-! # Property C179: k-means training comes to an end by itself -/

namespace CML.KMeans
open Finset

variable {K : Type*} [Field K] [LinearOrder K] [IsStrictOrderedRing K] {d : Nat}

theorem sum_sq_mean_lt (l : List K) (m v : K) (hm : (l.length : K) * m = l.sum) (hl : l ≠ []) (hv : m ≠ v) :
    (l.map fun r => (r - m) ^ 2).sum < (l.map fun r => (r - v) ^ 2).sum := by
  rw [sum_sq_shift l m v, hm, sub_self]
  have h1 : (0 : K) < l.length := by exact_mod_cast List.length_pos_of_ne_nil hl
  have h2 : 0 < (m - v) ^ 2 := by
    have := sub_ne_zero.2 hv
    positivity
  have := mul_pos h1 h2
  linarith

theorem sum_dist2_mean_lt (rows : List (Fin d → K)) (m v : Fin d → K)
    (hm : ∀ k, (rows.length : K) * m k = (rows.map fun r => r k).sum) (hr : rows ≠ []) (hv : m ≠ v) :
    (rows.map fun r => dist2 r m).sum < (rows.map fun r => dist2 r v).sum := by
  obtain ⟨k, hk⟩ := Function.ne_iff.1 hv
  rw [sum_dist2, sum_dist2]
  refine sum_lt_sum (fun k _ => sum_sq_mean_le _ _ _ (by simpa using hm k)) ⟨k, mem_univ _, ?_⟩
  exact sum_sq_mean_lt _ _ _ (by simpa using hm k) (by simpa using hr) hk

/-- Moving the centroids to the means strictly lowers the sum of squares, unless nothing moves. -/
theorem wcss_mean_lt {x : List (Fin d → K)} {lab : List Nat} {cs cs' : List (Fin d → K)}
    (hv : ∀ l ∈ lab, l < cs.length) (hl : cs'.length = cs.length)
    (hm : ∀ c v, cs'[c]? = some v → IsClusterMean x lab c v) (hne : cs' ≠ cs) :
    wcss x cs' lab < wcss x cs lab := by
  have hv' : ∀ l ∈ lab, l < cs'.length := fun l h => hl ▸ hv l h
  unfold wcss
  rw [sum_by_label (x.zip lab) cs'.length (distTo cs')
    (fun p hp => hv' _ (mem_zip_lab hp)),
    sum_by_label (x.zip lab) cs'.length (distTo cs)
    (fun p hp => hv' _ (mem_zip_lab hp))]
  have hex : ∃ c, ∃ h : c < cs'.length, cs'[c] ≠ cs[c]'(hl ▸ h) := by
    by_contra hno
    push Not at hno
    exact hne (List.ext_getElem hl fun i h1 _ => hno i h1)
  obtain ⟨c, hc, hcne⟩ := hex
  refine sum_lt_sum (fun c hc => ?_) ⟨c, mem_range.2 hc, ?_⟩
  · have hc' := mem_range.1 hc
    simp only [distTo, List.getElem?_eq_getElem hc', List.getElem?_eq_getElem (hl ▸ hc' : c < cs.length)]
    exact sum_dist2_mean_le _ _ _ (hm c _ (List.getElem?_eq_getElem hc')).2
  · simp only [distTo, List.getElem?_eq_getElem hc, List.getElem?_eq_getElem (hl ▸ hc : c < cs.length)]
    have h := hm c _ (List.getElem?_eq_getElem hc)
    exact sum_dist2_mean_lt _ _ _ h.2 h.1 hcne

/-- The sum of squares of a centroid matrix with its nearest labels. -/
def potential (root : K → K) (x : List (Fin d → K)) (cs : List (Option (Fin d → K))) : K :=
  match getCluster root x cs with
  | some lab => wcss x (cs.map fun c => c.getD 0) lab
  | none => 0

theorem potential_some (root : K → K) (x : List (Fin d → K)) (cs : List (Fin d → K)) (lab : List Nat) (h : getCluster root x (cs.map some) = some lab) :
    potential root x (cs.map some) = wcss x cs lab := by
  unfold potential
  rw [h]
  simp [List.map_map, Function.comp_def]

theorem zipWith_differs (tol : K) (ht : 0 ≤ tol) (cs cs' : List (Fin d → K)) (h : (List.zipWith (rowDiffers tol) (cs.map some) (cs'.map some)).any id = true) :
    cs' ≠ cs := by
  rintro rfl
  have : ∀ l : List (Fin d → K), (List.zipWith (rowDiffers tol) (l.map some) (l.map some)).any id = false := by
    intro l
    induction l with
    | nil => rfl
    | cons a l ih =>
      simp only [List.map_cons, List.zipWith_cons_cons, List.any_cons, ih, Bool.or_false]
      simp [rowDiffers, ht]
  rw [this] at h
  cases h

/-- A run of `e` epochs that does not stop by itself has gone through `e` different labellings, up to a last phase with a single centroid. -/
theorem not_stopped_chain {root : K → K} (hr : RootOK root) (x : List (Fin d → K)) (tol : K) (ht : 0 ≤ tol) (e : Nat) :
    ∀ (cs : List (Fin d → K)) (lab0 : Option (List Nat)) (r : Fitted K d), cs ≠ [] → fitLoop root x tol e (cs.map some) lab0 = .ok r → r.stopped = false →
      ∃ L : List (List Nat), L.Nodup ∧ (∀ l ∈ L, ValidLabels cs x l) ∧
        (∀ l ∈ L, potential root x (calculateCentroids x l) < potential root x (cs.map some)) ∧
        (e ≤ L.length ∨ (cs.length ≠ 1 ∧ ∃ (e' : Nat) (c : Fin d → K) (lab1 : Option (List Nat)), e ≤ L.length + 1 + e' ∧
          fitLoop root x tol e' [some c] lab1 = .ok r)) := by
  induction e with
  | zero => intro cs lab0 r _ _ _; exact ⟨[], List.nodup_nil, by simp, by simp, .inl (Nat.zero_le _)⟩
  | succ e ih =>
    intro cs lab0 r hcs h hs
    simp only [fitLoop] at h
    split at h
    · simp at h
    · rename_i lab hlab
      split at h
      · simp at h
      · rename_i diff hdiff
        have hv := getCluster_valid hr hlab
        split at h
        · rename_i hany
          obtain ⟨cs1, e1, e2, e3, e4, e5⟩ := continue_spec hcs hv hdiff hany
          rw [e1] at h
          by_cases hlen : cs1.length = cs.length
          · -- an ordinary step
            have hne : cs1 ≠ cs := by
              rw [e1] at hdiff
              unfold compareDifferences at hdiff
              rw [if_pos (by simp [hlen])] at hdiff
              injection hdiff with hdiff
              rw [← hdiff] at hany
              exact zipWith_differs tol ht cs cs1 hany
            obtain ⟨lab1, hlab1⟩ := getCluster_some root x e2
            obtain ⟨g1, g2⟩ := getCluster_nearest hr hlab1
            have hlt : potential root x (cs1.map some) < potential root x (cs.map some) := by
              rw [potential_some root x cs1 lab1 hlab1, potential_some root x cs lab hlab]
              exact lt_of_le_of_lt (wcss_nearest_le g2 g1 ⟨hv.1, e4⟩) (wcss_mean_lt hv.2 hlen e5 hne)
            obtain ⟨L, h1, h2, h3, h4⟩ := ih cs1 (some lab) r e2 h hs
            refine ⟨lab :: L, List.nodup_cons.2 ⟨fun hm => ?_, h1⟩, ?_, ?_, ?_⟩
            · have := h3 lab hm
              rw [e1] at this
              exact lt_irrefl _ this
            · intro l hl
              rcases List.mem_cons.1 hl with rfl | hl
              · exact hv
              · have := h2 l hl
                exact ⟨this.1, fun c hc => hlen ▸ this.2 c hc⟩
            · intro l hl
              rcases List.mem_cons.1 hl with rfl | hl
              · rw [e1]; exact hlt
              · exact (h3 l hl).trans hlt
            · rcases h4 with h4 | ⟨hk, e', c, lab1, h5, h6⟩
              · left; simp only [List.length_cons]; omega
              · right
                exact ⟨by rw [← hlen]; exact hk, e', c, lab1, by simp only [List.length_cons]; omega, h6⟩
          · -- the step to a single centroid
            have h1 : cs1.length = 1 := by rcases e3 with h | h; exacts [absurd h hlen, h]
            obtain ⟨c, rfl⟩ := List.length_eq_one_iff.1 h1
            exact ⟨[], List.nodup_nil, by simp, by simp, .inr ⟨fun h => hlen (h1.trans h.symm), e, c, some lab, by simp, h⟩⟩
        · injection h with h
          subst h
          simp at hs

/-- There are at most `k ^ n` labellings of `n` samples with `k` labels. -/
theorem labellings_le {x : List (Fin d → K)} {cs : List (Fin d → K)} (L : List (List Nat)) (hn : L.Nodup) (hv : ∀ l ∈ L, ValidLabels cs x l) :
    L.length ≤ cs.length ^ x.length := by
  by_cases hk : cs.length = 0
  · cases hx : x with
    | nil =>
      have : ∀ l ∈ L, l = [] := fun l hl => List.length_eq_zero_iff.1 (by rw [(hv l hl).1, hx]; rfl)
      have h1 : L.length ≤ 1 := by
        match L, hn, this with
        | [], _, _ => simp
        | [a], _, _ => simp
        | a :: b :: L, hn, h =>
          rw [h a (by simp), h b (by simp)] at hn
          simp at hn
      simpa using h1
    | cons u x' =>
      cases L with
      | nil => simp
      | cons l L =>
        obtain ⟨h1, h2⟩ := hv l (by simp)
        rw [hx] at h1
        have : 0 < l.length := by rw [h1]; simp
        have := h2 l[0] (List.getElem_mem this)
        omega
  · have hk' : 0 < cs.length := Nat.pos_of_ne_zero hk
    let f : List Nat → (Fin x.length → Fin cs.length) := fun l i => ⟨(l[i.val]?.getD 0) % cs.length, Nat.mod_lt _ hk'⟩
    have hinj : ∀ a ∈ L, ∀ b ∈ L, f a = f b → a = b := by
      intro a ha b hb hab
      obtain ⟨a1, a2⟩ := hv a ha
      obtain ⟨b1, b2⟩ := hv b hb
      refine List.ext_getElem (a1.trans b1.symm) fun i h1 h2 => ?_
      have := congrArg Fin.val (congrFun hab ⟨i, a1 ▸ h1⟩)
      simp only [f, List.getElem?_eq_getElem h1, List.getElem?_eq_getElem h2, Option.getD_some] at this
      rwa [Nat.mod_eq_of_lt (a2 _ (List.getElem_mem h1)), Nat.mod_eq_of_lt (b2 _ (List.getElem_mem h2))] at this
    have hn' : (L.map f).Nodup := (List.nodup_map_iff_inj_on hn).2 hinj
    have := hn'.length_le_card
    simpa using this

/-- **C179.** For every data set, every initial centroid matrix and every non-negative tolerance, training comes to an end by itself: with
`n_clusters ^ n_samples + 3` epochs or more, `fit` either raises (a cluster has lost all its samples) or stops early, every sample
being labelled with its nearest centroid (C13 says what is known of the centroids then). -/
theorem C179_training_ends {root : K → K} (hr : RootOK root) (x : List (Fin d → K)) (tol : K) (ht : 0 ≤ tol) (init : List (Fin d → K)) (hi : init ≠ [])
    (epochs : Nat) (he : init.length ^ x.length + 3 ≤ epochs) :
    fit root x tol epochs init = .error .valueError ∨
      ∃ (r : Fitted K d) (cs : List (Fin d → K)) (labels : List Nat), fit root x tol epochs init = .ok r ∧ r.stopped = true ∧
        r.centroids = cs.map some ∧ r.clusters = some labels ∧ labels.length = x.length ∧
        ∀ (i : Nat) (u : Fin d → K), x[i]? = some u → ∃ c, labels[i]? = some c ∧ IsNearest cs u c := by
  suffices hsuff : fit root x tol epochs init = .error .valueError ∨ ∃ r, fit root x tol epochs init = .ok r ∧ r.stopped = true by
    rcases hsuff with h | ⟨r, h, hs⟩
    · exact .inl h
    · obtain ⟨cs, labels, h1, h2, -, h4, h5⟩ := C13_stopped_labels hr x tol epochs init hi r h hs
      exact .inr ⟨r, cs, labels, h, hs, h1, h2, h4, h5⟩
  unfold fit
  cases h : fitLoop root x tol epochs (init.map some) none with
  | error er =>
    left
    have key : ∀ (e : Nat) (cs : List (Option (Fin d → K))) (lab : Option (List Nat)) (er : PyErr), fitLoop root x tol e cs lab = .error er → er = .valueError := by
      intro e
      induction e with
      | zero => intro cs lab er h; simp [fitLoop] at h
      | succ e ih =>
        intro cs lab er h
        simp only [fitLoop] at h
        split at h
        · injection h with h; exact h.symm
        · split at h
          · rename_i er' hd
            injection h with h
            subst h
            unfold compareDifferences at hd
            split at hd
            · simp at hd
            · split at hd
              · simp at hd
              · simp at hd
              · injection hd with hd; exact hd.symm
          · split at h
            · exact ih _ _ _ h
            · simp at h
    rw [key _ _ _ _ h]
  | ok r =>
    right
    refine ⟨r, rfl, ?_⟩
    by_contra hs
    have hs : r.stopped = false := by simpa using hs
    obtain ⟨L, h1, h2, -, h4⟩ := not_stopped_chain hr x tol ht epochs init none r hi h hs
    have hL := labellings_le L h1 h2
    rcases h4 with h4 | ⟨-, e', c, lab1, h5, h6⟩
    · omega
    · obtain ⟨L', g1, g2, -, g4⟩ := not_stopped_chain hr x tol ht e' [c] lab1 r (by simp) h6 hs
      have hL' := labellings_le L' g1 g2
      simp only [List.length_singleton, one_pow] at hL'
      rcases g4 with g4 | ⟨hk, -⟩
      · omega
      · simp at hk

/-- …and the number of epochs beyond that point does not matter: a run that stopped by itself gives the same model with any larger number of epochs. -/
theorem C179_more_epochs (root : K → K) (x : List (Fin d → K)) (tol : K) (init : List (Fin d → K)) (e e' : Nat) (hee : e ≤ e') (r : Fitted K d)
    (h : fit root x tol e init = .ok r) (hs : r.stopped = true) : fit root x tol e' init = .ok r := by
  have key : ∀ (e e' : Nat) (cs : List (Option (Fin d → K))) (lab : Option (List Nat)), e ≤ e' → fitLoop root x tol e cs lab = .ok r →
      fitLoop root x tol e' cs lab = .ok r := by
    intro e
    induction e with
    | zero =>
      intro e' cs lab _ h
      simp only [fitLoop, Except.ok.injEq] at h
      rw [← h] at hs
      simp at hs
    | succ e ih =>
      intro e' cs lab hle h
      obtain ⟨e'', rfl⟩ : ∃ k, e' = k + 1 := ⟨e' - 1, by omega⟩
      simp only [fitLoop] at h ⊢
      split at h
      · simp at h
      · rename_i lab hlab
        split at h
        · simp at h
        · split at h
          · rename_i hany
            rw [if_pos hany]
            exact ih e'' _ _ (by omega) h
          · rename_i hany
            rw [if_neg hany]
            exact h
  exact key e e' _ _ hee h

/-- A negative tolerance defeats the test: with any number of epochs training does not stop by itself (one sample, one centroid). -/
theorem C179_negative_tolerance (root : K → K) (tol : K) (ht : tol < 0) (u : Fin (d + 1) → K) (epochs : Nat) :
    ∃ r, fit root [u] tol epochs [u] = .ok r ∧ r.stopped = false := by
  have hg : getCluster root [u] [some u] = some [0] := by
    simp [getCluster, distances, argminNaN, argmin?]
    rfl
  have hc : calculateCentroids [u] [0] = [some u] := by
    have : Ops.numUnique [0] = 1 := by decide
    simp [calculateCentroids, this, members, mean]
  have key : ∀ (e : Nat) (lab : Option (List Nat)), ∃ r, fitLoop root [u] tol e [some u] lab = .ok r ∧ r.stopped = false := by
    intro e
    induction e with
    | zero => intro lab; exact ⟨_, rfl, rfl⟩
    | succ e ih =>
      intro lab
      simp only [fitLoop, hg, hc, compareDifferences, if_true]
      have : (List.zipWith (rowDiffers tol) [some u] [some u]).any id = true := by simp [rowDiffers, ht]
      rw [if_pos this]
      exact ih _
  exact key epochs none

/-- Four points, two centroids: training stops by itself. -/
example : ∃ r : Fitted ℚ 1, fit id [![0], ![1], ![10], ![11]] 0 19 [![0], ![1]] = .ok r ∧ r.stopped = true ∧ r.centroids = [some ![1/2], some ![21/2]] :=
  ⟨⟨[some ![1/2], some ![21/2]], some [0, 0, 1, 1], true⟩, by decide +kernel, rfl, rfl⟩

end CML.KMeans
