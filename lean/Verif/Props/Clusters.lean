import Verif.Props.Margin
import Verif.Lemmas.KMeans
import Verif.Props.KMeans

set_option linter.unusedSectionVars false

/-! # Property C336: k-means finds well separated clusters

k_means.py:67-129, ops.py:128-150, 226-244, 313-349.
-/

namespace CML.KMeans
open Finset

variable {d : Nat}

lemma rowDist_lt_iff (u v w : Fin d → ℝ) : rowDist u v < rowDist u w ↔ dist2 u v < dist2 u w :=
  Real.sqrt_lt_sqrt_iff (Finset.sum_nonneg fun _ _ => sq_nonneg _)

/-- If every sample is nearer to the centroid its group names than to all others, the labels are the groups. -/
lemma assign {root : ℝ → ℝ} (hr : RootOK root) (x : List (Fin d → ℝ)) (lab : List Nat) (hl : lab.length = x.length) (cs : List (Fin d → ℝ)) (hne : cs ≠ [])
    (h : ∀ p ∈ x.zip lab, p.2 < cs.length ∧ ∀ g h v w, p.2 = g → cs[g]? = some v → cs[h]? = some w → h ≠ g → rowDist p.1 v < rowDist p.1 w) :
    getCluster root x (cs.map some) = some lab := by
  obtain ⟨lab', h'⟩ := getCluster_some root x hne
  rw [h']
  congr 1
  obtain ⟨h1, h2⟩ := getCluster_nearest hr h'
  refine List.ext_getElem (by omega) fun i hi hi' => ?_
  have hx : i < x.length := by omega
  obtain ⟨c, hc, v, hv, hmin, -⟩ := h2 i x[i] (List.getElem?_eq_getElem hx)
  rw [List.getElem?_eq_getElem hi] at hc
  simp only [Option.some.injEq] at hc
  rw [hc]
  have hmem : (x[i], lab[i]) ∈ x.zip lab := List.mem_iff_getElem.2 ⟨i, by simp [hi', hx], by simp⟩
  obtain ⟨h3, h4⟩ := h _ hmem
  by_contra hne'
  have h5 := h4 lab[i] c cs[lab[i]] v rfl (List.getElem?_eq_getElem h3) hv hne'
  rw [rowDist_lt_iff] at h5
  exact absurd h5 (not_lt.2 (hmin _ (List.getElem_mem h3)))

lemma rowNorm_add (a b : Fin d → ℝ) : rowNorm (fun k => a k + b k) ≤ rowNorm a + rowNorm b := by
  have e : ∀ a : Fin d → ℝ, rowNorm a = ‖(WithLp.toLp 2 a : EuclideanSpace ℝ (Fin d))‖ := by
    intro a
    rw [EuclideanSpace.norm_eq]
    simp only [rowNorm, Real.norm_eq_abs, sq_abs]
  rw [e, e, e]
  exact norm_add_le (WithLp.toLp 2 a : EuclideanSpace ℝ (Fin d)) (WithLp.toLp 2 b)

lemma rowNorm_smul (t : ℝ) (ht : 0 ≤ t) (a : Fin d → ℝ) : rowNorm (fun k => t * a k) = t * rowNorm a := by
  unfold rowNorm
  simp only [mul_pow]
  rw [← Finset.mul_sum, Real.sqrt_mul (sq_nonneg _), Real.sqrt_sq ht]

/-- The mean of points within the distance `D` is within the distance `D`. -/
lemma mean_dist (u : Fin d → ℝ) (D : ℝ) (rows : List (Fin d → ℝ)) (hne : rows ≠ []) (h : ∀ r ∈ rows, rowDist u r ≤ D) (m : Fin d → ℝ)
    (hm : ∀ k, (rows.length : ℝ) * m k = (rows.map fun r => r k).sum) : rowDist u m ≤ D := by
  have key : ∀ rows : List (Fin d → ℝ), (∀ r ∈ rows, rowDist u r ≤ D) → rowNorm (fun k => rows.length * u k - (rows.map fun r => r k).sum) ≤ rows.length * D := by
    intro rows
    induction rows with
    | nil => intro _; simp [rowNorm]
    | cons r rows ih =>
      intro h
      have h1 := ih fun r hr => h r (List.mem_cons_of_mem _ hr)
      have h2 : rowNorm (fun k => u k - r k) ≤ D := h r List.mem_cons_self
      have h3 := rowNorm_add (fun k => u k - r k) (fun k => rows.length * u k - (rows.map fun r => r k).sum)
      have e : (fun k => ((r :: rows).length : ℝ) * u k - ((r :: rows).map fun r => r k).sum) = fun k => (u k - r k) + (rows.length * u k - (rows.map fun r => r k).sum) := by
        funext k
        simp only [List.length_cons, List.map_cons, List.sum_cons]
        push_cast
        ring
      rw [e]
      simp only [List.length_cons]
      push_cast
      linarith
  have hn : (0 : ℝ) < rows.length := by exact_mod_cast List.length_pos_of_ne_nil hne
  have h1 := key rows h
  have e : (fun k => (rows.length : ℝ) * u k - (rows.map fun r => r k).sum) = fun k => (rows.length : ℝ) * (u k - m k) := by
    funext k; rw [← hm]; ring
  rw [e, rowNorm_smul _ hn.le] at h1
  exact le_of_mul_le_mul_left h1 hn

/-- The centroids of the groups. -/
lemma group_means (x : List (Fin d → ℝ)) (lab : List Nat) (hl : lab.length = x.length) (k : Nat) (hlt : ∀ g ∈ lab, g < k) (hall : ∀ g < k, g ∈ lab) :
    ∃ ms : List (Fin d → ℝ), calculateCentroids x lab = ms.map some ∧ ms.length = k ∧ ∀ g m, ms[g]? = some m → IsClusterMean x lab g m := by
  have hm : ∀ c ∈ List.range k, ∃ v, mean (members x lab c) = some v := fun c hc => mean_some (members_ne_nil hl (hall c (List.mem_range.1 hc)))
  obtain ⟨ms, hms⟩ := list_all_some (List.range k) (fun c => mean (members x lab c)) hm
  have hlen : ms.length = k := by have := congrArg List.length hms; simpa using this.symm
  refine ⟨ms, ?_, hlen, fun g m hg => ?_⟩
  · unfold calculateCentroids
    rw [numUnique_all hlt hall]
    exact hms
  · have hgk : g < k := by rw [← hlen]; exact (List.getElem?_eq_some_iff.1 hg).1
    have := congrArg (fun l => l[g]?) hms
    simp only [List.getElem?_map, List.getElem?_range hgk, hg, Option.map_some, Option.some.injEq] at this
    exact mean_isClusterMean this

lemma no_diff (cs ms : List (Fin d → ℝ)) (tol : ℝ) : ∀ n m, cs = n → ms = m → ((List.zipWith (rowDiffers tol) (n.map some) (m.map some)).any id = false ↔
    ∀ (g : Nat) u v, n[g]? = some u → m[g]? = some v → ∀ k, |u k - v k| ≤ tol) := by
  rintro n m - -
  induction n generalizing m with
  | nil => simp
  | cons a n ih =>
    cases m with
    | nil => simp
    | cons b m =>
      simp only [List.map_cons, List.zipWith_cons_cons, List.any_cons, Bool.or_eq_false_iff, ih, id]
      constructor
      · rintro ⟨h1, h2⟩ g u v hu hv
        cases g with
        | zero =>
          simp only [List.getElem?_cons_zero, Option.some.injEq] at hu hv
          subst hu hv
          simpa [rowDiffers] using h1
        | succ g => exact h2 g u v hu hv
      · intro h
        exact ⟨by simpa [rowDiffers] using h 0 a b rfl rfl, fun g u v hu hv => h (g + 1) u v hu hv⟩

/-- **C336.** Let the samples fall into `k` groups such that samples of the same group are at most `D` and samples of different groups more than `2 D` apart, and let training start with one sample
of each group. Then after the first epoch the labels are the groups, training stops in the second epoch at the latest, the centroids are the means of the groups up to the tolerance, and the
model assigns every sample, and every new row that is within `D` of all samples of a group, to its group. -/
theorem C336_separated {root : ℝ → ℝ} (hr : RootOK root) (x : List (Fin d → ℝ)) (lab : List Nat) (hl : lab.length = x.length) (hx : x ≠ []) (D : ℝ)
    (hin : ∀ p ∈ x.zip lab, ∀ q ∈ x.zip lab, p.2 = q.2 → rowDist p.1 q.1 ≤ D) (hout : ∀ p ∈ x.zip lab, ∀ q ∈ x.zip lab, p.2 ≠ q.2 → 2 * D < rowDist p.1 q.1)
    (init : List (Fin d → ℝ)) (hinit : ∀ g v, init[g]? = some v → (v, g) ∈ x.zip lab) (hlab : ∀ g ∈ lab, g < init.length) (tol : ℝ) (htol : 0 ≤ tol) (epochs : Nat) :
    ∃ r : Fitted ℝ d, fit root x tol (epochs + 2) init = .ok r ∧ r.clusters = some lab ∧ r.stopped = true ∧
      (∃ cs : List (Fin d → ℝ), r.centroids = cs.map some ∧ cs.length = init.length ∧
        ∀ g v, cs[g]? = some v → ∃ m, IsClusterMean x lab g m ∧ ∀ k, |v k - m k| ≤ tol) ∧
      predict root r.centroids x = some lab ∧
      ∀ (z : Fin d → ℝ) (g : Nat), g < init.length → (∀ p ∈ x.zip lab, p.2 = g → rowDist z p.1 ≤ D) → (∀ p ∈ x.zip lab, p.2 ≠ g → 2 * D < rowDist z p.1) →
        predict root r.centroids [z] = some [g] := by
  have hD : 0 ≤ D := by
    obtain ⟨u, us, rfl⟩ := List.exists_cons_of_ne_nil hx
    cases lab with
    | nil => simp at hl
    | cons g gs =>
      have := hin (u, g) (by simp) (u, g) (by simp) rfl
      exact (rowDist_nonneg _ _).trans this
  have hne : init ≠ [] := by
    obtain ⟨u, us, rfl⟩ := List.exists_cons_of_ne_nil hx
    cases lab with
    | nil => simp at hl
    | cons g gs =>
      have := hlab g List.mem_cons_self
      intro h; rw [h] at this; simp at this
  have hall : ∀ g < init.length, g ∈ lab := fun g hg => (List.of_mem_zip (hinit g init[g] (List.getElem?_eq_getElem hg))).2
  obtain ⟨ms, hms, hmlen, hmm⟩ := group_means x lab hl init.length hlab hall
  have hmne : ms ≠ [] := by intro h; rw [h] at hmlen; simp at hmlen; exact hne (List.length_eq_zero_iff.1 hmlen.symm)
  -- near: distance of a row close to a group to start and mean of the group
  have near : ∀ (cs : List (Fin d → ℝ)), cs = init ∨ cs = ms → ∀ (z : Fin d → ℝ) (g : Nat), (∀ p ∈ x.zip lab, p.2 = g → rowDist z p.1 ≤ D) →
      ∀ v, cs[g]? = some v → rowDist z v ≤ D := by
    intro cs hcs z g hz v hv
    rcases hcs with rfl | rfl
    · exact hz _ (hinit g v hv) rfl
    · obtain ⟨h1, h2⟩ := hmm g v hv
      refine mean_dist z D _ h1 (fun r hrow => ?_) v h2
      obtain ⟨p, hp, rfl⟩ := List.mem_map.1 hrow
      obtain ⟨hp1, hp2⟩ := List.mem_filter.1 hp
      exact hz p hp1 (by simpa using hp2)
  have far : ∀ (cs : List (Fin d → ℝ)), cs = init ∨ cs = ms → ∀ (z : Fin d → ℝ) (g : Nat), (∀ p ∈ x.zip lab, p.2 ≠ g → 2 * D < rowDist z p.1) →
      ∀ h v, h ≠ g → cs[h]? = some v → D < rowDist z v := by
    intro cs hcs z g hz h v hh hv
    have hlt : h < init.length := by
      have := (List.getElem?_eq_some_iff.1 hv).1
      rcases hcs with rfl | rfl <;> omega
    have hq := hinit h init[h] (List.getElem?_eq_getElem hlt)
    have h1 := hz _ hq hh
    have h2 := near cs hcs init[h] h (fun p hp hp2 => hin _ hq p hp hp2.symm) v hv
    have h3 := rowDist_triangle z v init[h]
    rw [rowDist_comm v init[h]] at h3
    simp only at h1
    linarith
  have lens : ∀ cs : List (Fin d → ℝ), cs = init ∨ cs = ms → cs.length = init.length := by
    rintro cs (rfl | rfl) <;> omega
  have asg : ∀ cs : List (Fin d → ℝ), cs = init ∨ cs = ms → getCluster root x (cs.map some) = some lab := by
    intro cs hcs
    refine assign hr x lab hl cs (by rcases hcs with rfl | rfl <;> assumption) fun p hp => ⟨?_, ?_⟩
    · rw [lens cs hcs]; exact hlab _ (List.of_mem_zip hp).2
    · rintro g h v w rfl hv hw hne'
      have h1 := near cs hcs p.1 p.2 (fun q hq hq2 => hin p hp q hq hq2.symm) v hv
      have h2 := far cs hcs p.1 p.2 (fun q hq hq2 => hout p hp q hq fun e => hq2 e.symm) h w hne' hw
      linarith
  have new : ∀ cs : List (Fin d → ℝ), cs = init ∨ cs = ms → ∀ (z : Fin d → ℝ) (g : Nat), g < init.length → (∀ p ∈ x.zip lab, p.2 = g → rowDist z p.1 ≤ D) →
      (∀ p ∈ x.zip lab, p.2 ≠ g → 2 * D < rowDist z p.1) → predict root (cs.map some) [z] = some [g] := by
    intro cs hcs z g hg h1 h2
    refine assign hr [z] [g] rfl cs (by rcases hcs with rfl | rfl <;> assumption) fun p hp => ?_
    obtain rfl : p = (z, g) := by simpa using hp
    refine ⟨by rw [lens cs hcs]; exact hg, ?_⟩
    rintro g' h v w rfl hv hw hne'
    have e1 := near cs hcs z g h1 v hv
    have e2 := far cs hcs z g h2 h w hne' hw
    simp only
    linarith
  have cmp : ∀ cs : List (Fin d → ℝ), cs = init ∨ cs = ms → compareDifferences (cs.map some) (ms.map some) tol = .ok (List.zipWith (rowDiffers tol) (cs.map some) (ms.map some)) := by
    intro cs hcs
    unfold compareDifferences
    rw [if_pos (by simp [lens cs hcs, hmlen])]
  have close : ∀ cs : List (Fin d → ℝ), cs = init ∨ cs = ms → (List.zipWith (rowDiffers tol) (cs.map some) (ms.map some)).any id = false →
      ∀ g v, cs[g]? = some v → ∃ m, IsClusterMean x lab g m ∧ ∀ k, |v k - m k| ≤ tol := by
    intro cs hcs hany g v hv
    have hg : g < ms.length := by rw [hmlen, ← lens cs hcs]; exact (List.getElem?_eq_some_iff.1 hv).1
    exact ⟨ms[g], hmm g ms[g] (List.getElem?_eq_getElem hg), (no_diff cs ms tol cs ms rfl rfl).1 hany g v ms[g] hv (List.getElem?_eq_getElem hg)⟩
  have same : (List.zipWith (rowDiffers tol) (ms.map some) (ms.map some)).any id = false := by
    rw [no_diff ms ms tol ms ms rfl rfl]
    intro g u v hu hv k
    obtain rfl : u = v := by rw [hu] at hv; simpa using hv
    simpa using htol
  by_cases hfirst : (List.zipWith (rowDiffers tol) (init.map some) (ms.map some)).any id = true
  · refine ⟨{ centroids := ms.map some, clusters := some lab, stopped := true }, ?_, rfl, rfl, ⟨ms, rfl, hmlen, close ms (Or.inr rfl) same⟩, asg ms (Or.inr rfl), new ms (Or.inr rfl)⟩
    simp only [fit, fitLoop, asg init (Or.inl rfl), hms, cmp init (Or.inl rfl), hfirst, if_true, asg ms (Or.inr rfl), cmp ms (Or.inr rfl), same, Bool.false_eq_true, if_false]
  · rw [Bool.not_eq_true] at hfirst
    refine ⟨{ centroids := init.map some, clusters := some lab, stopped := true }, ?_, rfl, rfl, ⟨init, rfl, rfl, close init (Or.inl rfl) hfirst⟩, asg init (Or.inl rfl), new init (Or.inl rfl)⟩
    simp only [fit, fitLoop, asg init (Or.inl rfl), hms, cmp init (Or.inl rfl), hfirst, Bool.false_eq_true, if_false]

/-- The start matters: three pairs of neighbours far apart, with two initial centroids in the same pair; training stops with the other two pairs in one cluster. -/
theorem C336_bad_start :
    fit (d := 1) id [fun _ => (0 : ℚ), fun _ => 1, fun _ => 10, fun _ => 11, fun _ => 20, fun _ => 21] (1 / 10) 100 [fun _ => 0, fun _ => 1, fun _ => 10] =
      .ok { centroids := [some fun _ => 0, some fun _ => 1, some fun _ => 31 / 2], clusters := some [0, 1, 2, 2, 2, 2], stopped := true } := by
  decide +kernel

/-- The hypotheses hold: the samples 0, 1 and 10 in the groups 0, 0 and 1, started with 1 and 10. -/
example : let x : List (Fin 1 → ℝ) := [fun _ => 0, fun _ => 1, fun _ => 10]
    let lab := [0, 0, 1]
    let init : List (Fin 1 → ℝ) := [fun _ => 1, fun _ => 10]
    (∀ p ∈ x.zip lab, ∀ q ∈ x.zip lab, p.2 = q.2 → rowDist p.1 q.1 ≤ 1) ∧ (∀ p ∈ x.zip lab, ∀ q ∈ x.zip lab, p.2 ≠ q.2 → 2 * 1 < rowDist p.1 q.1) ∧
    (∀ g v, init[g]? = some v → (v, g) ∈ x.zip lab) ∧ ∀ g ∈ lab, g < init.length := by
  intro x lab init
  have e : ∀ a b : ℝ, rowDist (fun _ : Fin 1 => a) (fun _ => b) = |a - b| := by
    intro a b; simp [rowDist, Real.sqrt_sq_eq_abs]
  refine ⟨?_, ?_, ?_, by decide⟩
  · intro p hp q hq h
    simp only [x, lab, List.zip_cons_cons, List.zip_nil_right, List.mem_cons, List.not_mem_nil, or_false] at hp hq
    rcases hp with rfl | rfl | rfl <;> rcases hq with rfl | rfl | rfl <;> simp at h <;> rw [e] <;> norm_num
  · intro p hp q hq h
    simp only [x, lab, List.zip_cons_cons, List.zip_nil_right, List.mem_cons, List.not_mem_nil, or_false] at hp hq
    rcases hp with rfl | rfl | rfl <;> rcases hq with rfl | rfl | rfl <;> simp at h <;> rw [e] <;> norm_num [abs_of_neg]
  · intro g v hv
    match g with
    | 0 => simp [init] at hv; subst hv; simp [x, lab]
    | 1 => simp [init] at hv; subst hv; simp [x, lab]
    | g + 2 => simp [init] at hv

end CML.KMeans
