import Verif.Spec.PlotsCluster
import Verif.Props.Hull
import Verif.Lemmas.KMeans
import Mathlib.Data.Fin.VecNotation
import Mathlib.Tactic.FinCases

set_option linter.unusedSectionVars false

/-! # Properties C155 (k-means figure), C156 (Gaussian-mixture figure) -/

namespace CML.PlotsCluster
open Hull (LeftOfEdges NoRightTurn UniqueLeftmost area)

variable {K : Type} [Field K] [LinearOrder K] [IsStrictOrderedRing K] {d : Nat}

theorem members_xy (h : 2 ≤ d) (x : List (Fin d → K)) (labels : List Nat) (c : Nat) :
    (KMeans.members x labels c).map (xy h) = labelled (x.map (xy h)) labels c := by
  unfold KMeans.members labelled
  induction x generalizing labels with
  | nil => simp
  | cons a x ih =>
    cases labels with
    | nil => simp
    | cons l labels =>
      have := ih labels
      simp only [List.map_cons, List.zip_cons_cons, List.filter_cons]
      split <;> simp_all

theorem mapM_ok_iff {α β : Type} (f : α → Except PyErr β) (l : List α) :
    (∃ r, l.mapM f = .ok r) ↔ ∀ a ∈ l, ∃ b, f a = .ok b := by
  induction l with
  | nil => simp [pure, Except.pure]
  | cons a l ih =>
    rw [List.mapM_cons]
    constructor
    · rintro ⟨r, hr⟩
      cases ha : f a with
      | error e => rw [ha] at hr; cases hr
      | ok b =>
        rw [ha] at hr
        cases hl : l.mapM f with
        | error e => rw [hl] at hr; cases hr
        | ok r' =>
          intro a' ha'
          rcases List.mem_cons.1 ha' with rfl | h
          · exact ⟨b, ha⟩
          · exact ih.1 ⟨r', hl⟩ a' h
    · intro h
      obtain ⟨b, hb⟩ := h a (by simp)
      obtain ⟨r, hr⟩ := ih.2 fun a' ha' => h a' (by simp [ha'])
      exact ⟨b :: r, by rw [hb, hr]; rfl⟩

theorem mapM_ok_get {α β : Type} (f : α → Except PyErr β) (l : List α) (r : List β) (h : l.mapM f = .ok r) :
    r.length = l.length ∧ ∀ (i : Nat) (a : α), l[i]? = some a → ∃ b, r[i]? = some b ∧ f a = .ok b := by
  induction l generalizing r with
  | nil =>
    simp [pure, Except.pure] at h
    subst h
    simp
  | cons a l ih =>
    rw [List.mapM_cons] at h
    cases ha : f a with
    | error e => rw [ha] at h; cases h
    | ok b =>
      rw [ha] at h
      cases hl : l.mapM f with
      | error e => rw [hl] at h; cases h
      | ok r' =>
        rw [hl] at h
        injection h with h
        subst h
        obtain ⟨h1, h2⟩ := ih r' hl
        refine ⟨by simp [h1], ?_⟩
        intro i a' hi
        cases i with
        | zero => simp at hi; subst hi; exact ⟨b, rfl, ha⟩
        | succ i => simpa using h2 i a' (by simpa using hi)

theorem plot_ok {argsort : List (K × K) → List (K × K)} {trained loaded : Bool} {n : Nat} {centroids : List (Option (Fin d → K))}
    {clusters : Option (List Nat)} {x : List (Fin d → K)} {f : KMFigure K} (hf : plotKMeans argsort trained loaded n centroids clusters x = .ok f) :
    ∃ h : 2 ≤ d, (List.range n).mapM (hullOf argsort h x clusters) = .ok f.hulls ∧ f.samples = x.map (xy h) ∧
      f.centroids = centroids.map fun c => c.map (xy h) := by
  unfold plotKMeans at hf
  split_ifs at hf with h1 h2
  split at hf
  · cases hf
  · rename_i hulls hh
    injection hf with hf
    subst hf
    exact ⟨h2, hh, rfl, rfl⟩

/-- C155: an instance without training or weights is refused. -/
theorem C155_refused (argsort : List (K × K) → List (K × K)) (n : Nat) (centroids : List (Option (Fin d → K))) (clusters : Option (List Nat))
    (x : List (Fin d → K)) : plotKMeans argsort false false n centroids clusters x = .error .valueError := by simp [plotKMeans]

/-- C155: what is drawn: every sample and every centroid, and for every number below `n_clusters` one line that outlines the samples with that label;
if these are distinct, it encloses them. -/
theorem C155_outlines_partial {argsort : List (K × K) → List (K × K)} (ha : SortsByX argsort) {trained loaded : Bool} {n : Nat}
    {centroids : List (Option (Fin d → K))} {labels : List Nat} {x : List (Fin d → K)} {f : KMFigure K}
    (hf : plotKMeans argsort trained loaded n centroids (some labels) x = .ok f) :
    f.samples.length = x.length ∧ f.centroids.length = centroids.length ∧ f.hulls.length = n ∧
    ∀ (c : Nat), c < n → ∃ hull, f.hulls[c]? = some hull ∧ Outlines (labelled f.samples labels c) hull ∧
      ((labelled f.samples labels c).Nodup → ∀ q ∈ labelled f.samples labels c, LeftOfEdges hull q) := by
  obtain ⟨h, hm, hs, hc⟩ := plot_ok hf
  obtain ⟨h1, h2⟩ := mapM_ok_get _ _ _ hm
  refine ⟨by simp [hs], by simp [hc], by simpa using h1, ?_⟩
  intro c hcn
  obtain ⟨hull, g1, g2⟩ := h2 c c (by simp [hcn])
  refine ⟨hull, g1, ?_⟩
  simp only [hullOf] at g2
  split_ifs at g2
  rw [members_xy, ← hs] at g2
  obtain ⟨start, body, e1, e2, e3, _, e5, e6⟩ := Hull.C02_closed_left_turning_partial _ _ _ (ha _) g2
  refine ⟨⟨start, body, e1, e2, ?_, e5, e6⟩, fun hnd => Hull.C03_encloses_partial _ _ _ (ha _) hnd g2⟩
  intro v hv
  rw [e1] at hv
  rcases List.mem_append.1 hv with hv | hv
  · exact e3 v hv
  · simp only [List.mem_singleton] at hv
    exact hv ▸ e3 start (by simp)

/-- C155: the figure is drawn exactly if every cluster has at least two samples, only one of which has the smallest first coordinate. -/
theorem C155_drawn_iff {argsort : List (K × K) → List (K × K)} (ha : SortsByX argsort) {trained loaded : Bool} (ht : trained = true ∨ loaded = true)
    (h : 2 ≤ d) (n : Nat) (centroids : List (Option (Fin d → K))) (labels : List Nat) (x : List (Fin d → K)) (hl : x.length = labels.length) :
    (∃ f, plotKMeans argsort trained loaded n centroids (some labels) x = .ok f) ↔
      ∀ (c : Nat), c < n → 2 ≤ (labelled (x.map (xy h)) labels c).length ∧ UniqueLeftmost (labelled (x.map (xy h)) labels c) := by
  have hne : ¬(trained = false ∧ loaded = false) := by rintro ⟨rfl, rfl⟩; simp at ht
  have key : ∀ c, (∃ b, hullOf argsort h x (some labels) c = .ok b) ↔
      2 ≤ (labelled (x.map (xy h)) labels c).length ∧ UniqueLeftmost (labelled (x.map (xy h)) labels c) := by
    intro c
    simp only [hullOf, hl, ne_eq, not_true_eq_false, if_false]
    rw [members_xy]
    exact Hull.C02_returns_iff _ _ (ha _)
  constructor
  · rintro ⟨f, hf⟩ c hc
    obtain ⟨h', hm, _, _⟩ := plot_ok hf
    exact (key c).1 ((mapM_ok_iff _ _).1 ⟨_, hm⟩ c (by simpa using hc))
  · intro hall
    obtain ⟨r, hr⟩ := (mapM_ok_iff (hullOf argsort h x (some labels)) (List.range n)).2 fun c hc => (key c).2 (hall c (by simpa using hc))
    exact ⟨_, by simp only [plotKMeans]; rw [if_neg hne, dif_pos h, hr]⟩

/-- The insertion sort by x, used in the examples. -/
theorem sorts_insertion : SortsByX fun l : List (K × K) => l.insertionSort fun p q => p.1 ≤ q.1 := by
  intro l
  refine ⟨List.perm_insertionSort _ _, ?_⟩
  have : Std.Total (fun p q : K × K => p.1 ≤ q.1) := ⟨fun a b => le_total a.1 b.1⟩
  have : IsTrans (K × K) (fun p q : K × K => p.1 ≤ q.1) := ⟨fun a b c => le_trans⟩
  exact List.pairwise_insertionSort _ _

/-- Non-vacuity: a trained model with two clusters and its figure. -/
example :
    KMeans.fit id [![0, 0], ![1, 0], ![2, 2], ![10, 0], ![11, 0]] (1 / 1000) 10 [![0, 0], ![10, 0]] =
      .ok ⟨[some ![1, 2 / 3], some ![21 / 2, (0 : ℚ)]], some [0, 0, 0, 1, 1], true⟩ ∧
    (plotKMeans (fun l => l.insertionSort fun p q => p.1 ≤ q.1) true false 2 [some ![1, 2 / 3], some ![21 / 2, 0]] (some [0, 0, 0, 1, 1])
      [![0, 0], ![1, 0], ![2, 2], ![10, 0], ![11, (0 : ℚ)]]).map KMFigure.hulls =
      .ok [[(0, 0), (1, 0), (2, 2), (0, 0)], [(10, 0), (11, 0), (10, 0)]] := by
  refine ⟨by decide +kernel, by decide +kernel⟩

/-- C155 fails for a trained model with a cluster of a single sample (or none): there is no figure. -/
theorem C155_single_sample {argsort : List (K × K) → List (K × K)} (ha : SortsByX argsort) {trained loaded : Bool}
    (n : Nat) (centroids : List (Option (Fin d → K))) (labels : List Nat) (x : List (Fin d → K)) (hl : x.length = labels.length)
    (c : Nat) (hc : c < n) (h1 : labels.count c ≤ 1) :
    ¬∃ f, plotKMeans argsort trained loaded n centroids (some labels) x = .ok f := by
  rintro ⟨f, hf⟩
  obtain ⟨h, _⟩ := plot_ok hf
  by_cases ht : trained = true ∨ loaded = true
  · have := ((C155_drawn_iff ha ht h n centroids labels x hl).1 ⟨f, hf⟩ c hc).1
    have hcount : ∀ (pts : List (K × K)) (labels : List Nat), (labelled pts labels c).length ≤ labels.count c := by
      intro pts
      induction pts with
      | nil => simp [labelled]
      | cons p pts ih =>
        intro labels
        cases labels with
        | nil => simp [labelled]
        | cons l labels =>
          have := ih labels
          unfold labelled at this ⊢
          simp only [List.zip_cons_cons, List.filter_cons, List.count_cons]
          by_cases e : l = c
          · simp only [e, decide_true, if_true, List.map_cons, List.length_cons, beq_self_eq_true]; omega
          · simp only [e, decide_false, Bool.false_eq_true, if_false, beq_iff_eq]; omega
    have := hcount (x.map (xy h)) labels
    omega
  · have : trained = false ∧ loaded = false := by simpa using ht
    rw [this.1, this.2, C155_refused] at hf
    cases hf

/-- Such a trained model: the default three clusters on three samples, every centroid being a sample. -/
theorem C155_trained_not_drawn :
    KMeans.fit id [![0, 0], ![1, 0], ![2, (2 : ℚ)]] (1 / 1000) 10 [![0, 0], ![1, 0], ![2, 2]] =
      .ok ⟨[some ![0, 0], some ![1, 0], some ![2, 2]], some [0, 1, 2], true⟩ ∧
    ∀ argsort : List (ℚ × ℚ) → List (ℚ × ℚ), SortsByX argsort →
      plotKMeans argsort true false 3 [some ![0, 0], some ![1, 0], some ![2, 2]] (some [0, 1, 2]) [![0, 0], ![1, 0], ![2, (2 : ℚ)]] =
        .error .indexError := by
  refine ⟨by decide +kernel, ?_⟩
  intro argsort ha
  have hp : argsort [(0, 0)] = [(0, 0)] := List.perm_singleton.1 (ha [(0, 0)]).1
  have h0 : hullOf argsort (le_refl 2) [![0, 0], ![1, 0], ![2, (2 : ℚ)]] (some [0, 1, 2]) 0 = .error .indexError := by
    simp [hullOf, KMeans.members, xy, hp, Hull.computeHull]
  simp only [plotKMeans]
  rw [if_neg (by simp), dif_pos (le_refl 2)]
  have : List.range 3 = [0, 1, 2] := rfl
  rw [this, List.mapM_cons, h0]
  rfl

/-- C155 fails for a model loaded into an instance with the default of three clusters when it has fewer: nothing is drawn… -/
theorem C155_loaded_fewer {argsort : List (K × K) → List (K × K)} (ha : SortsByX argsort) (n : Nat) (centroids : List (Option (Fin d → K)))
    (labels : List Nat) (x : List (Fin d → K)) (hl : x.length = labels.length) (c : Nat) (hc : c < n) (h0 : c ∉ labels) :
    ¬∃ f, plotKMeans argsort false true n centroids (some labels) x = .ok f :=
  C155_single_sample ha n centroids labels x hl c hc (by rw [List.count_eq_zero_of_not_mem h0]; omega)

/-- …and when it has more, only the first `n` clusters get a line, although all centroids are drawn. -/
theorem C155_loaded_more {argsort : List (K × K) → List (K × K)} (ha : SortsByX argsort) (n : Nat) (centroids : List (Option (Fin d → K)))
    (labels : List Nat) (x : List (Fin d → K)) (f : KMFigure K) (hf : plotKMeans argsort false true n centroids (some labels) x = .ok f)
    (hn : n < centroids.length) : f.hulls.length < f.centroids.length := by
  obtain ⟨_, h2, h3, _⟩ := C155_outlines_partial ha hf
  omega

/-- C155: with other samples than the training samples, or another number of them, the call fails or colours by position; another number is an
`IndexError`. -/
theorem C155_other_samples (argsort : List (K × K) → List (K × K)) {trained loaded : Bool} (ht : trained = true ∨ loaded = true)
    (n : Nat) (hn : 0 < n) (centroids : List (Option (Fin d → K))) (labels : List Nat) (x : List (Fin d → K)) (hl : x.length ≠ labels.length) :
    plotKMeans argsort trained loaded n centroids (some labels) x = .error .indexError := by
  have hne : ¬(trained = false ∧ loaded = false) := by rintro ⟨rfl, rfl⟩; simp at ht
  simp only [plotKMeans]
  rw [if_neg hne]
  split_ifs with h
  · obtain ⟨m, rfl⟩ : ∃ m, n = m + 1 := ⟨n - 1, by omega⟩
    rw [List.range_succ_eq_map, List.mapM_cons]
    simp only [hullOf, hl, ne_eq, not_false_eq_true, if_true]
    rfl
  · rfl

/-- C155: the mean of points left of the edges is left of them, so a centroid that is the mean of its samples is drawn inside of their outline. -/
theorem C155_centroid_inside {argsort : List (K × K) → List (K × K)} (ha : SortsByX argsort) {trained loaded : Bool} {n : Nat}
    {centroids : List (Option (Fin d → K))} {labels : List Nat} {x : List (Fin d → K)} {f : KMFigure K}
    (hf : plotKMeans argsort trained loaded n centroids (some labels) x = .ok f) (h : 2 ≤ d) (c : Nat) (v : Fin d → K)
    (hv : centroids[c]? = some (some v)) (hm : KMeans.IsClusterMean x labels c v) (hnd : (labelled f.samples labels c).Nodup) (hc : c < n) :
    ∃ hull, f.hulls[c]? = some hull ∧ f.centroids[c]? = some (some (xy h v)) ∧ LeftOfEdges hull (xy h v) := by
  obtain ⟨_, _, _, hall⟩ := C155_outlines_partial ha hf
  obtain ⟨hull, h1, _, h3⟩ := hall c hc
  obtain ⟨h', _, hs, hcen⟩ := plot_ok hf
  refine ⟨hull, h1, by simp [hcen, hv], ?_⟩
  have h4 := h3 hnd
  rw [hs, ← members_xy] at h4
  obtain ⟨hne, hmean⟩ := hm
  change KMeans.members x labels c ≠ [] at hne
  change ∀ k, ((KMeans.members x labels c).length : K) * v k = ((KMeans.members x labels c).map fun r => r k).sum at hmean
  generalize KMeans.members x labels c = rows at *
  intro l₁ a b l₂ hull_eq
  have hpos : (0 : K) < (rows.length : K) := by
    have := List.length_pos_iff.2 hne
    exact_mod_cast this
  have hsum : (rows.length : K) * area a b (xy h v) = (rows.map fun r => area a b (xy h r)).sum := by
    have e : ∀ l : List (Fin d → K), (l.map fun r => area a b (xy h r)).sum =
        (b.1 - a.1) * ((l.map fun r => r ⟨1, by omega⟩).sum - l.length * a.2) -
          ((l.map fun r => r ⟨0, by omega⟩).sum - l.length * a.1) * (b.2 - a.2) := by
      intro l
      induction l with
      | nil => simp
      | cons r l ih =>
        rw [List.map_cons, List.sum_cons, ih]
        simp only [List.map_cons, List.sum_cons, List.length_cons, Nat.cast_add, Nat.cast_one, area, xy]
        ring
    rw [e, ← hmean, ← hmean]
    simp only [area, xy]
    ring
  have hge : 0 ≤ (rows.map fun r => area a b (xy h r)).sum := by
    refine List.sum_nonneg ?_
    intro t ht
    obtain ⟨r, hr, rfl⟩ := List.mem_map.1 ht
    exact h4 (xy h r) (List.mem_map.2 ⟨r, hr, rfl⟩) l₁ a b l₂ hull_eq
  rw [← hsum] at hge
  exact nonneg_of_mul_nonneg_right hge hpos

/-- Non-vacuity: the first centroid of the example is the mean of its three distinct samples. -/
example : KMeans.IsClusterMean [![0, 0], ![1, 0], ![2, 2], ![10, 0], ![11, (0 : ℚ)]] [0, 0, 0, 1, 1] 0 ![1, 2 / 3] := by
  refine ⟨by decide +kernel, fun k => ?_⟩
  fin_cases k <;> decide +kernel

/-- C155 fails for data outside of the unit square: then no vertex of a line is in the window. -/
theorem C155_invisible {argsort : List (K × K) → List (K × K)} (ha : SortsByX argsort) {trained loaded : Bool} {n : Nat}
    {centroids : List (Option (Fin d → K))} {labels : List Nat} {x : List (Fin d → K)} {f : KMFigure K}
    (hf : plotKMeans argsort trained loaded n centroids (some labels) x = .ok f) (hx : ∀ p ∈ f.samples, 1 < p.1) :
    ∀ hull ∈ f.hulls, ∀ v ∈ hull, ¬Visible v := by
  obtain ⟨_, _, h3, hall⟩ := C155_outlines_partial ha hf
  intro hull hh v hv hvis
  obtain ⟨c, hc⟩ := List.mem_iff_getElem?.1 hh
  obtain ⟨hull', g1, ⟨start, body, _, _, g4, _⟩, _⟩ := hall c (by rw [← h3]; exact (List.getElem?_eq_some_iff.1 hc).1)
  rw [hc] at g1
  injection g1 with g1
  subst g1
  have hm := g4 v hv
  simp only [labelled, List.mem_map, List.mem_filter] at hm
  obtain ⟨⟨p, l⟩, ⟨hp, _⟩, rfl⟩ := hm
  exact absurd (hx p (List.of_mem_zip hp).1) (not_lt.2 hvis.2.1)

/-! ## Gaussian mixture -/

/-- C156: an instance without training or weights is refused. -/
theorem C156_refused (mu : List (Option (Fin d → K))) (labels : List Nat) (x : List (Fin d → K)) :
    plotGM false false mu labels x = .error .valueError := by simp [plotGM]

/-- C156: otherwise, for samples with labels below the number of components, every sample is drawn exactly once, in the group of its label, and every
mean is drawn. -/
theorem C156_drawn {trained loaded : Bool} (ht : trained = true ∨ loaded = true) (h : 2 ≤ d) (mu : List (Option (Fin d → K))) (labels : List Nat)
    (x : List (Fin d → K)) (hl : x.length = labels.length) (hlt : ∀ l ∈ labels, l < mu.length) :
    ∃ f, plotGM trained loaded mu labels x = .ok f ∧ f.groups.length = mu.length ∧
      (∀ (c : Nat), c < mu.length → f.groups[c]? = some (labelled (x.map (xy h)) labels c)) ∧
      f.groups.flatten.Perm (x.map (xy h)) ∧ f.means = mu.map fun c => c.map (xy h) := by
  have hne : ¬(trained = false ∧ loaded = false) := by rintro ⟨rfl, rfl⟩; simp at ht
  have e : (fun c => group h x labels c) = fun c => labelled (x.map (xy h)) labels c := by
    funext c; exact members_xy h x labels c
  refine ⟨_, by simp only [plotGM]; rw [if_neg hne, if_neg (by simp [hl]), dif_pos h], by simp, ?_, ?_, rfl⟩
  · intro c hc
    simp [hc, ← members_xy h, group]
  · simp only
    change ((List.range mu.length).map fun c => group h x labels c).flatten.Perm _
    rw [e]
    generalize mu.length = n at hlt
    have hl' : (x.map (xy h)).length = labels.length := by simpa using hl
    generalize x.map (xy h) = pts at hl'
    clear e hl
    induction pts generalizing labels with
    | nil => simp [labelled]
    | cons p pts ih =>
      cases labels with
      | nil => simp at hl'
      | cons l labels =>
        have ih := ih labels (fun a ha => hlt a (by simp [ha])) (by simpa using hl')
        have hln : l < n := hlt l (by simp)
        have key : ∀ m, ((List.range m).map fun c => labelled (p :: pts) (l :: labels) c).flatten.Perm
            ((if l < m then [p] else []) ++ ((List.range m).map fun c => labelled pts labels c).flatten) := by
          intro m
          induction m with
          | zero => simp
          | succ m ihm =>
            rw [List.range_succ, List.map_append, List.map_append, List.flatten_append, List.flatten_append]
            simp only [List.map_cons, List.map_nil, List.flatten_cons, List.flatten_nil, List.append_nil]
            have hc : labelled (p :: pts) (l :: labels) m = (if l = m then [p] else []) ++ labelled pts labels m := by
              simp only [labelled, List.zip_cons_cons, List.filter_cons]
              by_cases hlm : l = m <;> simp [hlm]
            rw [hc]
            rcases Nat.lt_trichotomy l m with h1 | h1 | h1
            · simp only [h1, if_true, h1.ne, if_false, List.nil_append, show l < m + 1 by omega] at ihm ⊢
              rw [← List.append_assoc]
              exact ihm.append_right _
            · subst h1
              simp only [lt_irrefl, if_false, List.nil_append, if_true, Nat.lt_succ_self] at ihm ⊢
              refine (ihm.append_right _).trans ?_
              rw [← List.append_assoc, ← List.append_assoc]
              exact (List.perm_append_comm).append_right _
            · simp only [show ¬l < m by omega, if_false, List.nil_append, show ¬l = m by omega, show ¬l < m + 1 by omega] at ihm ⊢
              exact ihm.append_right _
        refine (key n).trans ?_
        simp only [hln, if_true, List.singleton_append]
        exact ih.cons p

/-- Non-vacuity: three samples, two components. -/
example : (plotGM true false [some ![0, 0], some ![5, (5 : ℚ)]] [1, 0, 1] [![4, 4], ![0, 1], ![6, 6]]).map GMFigure.groups =
    .ok [[(0, 1)], [(4, 4), (6, 6)]] := by decide +kernel

/-- C156: another number of samples than the model was trained on is an `IndexError`. -/
theorem C156_other_samples {trained loaded : Bool} (ht : trained = true ∨ loaded = true) (mu : List (Option (Fin d → K))) (hmu : mu ≠ [])
    (labels : List Nat) (x : List (Fin d → K)) (hl : x.length ≠ labels.length) : plotGM trained loaded mu labels x = .error .indexError := by
  have hne : ¬(trained = false ∧ loaded = false) := by rintro ⟨rfl, rfl⟩; simp at ht
  simp only [plotGM]
  rw [if_neg hne, if_pos ⟨hmu, hl⟩]

/-- C156: the means need two columns. -/
theorem C156_one_column {trained loaded : Bool} (ht : trained = true ∨ loaded = true) (hd : d < 2) (mu : List (Option (Fin d → K)))
    (labels : List Nat) (x : List (Fin d → K)) : plotGM trained loaded mu labels x = .error .indexError := by
  have hne : ¬(trained = false ∧ loaded = false) := by rintro ⟨rfl, rfl⟩; simp at ht
  simp only [plotGM]
  rw [if_neg hne, dif_neg (by omega)]
  split_ifs <;> rfl

/-- C156 is about the data handed to matplotlib; the window is fixed, and for data outside of the unit square no sample is in it. -/
theorem C156_invisible {trained loaded : Bool} {mu : List (Option (Fin d → K))} {labels : List Nat} {x : List (Fin d → K)} {f : GMFigure K}
    (hf : plotGM trained loaded mu labels x = .ok f) (h : 2 ≤ d) (hx : ∀ r ∈ x, 1 < r ⟨0, by omega⟩) : ∀ g ∈ f.groups, ∀ p ∈ g, ¬Visible p := by
  simp only [plotGM] at hf
  split_ifs at hf
  injection hf with hf
  subst hf
  intro g hg p hp hvis
  simp only [List.mem_map] at hg
  obtain ⟨c, -, rfl⟩ := hg
  simp only [group, KMeans.members, List.mem_map, List.mem_filter] at hp
  obtain ⟨r, ⟨⟨r', l⟩, ⟨hz, _⟩, rfl⟩, rfl⟩ := hp
  exact absurd (hx r' (List.of_mem_zip hz).1) (not_lt.2 hvis.2.1)

end CML.PlotsCluster
