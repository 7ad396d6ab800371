import Verif.Lemmas.KMeans
import Verif.Props.KMeans
import Mathlib.Algebra.Order.BigOperators.Group.List
import Mathlib.Algebra.BigOperators.Group.List.Basic

set_option linter.unusedSectionVars false

/-!
# Property C310: where the centroids of k-means are

k_means.py:58-101, ops.py:154-181 (`calculate_centroids`).
-/

namespace CML.KMeans
open Finset

variable {K : Type*} [Field K] [LinearOrder K] [IsStrictOrderedRing K] {d : Nat}

/-- C310: the centroids of a training are its start or each of them the mean of samples (at least one). -/
theorem C310_means {root : K → K} (hr : RootOK root) (x : List (Fin d → K)) (tol : K) (epochs : Nat) (init : List (Fin d → K)) (hi : init ≠ [])
    (r : Fitted K d) (h : fit root x tol epochs init = .ok r) :
    r.centroids = init.map some ∨ ∃ cs : List (Fin d → K), r.centroids = cs.map some ∧
      ∀ v ∈ cs, ∃ rows : List (Fin d → K), rows ≠ [] ∧ rows.Sublist x ∧ ∀ k, v k = (rows.map fun u => u k).sum / (rows.length : K) := by
  have key : ∀ (e : Nat) (cs : List (Fin d → K)) (lab0 : Option (List Nat)), cs ≠ [] → fitLoop root x tol e (cs.map some) lab0 = .ok r →
      r.centroids = cs.map some ∨ ∃ cs : List (Fin d → K), r.centroids = cs.map some ∧
      ∀ v ∈ cs, ∃ rows : List (Fin d → K), rows ≠ [] ∧ rows.Sublist x ∧ ∀ k, v k = (rows.map fun u => u k).sum / (rows.length : K) := by
    intro e
    induction e with
    | zero =>
      intro cs lab0 _ h
      simp only [fitLoop] at h
      injection h with h
      subst h
      exact .inl rfl
    | succ e ih =>
      intro cs lab0 hcs h
      simp only [fitLoop] at h
      split at h
      · simp at h
      · rename_i lab hlab
        split at h
        · simp at h
        · rename_i diff hdiff
          have hv := getCluster_valid hr hlab
          split at h
          · rename_i hany
            obtain ⟨cs1, e1, e2, e3, e4, e5⟩ := continue_spec hcs hv hdiff hany
            rw [e1] at h
            rcases ih cs1 (some lab) e2 h with h1 | h1
            · refine .inr ⟨cs1, h1, fun v hv' => ?_⟩
              obtain ⟨c, hc, rfl⟩ := List.mem_iff_getElem.1 hv'
              obtain ⟨h2, h3⟩ := e5 c cs1[c] (by simp [hc])
              refine ⟨_, h2, ?_, fun k => ?_⟩
              · have s1 : (((x.zip lab).filter fun p => p.2 = c).map Prod.fst).Sublist ((x.zip lab).map Prod.fst) := List.filter_sublist.map _
                rwa [List.map_fst_zip (by rw [hv.1])] at s1
              · have h4 : ((((x.zip lab).filter fun p => p.2 = c).map Prod.fst).length : K) ≠ 0 := by
                  have := List.length_pos_of_ne_nil h2
                  exact_mod_cast this.ne'
                rw [eq_div_iff h4, mul_comm]
                exact h3 k
            · exact .inr h1
          · injection h with h
            subst h
            exact .inl rfl
  exact key epochs init none hi h

lemma mean_halfspace {rows : List (Fin d → K)} (hne : rows ≠ []) {v w : Fin d → K} {b : K} (hv : ∀ k, v k = (rows.map fun u => u k).sum / (rows.length : K))
    (h : ∀ u ∈ rows, ∑ k, w k * u k ≤ b) : ∑ k, w k * v k ≤ b := by
  have hpos : (0 : K) < rows.length := by exact_mod_cast List.length_pos_of_ne_nil hne
  have e : ∑ k, w k * v k = (rows.map fun u => ∑ k, w k * u k).sum / (rows.length : K) := by
    have e1 : ∀ l : List (Fin d → K), (l.map fun u => ∑ k, w k * u k).sum = ∑ k, w k * (l.map fun u => u k).sum := by
      intro l
      induction l with
      | nil => simp
      | cons a l ih => simp only [List.map_cons, List.sum_cons, ih, mul_add, sum_add_distrib]
    rw [e1, div_eq_mul_inv, sum_mul]
    exact sum_congr rfl fun k _ => by rw [hv k]; ring
  rw [e, div_le_iff₀ hpos]
  have : (rows.map fun u => ∑ k, w k * u k).sum ≤ (rows.map fun _ => b).sum := List.sum_le_sum h
  rw [List.map_const', List.sum_replicate, nsmul_eq_mul] at this
  linarith

/-- C310: every half-space that contains the samples and the initial centroids contains the centroids: they never leave the convex hull. -/
theorem C310_halfspaces {root : K → K} (hr : RootOK root) (x : List (Fin d → K)) (tol : K) (epochs : Nat) (init : List (Fin d → K)) (hi : init ≠ [])
    (r : Fitted K d) (h : fit root x tol epochs init = .ok r) (w : Fin d → K) (b : K) (hx : ∀ u ∈ x, ∑ k, w k * u k ≤ b)
    (hinit : ∀ u ∈ init, ∑ k, w k * u k ≤ b) : ∃ cs : List (Fin d → K), r.centroids = cs.map some ∧ ∀ v ∈ cs, ∑ k, w k * v k ≤ b := by
  rcases C310_means hr x tol epochs init hi r h with h1 | ⟨cs, h1, h2⟩
  · exact ⟨init, h1, hinit⟩
  · refine ⟨cs, h1, fun v hv => ?_⟩
    obtain ⟨rows, h3, h4, h5⟩ := h2 v hv
    exact mean_halfspace h3 h5 fun u hu => hx u (h4.subset hu)

/-- C310: the coordinates of the centroids are in the range of the samples and the initial centroids. -/
theorem C310_range {root : K → K} (hr : RootOK root) (x : List (Fin d → K)) (tol : K) (epochs : Nat) (init : List (Fin d → K)) (hi : init ≠ [])
    (r : Fitted K d) (h : fit root x tol epochs init = .ok r) (k : Fin d) (lo hi' : K) (hx : ∀ u ∈ x ++ init, lo ≤ u k ∧ u k ≤ hi') :
    ∃ cs : List (Fin d → K), r.centroids = cs.map some ∧ ∀ v ∈ cs, lo ≤ v k ∧ v k ≤ hi' := by
  have e : ∀ (s : K) (u : Fin d → K), ∑ j, (if j = k then s else 0) * u j = s * u k := by
    intro s u
    rw [sum_eq_single k] <;> simp +contextual
  obtain ⟨cs, h1, h2⟩ := C310_halfspaces hr x tol epochs init hi r h (fun j => if j = k then 1 else 0) hi'
    (fun u hu => by rw [e, one_mul]; exact (hx u (by simp [hu])).2) (fun u hu => by rw [e, one_mul]; exact (hx u (by simp [hu])).2)
  obtain ⟨cs', h3, h4⟩ := C310_halfspaces hr x tol epochs init hi r h (fun j => if j = k then -1 else 0) (-lo)
    (fun u hu => by rw [e, neg_one_mul]; exact neg_le_neg (hx u (by simp [hu])).1) (fun u hu => by rw [e, neg_one_mul]; exact neg_le_neg (hx u (by simp [hu])).1)
  have : cs' = cs := by
    rw [h1] at h3
    exact ((List.map_injective_iff.2 (Option.some_injective _)) h3).symm
  subst this
  refine ⟨cs', h1, fun v hv => ⟨?_, ?_⟩⟩
  · have := h4 v hv
    rw [e, neg_one_mul] at this
    exact neg_le_neg_iff.1 this
  · have := h2 v hv
    rwa [e, one_mul] at this

/-- C310: with initial centroids that are samples (random or by number), no centroid leaves the smallest box around the data, and samples equal to one point give that
point. -/
theorem C310_one_point {root : K → K} (hr : RootOK root) (x : List (Fin d → K)) (tol : K) (epochs : Nat) (init : List (Fin d → K)) (hi : init ≠ [])
    (hsub : ∀ u ∈ init, u ∈ x) (p : Fin d → K) (hp : ∀ u ∈ x, u = p) (r : Fitted K d) (h : fit root x tol epochs init = .ok r) :
    ∀ c ∈ r.centroids, c = some p := by
  intro c hc
  have : ∀ v, c = some v → v = p := by
    intro v hv
    funext k
    obtain ⟨cs, h1, h2⟩ := C310_range hr x tol epochs init hi r h k (p k) (p k) (fun u hu => by
      have : u = p := by
        rcases List.mem_append.1 hu with h | h
        · exact hp u h
        · exact hp u (hsub u h)
      simp [this])
    rw [h1] at hc
    obtain ⟨v', hv', rfl⟩ := List.mem_map.1 hc
    simp only [Option.some.injEq] at hv
    subst hv
    exact le_antisymm (h2 _ hv').2 (h2 _ hv').1
  obtain ⟨cs, h1, -⟩ := C310_halfspaces hr x tol epochs init hi r h (fun _ => 0) 0 (by simp) (by simp)
  rw [h1] at hc
  obtain ⟨v, hv, rfl⟩ := List.mem_map.1 hc
  rw [this v rfl]

/-- A training in one dimension whose centroids move to the means 1/2 and 21/2, in the range of the samples from 0 to 11. -/
example : ∃ r : Fitted ℚ 1, fit id [![0], ![1], ![10], ![11]] (1/1000) 10 [![0], ![1]] = .ok r ∧ r.centroids = [![1/2], ![21/2]].map some ∧
    ∀ u ∈ ([![0], ![1], ![10], ![11]] ++ [![0], ![1]] : List (Fin 1 → ℚ)), 0 ≤ u 0 ∧ u 0 ≤ 11 := by
  exact ⟨⟨[![1/2], ![21/2]].map some, some [0, 0, 1, 1], true⟩, by decide +kernel, rfl, by decide +kernel⟩

end CML.KMeans
