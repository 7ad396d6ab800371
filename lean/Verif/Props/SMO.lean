import Verif.Lemmas.SMO
import Mathlib.Data.Rat.Defs
import Mathlib.Algebra.Order.Ring.Rat
import Mathlib.Algebra.Field.Rat
import Mathlib.Tactic.NormNum
import Mathlib.Data.Fin.VecNotation
import Mathlib.Algebra.BigOperators.Fin
import Mathlib.Tactic.Positivity

/-! # Properties C06, C07, C08, C10, C11 (SVM training) -/

namespace CML.SMO
open Finset

variable {K : Type*} [Field K] [LinearOrder K] [IsStrictOrderedRing K] {n : Nat}

/-! ## C06 dual feasibility -/

/-- C06, during training: every state reachable by any sequence of `_update_parameters` calls with any permutations is
dual feasible. No assumption on the kernel values. -/
theorem C06_feasible_always (p : Problem K n) (hp : p.Valid) (s : State K n) (h : Reachable p s) :
    DualFeasible p s.alphas :=
  (inv_reachable hp h).feas

/-- C06, at the end of training: whatever `epochs` and the permutations. -/
theorem C06_feasible_result (p : Problem K n) (hp : p.Valid) (perms : Nat → List (Fin n))
    (epochs : Int) (s : State K n) (h : Returns p perms epochs s) : DualFeasible p s.alphas :=
  (inv_reachable hp (reachable_returns h)).feas

/-! ## C07 support vectors -/

/-- C07: the returned support is the increasing list of the indices with positive multiplier, and the returned multipliers
and labels are those of the support, in order. -/
theorem C07_support_exact (p : Problem K n) (hp : p.Valid) (perms : Nat → List (Fin n))
    (epochs : Int) (s : State K n) (h : Returns p perms epochs s) :
    let r := extract p s
    (∀ i, i ∈ r.support ↔ 0 < s.alphas i) ∧ r.support.Pairwise (· < ·) ∧
    r.supportAlpha = r.support.map s.alphas ∧ r.supportY = r.support.map p.y ∧
    (∀ a ∈ r.supportAlpha, 0 < a ∧ a ≤ p.C) ∧ r.b = s.b := by
  have hi := inv_reachable hp (reachable_returns h)
  have hm : ∀ i, i ∈ (extract p s).support ↔ 0 < s.alphas i := by
    intro i; simp [extract, hi.nz i]
  refine ⟨hm, ?_, rfl, rfl, ?_, rfl⟩
  · exact List.Pairwise.filter _ (List.pairwise_lt_finRange n)
  · intro a ha
    obtain ⟨i, h1, rfl⟩ := List.mem_map.1 (show a ∈ (extract p s).support.map s.alphas from ha)
    exact ⟨(hm i).1 h1, (hi.feas.1 i).2⟩

/-- C07, consequence: dropping the other samples loses nothing, the decision function built from the returned
support vectors is the decision function of all the multipliers. -/
theorem C07_support_decision (p : Problem K n) (hp : p.Valid) (perms : Nat → List (Fin n))
    (epochs : Int) (s : State K n) (h : Returns p perms epochs s) (kappa : Fin n → K) :
    ((extract p s).support.map fun k => s.alphas k * p.y k * kappa k).sum =
      ∑ k, s.alphas k * p.y k * kappa k := by
  have hi := inv_reachable hp (reachable_returns h)
  have hz : ∀ k, s.nonZero k = false → s.alphas k = 0 := by
    intro k hk
    rw [hi.nz k] at hk
    exact le_antisymm (not_lt.1 (by simpa using hk)) (hi.feas.1 k).1
  have key : ∀ l : List (Fin n), ((l.filter s.nonZero).map fun k => s.alphas k * p.y k * kappa k).sum =
      (l.map fun k => s.alphas k * p.y k * kappa k).sum := by
    intro l
    induction l with
    | nil => rfl
    | cons a l ih =>
      by_cases ha : s.nonZero a = true
      · simp [ha, ih]
      · simp [ha, ih, hz a (by simpa using ha)]
  have : (extract p s).support = (List.finRange n).filter s.nonZero := rfl
  rw [this, key, ← List.ofFn_eq_map, List.sum_ofFn]

/-! ## C08 termination -/

omit [IsStrictOrderedRing K] in
/-- C08: the number of executed passes never exceeds the limit. -/
theorem C08_passes_bounded (p : Problem K n) (perms : Nat → List (Fin n)) (k : Nat) :
    (loop p perms k (Run.init K n)).1.epoch ≤ k := by
  simpa [Run.init] using loop_epoch p perms k (Run.init K n)

/-- C08: after an early return every sample passes its KKT test within `tol`, or none of its pairs makes progress.
The error of a sample on the boundary is its true error; for a sample strictly inside it is the cached one
(see C11 for the difference). `perms` may be any sequence of permutations of the samples. -/
theorem C08_early_stop (p : Problem K n) (hp : p.Valid) (perms : Nat → List (Fin n))
    (hperm : ∀ t j, j ∈ perms t) (k : Nat)
    (hearly : (loop p perms k (Run.init K n)).2 = true) (i : Fin n) :
    let s := (loop p perms k (Run.init K n)).1.st
    let e := if 0 < s.alphas i ∧ s.alphas i < p.C then s.cache i else trueError p s.alphas s.b i
    KKTWithin p s.alphas e i ∨
      ∀ j, NoProgress p s.alphas i j e (trueError p s.alphas s.b j) := by
  intro s e
  have hi : Inv p s := inv_reachable hp (reachable_loop perms k _ Reachable.init)
  obtain ⟨t, ht⟩ := loop_early p perms k (Run.init K n) hearly i
  have he : errorI p s i = e := by
    unfold errorI
    simp only [hi.nb i, decide_eq_true_eq, calculateError_eq hi, e]
  rcases updateParameters_none ht with h | h
  · left
    unfold violates at h
    rw [he] at h
    push Not at h
    refine ⟨fun hc => ?_, fun h0 => ?_⟩
    · by_contra hlt
      exact absurd hc (not_lt.2 (h.1 (not_le.1 hlt)))
    · by_contra hgt
      exact absurd h0 (not_lt.2 (h.2 (not_le.1 hgt)))
  · right
    intro j
    have hj := h j (hperm t j)
    rw [show (loop p perms k (Run.init K n)).1.st = s from rfl, he, calculateError_eq hi] at hj
    unfold updateAlpha at hj
    split at hj
    · rename_i h1; exact Or.inl h1
    split at hj
    · rename_i h1; rw [bounds_eq] at h1; exact Or.inr (Or.inl h1)
    split at hj
    · rename_i h1; exact Or.inr (Or.inr (Or.inl h1))
    dsimp only at hj
    split at hj
    · rename_i h1
      refine Or.inr (Or.inr (Or.inr ⟨_, h1, ?_, ?_, ?_⟩))
      · have := (alphaJNew_mem hi.feas i j e (trueError p s.alphas s.b j)).1
        rw [bounds_eq] at this; exact this
      · have := (alphaJNew_mem hi.feas i j e (trueError p s.alphas s.b j)).2
        rw [bounds_eq] at this; exact this
      · intro z hz hz'
        have := Ops.C04_clip_nearest
          (s.alphas j + p.y j * (e - trueError p s.alphas s.b j) / eta p i j)
          (segLow p s.alphas i j) (segHigh p s.alphas i j) z hz hz'
        unfold alphaJNew
        rw [bounds_eq]
        exact this
    · simp at hj

omit [IsStrictOrderedRing K] in
/-- C08: with `epochs = -1` the method can only return through the early stop, so `C08_early_stop` applies. -/
theorem C08_unlimited (p : Problem K n) (perms : Nat → List (Fin n)) (s : State K n)
    (h : Returns p perms (-1) s) :
    ∃ k, (loop p perms k (Run.init K n)).2 = true ∧ (loop p perms k (Run.init K n)).1.st = s := by
  simpa [Returns] using h

/-! ## C09 inside training -/

omit [IsStrictOrderedRing K] in
/-- C09: the partner tried first by `_update_parameters` is the one `select_second_alpha` documents, and one is tried whenever
some sample is flagged non-bound. -/
theorem C09_training_choice (s : State K n) (e : K) :
    ((∃ k, s.nonBound k = true) → ∃ j ej, selectSecond s e = some (j, ej)) ∧
    ∀ j ej, selectSecond s e = some (j, ej) →
      s.nonBound j = true ∧ ej = s.cache j ∧
      ∀ k, s.nonBound k = true → |e - s.cache k| ≤ |e - ej| ∧ (k < j → |e - s.cache k| < |e - ej|) := by
  have key : (∃ k, s.nonBound k = true) → ∃ i ej, Ops.selectSecondAlpha e (List.ofFn s.cache) (List.ofFn s.nonBound)
      = .ok (i, ej) ∧ Ops.IsSecondChoice e (List.ofFn s.cache) (List.ofFn s.nonBound) i ej := by
    rintro ⟨k, hk⟩
    exact Ops.C09_select_second e _ _ (by simp) (by rw [List.mem_ofFn]; exact ⟨k, hk⟩)
  refine ⟨fun hk => ?_, fun j ej h => ?_⟩
  · obtain ⟨i, ej, h1, h2⟩ := key hk
    have hi : i < n := by
      have := (List.getElem?_eq_some_iff.1 h2.1).1; simpa using this
    exact ⟨⟨i, hi⟩, ej, (selectSecond_eq s e ⟨i, hi⟩ ej).2 h1⟩
  · obtain ⟨hj, hej⟩ := selectSecond_some h
    refine ⟨hj, hej, fun k hk => ?_⟩
    obtain ⟨i, ei, h1, h2⟩ := key ⟨j, hj⟩
    rw [(selectSecond_eq s e j ej).1 h] at h1
    simp only [Except.ok.injEq, Prod.mk.injEq] at h1
    obtain ⟨rfl, rfl⟩ := h1
    have := h2.2.2 k.1 (s.cache k) (by simp [hk]) (by simp)
    exact ⟨this.1, fun hlt => this.2 hlt⟩

/-! ## C10 the dual objective -/

/-- One two-variable update with the true errors. -/
theorem C10_pair_update_partial (p : Problem K n) (hp : p.Valid)
    (hsym : ∀ k l, p.gram k l = p.gram l k) (s s' : State K n) (hs : Reachable p s) (i j : Fin n)
    (h : updateAlpha p s i j (trueError p s.alphas s.b i) (trueError p s.alphas s.b j) = some s') :
    let eta := p.gram i i + p.gram j j - 2 * p.gram i j
    0 < eta ∧ (1 / 100000 : K) ≤ |s'.alphas j - s.alphas j| ∧
    dualObjective p s.alphas + (1 / 2) * eta * (s'.alphas j - s.alphas j) ^ 2 ≤ dualObjective p s'.alphas := by
  have hi := inv_reachable hp hs
  obtain ⟨hij, _, heta, hch, ha, _, _⟩ := updateAlpha_some h
  have hj : s'.alphas j = alphaJNew p s i j (trueError p s.alphas s.b i) (trueError p s.alphas s.b j) := by
    rw [ha]; simp
  have hb := bounds_props hi.feas i j
  refine ⟨heta, by rw [hj]; exact hch, ?_⟩
  have hd := dual_change p hp hsym s.alphas s.b i j hij (s'.alphas j)
  rw [← hj] at ha
  rw [← ha] at hd
  have hg := gain_of_clip (t := p.y j * (trueError p s.alphas s.b i - trueError p s.alphas s.b j) / eta p i j)
    hb.1 hb.2.1 heta rfl
  have hj' : Ops.clipAlpha (s.alphas j + p.y j * (trueError p s.alphas s.b i - trueError p s.alphas s.b j) /
      eta p i j) (bounds p s i j).1 (bounds p s i j).2 = s'.alphas j := hj.symm
  rw [hj'] at hg
  have yj := sq_label (hp.label j)
  have e2 : (p.y j * (s'.alphas j - s.alphas j)) * (p.y j * (s'.alphas j - s.alphas j)) =
      (s'.alphas j - s.alphas j) ^ 2 := by
    linear_combination (s'.alphas j - s.alphas j) ^ 2 * yj
  rw [e2] at hd
  unfold eta at hg
  linarith

/-- C10, partial: in a reachable state whose error cache holds the true errors of the samples strictly inside the box, every
call of `_update_parameters` that changes something moves some `α_j` by at least `1e-5` and increases the dual objective by at
least half the (positive) curvature times the squared change; the kernel must be symmetric.
Missing: states whose cache is stale; for them the claim is false (`C10_dual_can_decrease`). -/
theorem C10_dual_increases_partial (p : Problem K n) (hp : p.Valid)
    (hsym : ∀ k l, p.gram k l = p.gram l k) (s s' : State K n) (hs : Reachable p s)
    (hcache : ∀ k, 0 < s.alphas k → s.alphas k < p.C → s.cache k = trueError p s.alphas s.b k)
    (i : Fin n) (perm : List (Fin n)) (h : updateParameters p s i perm = some s') :
    ∃ j, let eta := p.gram i i + p.gram j j - 2 * p.gram i j
      0 < eta ∧ (1 / 100000 : K) ≤ |s'.alphas j - s.alphas j| ∧
      dualObjective p s.alphas + (1 / 2) * eta * (s'.alphas j - s.alphas j) ^ 2 ≤ dualObjective p s'.alphas := by
  have hi := inv_reachable hp hs
  have hnb : ∀ k, s.nonBound k = true → s.cache k = trueError p s.alphas s.b k := by
    intro k hk
    rw [hi.nb k] at hk
    have := of_decide_eq_true hk
    exact hcache k this.1 this.2
  have he : errorI p s i = trueError p s.alphas s.b i := by
    unfold errorI
    split
    · rename_i h1; exact hnb i h1
    · exact calculateError_eq hi i
  rcases (updateParameters_some h).2 with ⟨j, ej, h1, h2⟩ | ⟨j, _, h1⟩
  · obtain ⟨hj, hej⟩ := selectSecond_some h1
    rw [he, hej, hnb j hj] at h2
    exact ⟨j, C10_pair_update_partial p hp hsym s s' hs i j h2⟩
  · rw [he, calculateError_eq hi] at h1
    exact ⟨j, C10_pair_update_partial p hp hsym s s' hs i j h1⟩

/-- Witness data for C10: rows (1,1), (1,0), (-2,0), labels 1, 1, -1, linear kernel, C = 1, tol = 1/1000. -/
def exP : Problem ℚ 3 :=
  { y := ![1, 1, -1]
    gram := ![![2, 1, -2], ![1, 1, -2], ![-2, -2, 4]]
    C := 1, tol := 1 / 1000 }

/-- The states after the calls for samples 0, 1, 2 of the first pass on `exP` (identity permutations). -/
def exS (k : Nat) : Option (State ℚ 3) :=
  (List.finRange 3 |>.take k).foldlM (fun s i => updateParameters exP s i [0, 1, 2]) (State.init ℚ 3)

theorem exP_valid : exP.Valid := ⟨by decide, by decide +kernel⟩

theorem exP_symm : ∀ k l, exP.gram k l = exP.gram l k := by decide +kernel

theorem exS_reachable (k : Nat) (s : State ℚ 3) (h : exS k = some s) : Reachable exP s := by
  have key : ∀ (l : List (Fin 3)) (s0 s : State ℚ 3), Reachable exP s0 →
      l.foldlM (fun s i => updateParameters exP s i [0, 1, 2]) s0 = some s → Reachable exP s := by
    intro l
    induction l with
    | nil => intro s0 s h0 h; simp at h; exact h ▸ h0
    | cons i l ih =>
      intro s0 s h0 h
      rw [List.foldlM_cons] at h
      obtain ⟨s1, h1, h2⟩ := Option.bind_eq_some_iff.1 h
      exact ih s1 s (Reachable.step i _ h0 h1) h2
  exact key _ _ _ Reachable.init h

/-- C10 is false in general: in the first pass over `exP` the third update lowers the dual objective (by 1/150), because the
cached error of the second sample is stale. -/
theorem C10_dual_can_decrease : ∃ (p : Problem ℚ 3) (s s' : State ℚ 3) (i : Fin 3), p.Valid ∧
    (∀ k l, p.gram k l = p.gram l k) ∧ Reachable p s ∧
    updateParameters p s i [0, 1, 2] = some s' ∧
    dualObjective p s'.alphas < dualObjective p s.alphas := by
  have h : ((exS 2).bind fun s => (updateParameters exP s 2 [0, 1, 2]).map fun s' =>
      decide (dualObjective exP s'.alphas < dualObjective exP s.alphas)) = some true := by
    decide +kernel
  obtain ⟨s, hs, h1⟩ := Option.bind_eq_some_iff.1 h
  obtain ⟨s', hs', h2⟩ := Option.map_eq_some_iff.1 h1
  exact ⟨exP, s, s', 2, exP_valid, exP_symm, exS_reachable 2 s hs, hs', of_decide_eq_true h2⟩

/-! ## C11 cache coherence -/

/-- C11 is false in general: after two updates on `exP` a sample strictly inside the box has a cached error different from
its true error. -/
theorem C11_cache_stale : ∃ (p : Problem ℚ 3) (s : State ℚ 3) (i : Fin 3), p.Valid ∧ Reachable p s ∧
    0 < s.alphas i ∧ s.alphas i < p.C ∧ s.cache i ≠ trueError p s.alphas s.b i := by
  have h : ((exS 2).map fun s => decide (∃ i, 0 < s.alphas i ∧ s.alphas i < exP.C ∧
      s.cache i ≠ trueError exP s.alphas s.b i)) = some true := by
    decide +kernel
  obtain ⟨s, hs, h1⟩ := Option.map_eq_some_iff.1 h
  obtain ⟨i, h1⟩ := of_decide_eq_true h1
  exact ⟨exP, s, i, exP_valid, exS_reachable 2 s hs, h1⟩

/-- C11, partial: after a successful update of the pair `(i, j)`, the cache holds the true error of every sample that was
strictly inside the box before the update, provided `i` and `j` both had positive multipliers before it (so that the
non-zero mask used for the refresh was not stale).  Missing: samples that enter the box by this very update, and updates in
which a multiplier leaves 0; there the claim is false (`C11_cache_stale`). -/
theorem C11_cache_refreshed_partial (p : Problem K n) (hp : p.Valid) (s s' : State K n)
    (hs : Reachable p s) (i j : Fin n) (ei ej : K) (h : updateAlpha p s i j ei ej = some s')
    (hi0 : 0 < s.alphas i) (hj0 : 0 < s.alphas j) (k : Fin n)
    (hk : 0 < s.alphas k ∧ s.alphas k < p.C) :
    s'.cache k = trueError p s'.alphas s'.b k :=
  cache_refreshed hp (inv_reachable hp hs) h hi0 hj0 hk

/-! ## Non-vacuity -/

/-- The hypotheses of C06/C07/C08 are met by a real run: on two points the run returns early with two support vectors. -/
def exQ : Problem ℚ 2 :=
  { y := ![1, -1], gram := ![![1, -1], ![-1, 1]], C := 1, tol := 1 / 1000 }

example : exQ.Valid := ⟨by decide, by decide +kernel⟩
example : (loop exQ (fun _ => [0, 1]) 5 (Run.init ℚ 2)).2 = true ∧
    (extract exQ (loop exQ (fun _ => [0, 1]) 5 (Run.init ℚ 2)).1.st).support = [0, 1] ∧
    (extract exQ (loop exQ (fun _ => [0, 1]) 5 (Run.init ℚ 2)).1.st).supportAlpha = [1 / 2, 1 / 2] := by
  decide +kernel

/-- The hypotheses of C10's partial theorem are met: the first update on `exQ` starts from an empty interior. -/
example : (updateParameters exQ (State.init ℚ 2) 0 [0, 1]).isSome = true ∧
    ∀ k, ¬ (0 < (State.init ℚ 2).alphas k) := by
  decide +kernel

end CML.SMO
