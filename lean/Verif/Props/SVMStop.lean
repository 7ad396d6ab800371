import Verif.Props.SVMOpt
import Mathlib.Algebra.Order.Archimedean.Basic
import Mathlib.Data.List.Permutation
import Mathlib.Order.Preorder.Finite

set_option linter.unusedSectionVars false

/-! # Property C229 (training of a support vector machine without a limit comes to an end) -/

namespace CML.SMO
open Finset

/-! ## Three points on which it does not -/

instance instDecState {n : Nat} : DecidableEq (State ℚ n) := fun a b =>
  decidable_of_iff (a.alphas = b.alphas ∧ a.nonBound = b.nonBound ∧ a.cache = b.cache ∧ a.nonZero = b.nonZero ∧ a.b = b.b)
    ⟨fun h => by cases a; cases b; simp_all, fun h => by subst h; simp⟩

/-- The rows `[-1]`, `[-4]`, `[-2]` with the labels -1, +1, -1 (separable: the boundary is at -3), the linear kernel, and the default values of `C` and `tol`. -/
def exCycle : Problem ℚ 3 := { y := ![-1, 1, -1], gram := ![![1, 4, 2], ![4, 16, 8], ![2, 8, 4]], C := 1, tol := 1 / 1000 }

/-- The orders in which the partners may be tried. -/
def orders : List (List (Fin 3)) := [[0, 1, 2], [0, 2, 1], [1, 0, 2], [1, 2, 0], [2, 0, 1], [2, 1, 0]]

theorem mem_orders (l : List (Fin 3)) (h : l.Perm (List.finRange 3)) : l ∈ orders := by
  have h1 : l ∈ (List.finRange 3).permutations' := List.mem_permutations'.2 h
  have h2 : ∀ l ∈ (List.finRange 3).permutations', l ∈ orders := by decide +kernel
  exact h2 l h1

/-- One state of the cycle after the first sweep, and the two between which training alternates. -/
def cyA : State ℚ 3 := { alphas := ![0, 2 / 9, 2 / 9], nonBound := ![false, true, true], cache := ![2 / 9, 8 / 9, 0], nonZero := ![false, true, true], b := -5 / 3 }
/-- See `cyA`. -/
def cyB : State ℚ 3 := { alphas := ![0, 1 / 2, 1 / 2], nonBound := ![false, true, true], cache := ![2 / 9, -16 / 9, 2 / 9], nonZero := ![false, true, true], b := -3 }
/-- See `cyA`. -/
def cyC : State ℚ 3 := { alphas := ![0, 1 / 2, 1 / 2], nonBound := ![false, true, true], cache := ![2 / 9, 16 / 9, -2 / 9], nonZero := ![false, true, true], b := -3 }

/-- All possible results of a sweep, for any orders of the partners. -/
def sweepAll (p : Problem ℚ 3) : List (Fin 3) → List (State ℚ 3 × Nat) → List (State ℚ 3 × Nat)
  | [], l => l
  | i :: is, l => sweepAll p is ((l.flatMap fun r => orders.map fun o =>
      (updateParameters p r.1 i o).elim r fun s' => (s', r.2 + 1)).dedup)

theorem sweepAll_sound (p : Problem ℚ 3) (perms : Nat → List (Fin 3)) (hperm : ∀ t, (perms t).Perm (List.finRange 3)) (is : List (Fin 3)) :
    ∀ (l : List (State ℚ 3 × Nat)) (s : State ℚ 3) (t c : Nat), (s, c) ∈ l →
      ((passLoop p perms is (s, t, c)).1, (passLoop p perms is (s, t, c)).2.2) ∈ sweepAll p is l := by
  induction is with
  | nil => intro l s t c h; simpa [passLoop, sweepAll] using h
  | cons i is ih =>
    intro l s t c h
    unfold passLoop sweepAll
    have hm : ((updateParameters p s i (perms t)).elim (s, c) fun s' => (s', c + 1)) ∈
        (l.flatMap fun r => orders.map fun o => (updateParameters p r.1 i o).elim r fun s' => (s', r.2 + 1)).dedup := by
      rw [List.mem_dedup, List.mem_flatMap]
      exact ⟨(s, c), h, List.mem_map.2 ⟨perms t, mem_orders _ (hperm t), rfl⟩⟩
    cases hu : updateParameters p s i (perms t) with
    | none => rw [hu] at hm; exact ih _ _ _ _ hm
    | some s' => rw [hu] at hm; exact ih _ _ _ _ hm

theorem cycle_0 : ∀ r ∈ sweepAll exCycle (List.finRange 3) [(State.init ℚ 3, 0)], r.1 = cyA ∧ r.2 ≠ 0 := by decide +kernel
theorem cycle_A : ∀ r ∈ sweepAll exCycle [1, 2] [(cyA, 0)], r.1 = cyB ∧ r.2 ≠ 0 := by decide +kernel
theorem cycle_B : ∀ r ∈ sweepAll exCycle [1, 2] [(cyB, 0)], r.1 = cyC ∧ r.2 ≠ 0 := by decide +kernel
theorem cycle_C : ∀ r ∈ sweepAll exCycle [1, 2] [(cyC, 0)], r.1 = cyB ∧ r.2 ≠ 0 := by decide +kernel

theorem pass_next (p : Problem ℚ 3) (perms : Nat → List (Fin 3)) (hperm : ∀ t, (perms t).Perm (List.finRange 3)) (r : Run ℚ 3) (is : List (Fin 3)) (s' : State ℚ 3)
    (his : (if r.entire then List.finRange 3 else (List.finRange 3).filter r.st.nonBound) = is)
    (h : ∀ q ∈ sweepAll p is [(r.st, 0)], q.1 = s' ∧ q.2 ≠ 0) :
    ∃ t e, pass p perms r = ({ st := s', t := t, entire := false, epoch := e }, false) := by
  have hm := h _ (sweepAll_sound p perms hperm is [(r.st, 0)] r.st r.t 0 (by simp))
  unfold pass
  simp only [his]
  obtain ⟨h1, h2⟩ := hm
  dsimp only at h1 h2
  rw [if_neg h2, if_neg h2, h1]
  simp

/-- C229 is false: on these three separable points, with the default `C` and `tol` and the linear kernel, training with `epochs=-1` never returns, WHATEVER the
permutations drawn: from the second pass on every pass ends with the same, optimal, multipliers (`exCycle_proper`), but changes them on the way because of stale cached errors. -/
theorem C229_never_ends (perms : Nat → List (Fin 3)) (hperm : ∀ t, (perms t).Perm (List.finRange 3)) (s : State ℚ 3) : ¬ Returns exCycle perms (-1) s := by
  have hBC : ∀ (k : Nat) (r : Run ℚ 3), r.entire = false → (r.st = cyB ∨ r.st = cyC) → (loop exCycle perms k r).2 = false := by
    intro k
    induction k with
    | zero => intro r _ _; rfl
    | succ k ih =>
      intro r he hs
      unfold loop
      rcases hs with hs | hs
      · obtain ⟨t, e, hp⟩ := pass_next exCycle perms hperm r [1, 2] cyC (by rw [he, hs]; decide +kernel) (by rw [hs]; exact cycle_B)
        rw [hp]
        exact ih _ rfl (Or.inr rfl)
      · obtain ⟨t, e, hp⟩ := pass_next exCycle perms hperm r [1, 2] cyB (by rw [he, hs]; decide +kernel) (by rw [hs]; exact cycle_C)
        rw [hp]
        exact ih _ rfl (Or.inl rfl)
  have hA : ∀ (k : Nat) (r : Run ℚ 3), r.entire = false → r.st = cyA → (loop exCycle perms k r).2 = false := by
    intro k r he hs
    cases k with
    | zero => rfl
    | succ k =>
      unfold loop
      obtain ⟨t, e, hp⟩ := pass_next exCycle perms hperm r [1, 2] cyB (by rw [he, hs]; decide +kernel) (by rw [hs]; exact cycle_A)
      rw [hp]
      exact hBC k _ rfl (Or.inl rfl)
  have h0 : ∀ k : Nat, (loop exCycle perms k (Run.init ℚ 3)).2 = false := by
    intro k
    cases k with
    | zero => rfl
    | succ k =>
      unfold loop
      obtain ⟨t, e, hp⟩ := pass_next exCycle perms hperm (Run.init ℚ 3) (List.finRange 3) cyA rfl cycle_0
      rw [hp]
      exact hA k _ rfl rfl
  unfold Returns
  rw [if_pos rfl]
  rintro ⟨k, h1, _⟩
  rw [h0 k] at h1
  exact absurd h1 (by decide)

/-- It is a proper problem: labels +1 and -1, a positive semidefinite Gram matrix, and the multipliers of the cycle are the optimum (all errors are 0). -/
theorem exCycle_proper : exCycle.Valid ∧ GramPSD exCycle ∧ NearOptimal exCycle cyB.alphas := by
  have hv : exCycle.Valid := ⟨by decide +kernel, by decide +kernel⟩
  have hK : GramPSD exCycle := by
    refine ⟨by decide +kernel, fun v => ?_⟩
    have : ∑ k, ∑ l, v k * v l * exCycle.gram k l = (v 0 + 4 * v 1 + 2 * v 2) ^ 2 := by
      simp [Fin.sum_univ_three, exCycle]
      ring
    rw [this]
    exact sq_nonneg _
  refine ⟨hv, hK, C227_optimal_partial exCycle hv hK cyB.alphas cyB.b ⟨by decide +kernel, by decide +kernel⟩ fun i => ?_⟩
  unfold KKTWithin
  revert i
  decide +kernel

/-! ## When the cached errors are right -/

variable {K : Type*} [Field K] [LinearOrder K] [IsStrictOrderedRing K] {n : Nat}

theorem dual_bounded (p : Problem K n) (hp : p.Valid) (a : Fin n → K) (ha : DualFeasible p a) :
    dualObjective p a ≤ n * p.C + 1 / 2 * ∑ k, ∑ l, p.C * p.C * |p.gram k l| := by
  unfold dualObjective
  have h1 : ∑ i, a i ≤ n * p.C := by
    have := sum_le_card_nsmul univ a p.C fun i _ => (ha.1 i).2
    simpa using this
  have h2 : -∑ k, ∑ l, a k * a l * p.y k * p.y l * p.gram k l ≤ ∑ k, ∑ l, p.C * p.C * |p.gram k l| := by
    rw [← sum_neg_distrib]
    refine sum_le_sum fun k _ => ?_
    rw [← sum_neg_distrib]
    refine sum_le_sum fun l _ => ?_
    have habs : ∀ i, |p.y i| = 1 := by
      intro i
      rcases hp.label i with h | h <;> rw [h] <;> simp
    have e : |a k * a l * p.y k * p.y l * p.gram k l| = a k * a l * |p.gram k l| := by
      rw [abs_mul, abs_mul, abs_mul, abs_mul, habs, habs, abs_of_nonneg (ha.1 k).1, abs_of_nonneg (ha.1 l).1]
      ring
    refine (neg_le_abs _).trans ?_
    rw [e]
    refine mul_le_mul_of_nonneg_right ?_ (abs_nonneg _)
    exact mul_le_mul (ha.1 k).2 (ha.1 l).2 (ha.1 l).1 hp.C_nonneg
  linarith

/-- All positive distances are bounded from below. -/
theorem min_dist (p : Problem K n) : ∃ δ : K, 0 < δ ∧ ∀ i j, 0 < featDist p i j → δ ≤ featDist p i j := by
  by_cases h : ((univ : Finset (Fin n × Fin n)).filter fun q => 0 < featDist p q.1 q.2).Nonempty
  · obtain ⟨q, hq, hmin⟩ := exists_min_image _ (fun q : Fin n × Fin n => featDist p q.1 q.2) h
    refine ⟨featDist p q.1 q.2, (mem_filter.1 hq).2, fun i j hij => hmin (i, j) (mem_filter.2 ⟨mem_univ _, hij⟩)⟩
  · refine ⟨1, one_pos, fun i j hij => absurd ⟨(i, j), mem_filter.2 ⟨mem_univ _, hij⟩⟩ h⟩

/-- In every reachable state the cached errors of the samples strictly inside the box are right. -/
def CacheRight (p : Problem K n) : Prop :=
  ∀ s, Reachable p s → ∀ k, 0 < s.alphas k → s.alphas k < p.C → s.cache k = trueError p s.alphas s.b k

theorem passLoop_gain (p : Problem K n) (hp : p.Valid) (hsym : ∀ k l, p.gram k l = p.gram l k) (hc : CacheRight p) (δ : K) (hδ : 0 < δ)
    (hmin : ∀ i j, 0 < featDist p i j → δ ≤ featDist p i j) (perms : Nat → List (Fin n)) (is : List (Fin n)) :
    ∀ (s : State K n) (t c : Nat), Reachable p s →
      dualObjective p s.alphas ≤ dualObjective p (passLoop p perms is (s, t, c)).1.alphas ∧
      (c < (passLoop p perms is (s, t, c)).2.2 →
        dualObjective p s.alphas + 1 / 2 * δ * (1 / 100000) ^ 2 ≤ dualObjective p (passLoop p perms is (s, t, c)).1.alphas) := by
  induction is with
  | nil => intro s t c _; simp [passLoop]
  | cons i is ih =>
    intro s t c hr
    unfold passLoop
    cases hu : updateParameters p s i (perms t) with
    | none => exact ih s (t + 1) c hr
    | some s' =>
      dsimp only
      obtain ⟨j, h1, h2, h3⟩ := C10_dual_increases_partial p hp hsym s s' hr (hc s hr) i (perms t) hu
      have h4 := (ih s' (t + 1) (c + 1) (Reachable.step i _ hr hu)).1
      have h5 : δ ≤ featDist p i j := hmin i j h1
      have h6 : (1 / 100000 : K) ^ 2 ≤ (s'.alphas j - s.alphas j) ^ 2 := by
        rw [← sq_abs (s'.alphas j - s.alphas j)]
        exact pow_le_pow_left₀ (by norm_num) h2 2
      have h7 : 1 / 2 * δ * (1 / 100000) ^ 2 ≤ 1 / 2 * featDist p i j * (s'.alphas j - s.alphas j) ^ 2 := by
        refine mul_le_mul (by linarith) h6 (by positivity) (by linarith)
      have h8 : 0 ≤ 1 / 2 * δ * (1 / 100000) ^ 2 := by positivity
      have h9 : dualObjective p s.alphas + 1 / 2 * featDist p i j * (s'.alphas j - s.alphas j) ^ 2 ≤ dualObjective p s'.alphas := h3
      exact ⟨by linarith, fun _ => by linarith⟩

/-- C229, the part that holds: as long as the cached errors are right, training without a limit returns, for any symmetric kernel and any permutations.
Missing: runs in which a cached error is stale (C11), where the claim is false (`C229_never_ends`). -/
theorem C229_ends_partial [Archimedean K] (p : Problem K n) (hp : p.Valid) (hsym : ∀ k l, p.gram k l = p.gram l k) (hc : CacheRight p)
    (perms : Nat → List (Fin n)) : ∃ s, Returns p perms (-1) s := by
  obtain ⟨δ, hδ, hmin⟩ := min_dist p
  set ε := 1 / 2 * δ * (1 / 100000) ^ 2 with hε
  have hε0 : 0 < ε := by positivity
  set B := n * p.C + 1 / 2 * ∑ k, ∑ l, p.C * p.C * |p.gram k l| with hB
  -- one pass
  have hpass : ∀ r : Run K n, Reachable p r.st → Reachable p (pass p perms r).1.st ∧
      ((pass p perms r).2 = true ∨ dualObjective p r.st.alphas + ε ≤ dualObjective p (pass p perms r).1.st.alphas ∨
        (r.entire = false ∧ (pass p perms r).1.st = r.st ∧ (pass p perms r).1.entire = true)) := by
    intro r hr
    have hreach : Reachable p (pass p perms r).1.st := by
      have := reachable_loop (p := p) perms 1 r hr
      unfold loop at this
      split at this
      · rename_i r' e; rw [e]; exact this
      · rename_i r' e; rw [e]; exact this
    refine ⟨hreach, ?_⟩
    generalize hidx : (if r.entire then List.finRange n else (List.finRange n).filter r.st.nonBound) = idx
    have hg := (passLoop_gain p hp hsym hc δ hδ hmin perms idx r.st r.t 0 hr).2
    have hz := passLoop_zero p perms idx r.st r.t
    unfold pass
    simp only [hidx]
    by_cases he : r.entire = true
    · rw [if_pos he]
      split
      · exact Or.inl rfl
      · rename_i h0; exact Or.inr (Or.inl (hg (Nat.pos_of_ne_zero h0)))
    · rw [if_neg he]
      split
      · rename_i h0; exact Or.inr (Or.inr ⟨by simpa using he, (hz h0).1, rfl⟩)
      · rename_i h0; exact Or.inr (Or.inl (hg (Nat.pos_of_ne_zero h0)))
  have hfeas : ∀ s, Reachable p s → dualObjective p s.alphas ≤ B := fun s hs => dual_bounded p hp _ (inv_reachable hp hs).feas
  have hloop : ∀ r : Run K n, (pass p perms r).2 = true → (loop p perms 1 r).2 = true := by
    intro r h
    unfold loop
    split
    · rfl
    · rename_i r' e; rw [e] at h; simp at h
  have hnext : ∀ (r : Run K n) (k : Nat), (pass p perms r).2 = false → (loop p perms k (pass p perms r).1).2 = true → (loop p perms (k + 1) r).2 = true := by
    intro r k h1 h2
    unfold loop
    split
    · rfl
    · rename_i r' e; rw [e] at h2; exact h2
  have main : ∀ (N : Nat) (r : Run K n), Reachable p r.st → B < dualObjective p r.st.alphas + N * ε → ∃ k, (loop p perms k r).2 = true := by
    intro N
    induction N with
    | zero =>
      intro r hr h
      have := hfeas _ hr
      simp at h
      exact absurd h (not_lt.2 this)
    | succ N ih =>
      intro r hr h
      push_cast at h
      have gain : ∀ r' : Run K n, Reachable p r'.st → dualObjective p r.st.alphas + ε ≤ dualObjective p r'.st.alphas → ∃ k, (loop p perms k r').2 = true :=
        fun r' hr' hg => ih r' hr' (by linarith)
      obtain ⟨h1, h2⟩ := hpass r hr
      rcases Bool.eq_false_or_eq_true (pass p perms r).2 with hs | hs
      · exact ⟨1, hloop r hs⟩
      · rcases h2 with h2 | h2 | ⟨_, h3, h4⟩
        · rw [hs] at h2; exact absurd h2 (by decide)
        · obtain ⟨k, hk⟩ := gain _ h1 h2
          exact ⟨k + 1, hnext r k hs hk⟩
        · obtain ⟨h5, h6⟩ := hpass (pass p perms r).1 h1
          rcases Bool.eq_false_or_eq_true (pass p perms (pass p perms r).1).2 with hs' | hs'
          · exact ⟨1 + 1, hnext r 1 hs (hloop _ hs')⟩
          · rcases h6 with h6 | h6 | ⟨h7, _⟩
            · rw [hs'] at h6; exact absurd h6 (by decide)
            · rw [h3] at h6
              obtain ⟨k, hk⟩ := gain _ h5 h6
              exact ⟨k + 1 + 1, hnext r (k + 1) hs (hnext _ k hs' hk)⟩
            · rw [h4] at h7; exact absurd h7 (by decide)
  obtain ⟨N, hN⟩ := exists_nat_gt ((B - dualObjective p (Run.init K n).st.alphas) / ε)
  rw [div_lt_iff₀ hε0] at hN
  obtain ⟨k, hk⟩ := main N (Run.init K n) Reachable.init (by linarith)
  exact ⟨_, by unfold Returns; rw [if_pos rfl]; exact ⟨k, hk, rfl⟩⟩

/-- The hypothesis on the cache is met by every problem in which no multiplier can be strictly inside the box, for instance the coarse ones, and by the problem
`exQ` of two points, whose run updates both multipliers to 1/2. -/
theorem cacheRight_exQ : CacheRight exQ := by
  have key : ∀ s, Reachable exQ s → s = State.init ℚ 2 ∨
      s = { alphas := ![1 / 2, 1 / 2], nonBound := ![true, true], cache := ![0, 0], nonZero := ![true, true], b := 0 } := by
    intro s hs
    have hu : ∀ s0 ∈ [State.init ℚ 2, { alphas := ![1 / 2, 1 / 2], nonBound := ![true, true], cache := ![0, 0], nonZero := ![true, true], b := 0 }],
        ∀ i j : Fin 2, ∀ s' ∈ updateAlpha exQ s0 i j (errorI exQ s0 i) (calculateError exQ s0 j),
          s' = { alphas := ![1 / 2, 1 / 2], nonBound := ![true, true], cache := ![0, 0], nonZero := ![true, true], b := 0 } := by
      decide +kernel
    have hu' : ∀ s0 ∈ [State.init ℚ 2, { alphas := ![1 / 2, 1 / 2], nonBound := ![true, true], cache := ![0, 0], nonZero := ![true, true], b := 0 }],
        ∀ i : Fin 2, ∀ q ∈ selectSecond s0 (errorI exQ s0 i), ∀ s' ∈ updateAlpha exQ s0 i q.1 (errorI exQ s0 i) q.2,
          s' = { alphas := ![1 / 2, 1 / 2], nonBound := ![true, true], cache := ![0, 0], nonZero := ![true, true], b := 0 } := by
      decide +kernel
    induction hs with
    | init => exact Or.inl rfl
    | step i perm _ h1 ih =>
      right
      have hm := List.mem_cons.2 (ih.imp id fun h => List.mem_singleton.2 h)
      rcases (updateParameters_some h1).2 with ⟨j, ej, hsel, h2⟩ | ⟨j, _, h2⟩
      · exact hu' _ hm i (j, ej) hsel _ h2
      · exact hu _ hm i j _ h2
  intro s hs
  rcases key s hs with rfl | rfl
  · intro k h; simp [State.init] at h
  · decide +kernel

example : ∃ s, Returns exQ (fun _ => [0, 1]) (-1) s :=
  C229_ends_partial exQ ⟨by decide +kernel, by decide +kernel⟩ (by decide +kernel) cacheRight_exQ _

end CML.SMO

namespace CML.SVC
open SMO

/-- C229 is false of the classifier: `SVC` with a linear kernel and its other parameters at their defaults, fitted with `epochs=-1` on the rows `[-1]`, `[-4]`,
`[-2]` with the labels -1, +1, -1, never returns. -/
theorem C229_fit_never_returns (perms : Nat → List (Fin 3)) (hperm : ∀ t, (perms t).Perm (List.finRange 3)) (o' : Obj ℚ Unit) :
    ¬ Fit (fun _ _ => lin) perms exObj ![[-1], [-4], [-2]] ![-1, 1, -1] 1 (-1) o' := by
  rintro ⟨g, s, _, hs, _⟩
  have e : problem (getKernel (fun _ _ => lin) g exObj.kernel) exObj.C exObj.tol ![[-1], [-4], [-2]] ![-1, 1, -1] = exCycle := by
    unfold problem exCycle
    congr 1
    funext i j
    have h : ∀ i j : Fin 3, lin ((![[-1], [-4], [-2]] : Fin 3 → List ℚ) i) ((![[-1], [-4], [-2]] : Fin 3 → List ℚ) j) =
        (![![1, 4, 2], ![4, 16, 8], ![2, 8, 4]] : Fin 3 → Fin 3 → ℚ) i j := by decide +kernel
    exact h i j
  rw [e] at hs
  exact C229_never_ends perms hperm s hs

end CML.SVC
