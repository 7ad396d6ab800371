import Verif.Spec.CC
import Verif.Props.Ops
import Verif.Props.KMeans
import Mathlib.Tactic.Ring
import Mathlib.Tactic.Linarith
import Mathlib.Tactic.IntervalCases
import Mathlib.Algebra.BigOperators.Fin
import Mathlib.Algebra.Order.BigOperators.Group.Finset
import Mathlib.Data.Int.Interval
import Mathlib.Data.Nat.Count
import Mathlib.Algebra.Order.Field.Rat
import Mathlib.Data.Rat.Floor

set_option linter.unusedSectionVars false

/-! # Properties C132 - C136 (the C++ engine) -/

namespace CML.CC
open Finset

/-! ## C132: bootstrap -/

/-- C132: every number that `int32` can hold, except the smallest, gives the index of a row. -/
theorem C132_index_in_range (n : Nat) (hn : 0 < n) (v : Int) (hv : v ≠ -2 ^ 31) : 0 ≤ drawnIndex n v ∧ drawnIndex n v < n := by
  have h : drawnIndex n v = |v|.tmod n := by simp only [drawnIndex, abs32, if_neg hv]
  rw [h, Int.tmod_eq_emod_of_nonneg (abs_nonneg v)]
  have hn' : (n : Int) ≠ 0 := by omega
  exact ⟨Int.emod_nonneg _ hn', Int.emod_lt_of_pos _ (by omega)⟩

/-- C132: the smallest number gives a negative index, unless the number of rows divides 2^31. -/
theorem C132_int_min (n : Nat) (h : ¬n ∣ 2 ^ 31) : drawnIndex n (-2 ^ 31) < 0 := by
  have e : drawnIndex n (-2 ^ 31) = -((2 ^ 31 % n : Nat) : Int) := by
    simp only [drawnIndex, abs32, if_true, Int.neg_tmod]
    rw [Int.tmod_eq_emod_of_nonneg (by norm_num)]
    norm_cast
  rw [e]
  have : 2 ^ 31 % n ≠ 0 := fun h' => h (Nat.dvd_of_mod_eq_zero h')
  omega

lemma rowsAt_spec {α : Type} (x : List α) (idx : List Int) (h : ∀ i ∈ idx, 0 ≤ i ∧ i < x.length) :
    rowsAt x idx = Ops.fancy x (idx.map Int.toNat) := by
  unfold rowsAt Ops.fancy
  induction idx with
  | nil => rfl
  | cons i idx ih =>
    have hi := (h i List.mem_cons_self).1
    rw [List.map_cons, List.mapM_cons, List.mapM_cons, if_neg (not_lt.2 hi), ih fun j hj => h j (List.mem_cons_of_mem _ hj)]

lemma rowsAt_none {α : Type} (x : List α) (idx : List Int) (i : Int) (hi : i ∈ idx) (h : i < 0) : rowsAt x idx = none := by
  unfold rowsAt
  induction idx with
  | nil => simp at hi
  | cons j idx ih =>
    rw [List.mapM_cons]
    rcases List.mem_cons.1 hi with rfl | hi
    · simp [h]
    · rw [ih hi]
      cases (if j < 0 then none else x[j.toNat]?) <;> rfl

/-- C132: for the raw values that Eigen produces the function returns a row and its label at each position, the same row number for both:
position `j` holds row and label number `|v_j| mod n`. -/
theorem C132_pairs {α β : Type} (draw : List Int) (x : List α) (y : List β) (hn : 0 < x.length) (hl : x.length = y.length)
    (hd : ∀ v ∈ draw, v ≠ -2 ^ 31) :
    ∃ a b, bootstrapPair draw x y = .ok (some (a, b)) ∧ bootstrapOne draw x = some a ∧ a.length = draw.length ∧ b.length = draw.length ∧
      ∀ (j : Nat) (v : Int), draw[j]? = some v → a[j]? = x[v.natAbs % x.length]? ∧ b[j]? = y[v.natAbs % x.length]? := by
  have hrange : ∀ i ∈ draw.map (drawnIndex x.length), 0 ≤ i ∧ i < x.length := by
    intro i hi
    obtain ⟨v, hv, rfl⟩ := List.mem_map.1 hi
    exact C132_index_in_range _ hn v (hd v hv)
  have hex : ∀ {γ : Type} (z : List γ), z.length = x.length → ∃ c, Ops.fancy z ((draw.map (drawnIndex x.length)).map Int.toNat) = some c := by
    intro γ z hz
    refine KMeans.mapM_isSome (fun i => z[i]?) _ fun i hi => ?_
    obtain ⟨v, hv, rfl⟩ := List.mem_map.1 hi
    have := hrange v hv
    have hlt : v.toNat < z.length := by omega
    simp [hlt]
  have hget : ∀ {γ : Type} (z c : List γ), Ops.fancy z ((draw.map (drawnIndex x.length)).map Int.toNat) = some c →
      c.length = draw.length ∧ ∀ (j : Nat) (v : Int), draw[j]? = some v → c[j]? = z[v.natAbs % x.length]? := by
    intro γ z c hc
    obtain ⟨h1, h2⟩ := KMeans.mapM_some _ _ hc
    refine ⟨by simpa using h1, fun j v hv => ?_⟩
    obtain ⟨b, hb1, hb2⟩ := h2 j (drawnIndex x.length v).toNat (by simp [hv])
    rw [hb1, ← hb2]
    congr 1
    have hv' := hd v (List.mem_of_getElem? hv)
    simp only [drawnIndex, abs32, if_neg hv']
    rw [Int.tmod_eq_emod_of_nonneg (abs_nonneg v), Int.abs_eq_natAbs]
    norm_cast
  obtain ⟨a, ha⟩ := hex x rfl
  obtain ⟨b, hb⟩ := hex y hl.symm
  have ra := rowsAt_spec x _ hrange
  have rb := rowsAt_spec y _ (by rw [← hl]; exact hrange)
  refine ⟨a, b, ?_, ?_, (hget x a ha).1, (hget y b hb).1, fun j v hv => ⟨(hget x a ha).2 j v hv, (hget y b hb).2 j v hv⟩⟩
  · simp only [bootstrapPair, if_neg (not_not.2 hl), ra, rb, ha, hb]
  · simp only [bootstrapOne, ra, ha]

/-- C132: arrays of different length are refused with `ValueError`, as in Python; one draw of the smallest `int32` reads outside of the arrays
unless the number of rows divides 2^31. -/
theorem C132_refused {α β : Type} (draw : List Int) (x : List α) (y : List β) :
    (x.length ≠ y.length → bootstrapPair draw x y = .error .valueError) ∧
    (-2 ^ 31 ∈ draw → ¬x.length ∣ 2 ^ 31 → bootstrapOne draw x = none) := by
  constructor
  · intro h; simp only [bootstrapPair, if_pos h]
  · intro h hd
    exact rowsAt_none x _ _ (List.mem_map.2 ⟨_, h, rfl⟩) (C132_int_min _ hd)

/-- Non-vacuity: three rows, draws of both signs. -/
example : bootstrapPair [5, -4, 7] ["a", "b", "c"] [1, 2, 3] = .ok (some (["c", "b", "b"], [3, 2, 2])) := by decide +kernel

lemma drawnIndex_natAbs (n : Nat) (v : Int) (hv : v ≠ -2 ^ 31) : drawnIndex n v = ((v.natAbs % n : Nat) : Int) := by
  simp only [drawnIndex, abs32, if_neg hv]
  rw [Int.tmod_eq_emod_of_nonneg (abs_nonneg v), Int.abs_eq_natAbs]
  norm_cast

/-- Number of the integers `a, ..., a + m - 1` with remainder `i`. -/
lemma count_block (n t i : Nat) (hi : i < n) (a : Nat) : ((Finset.Ico a (a + n * t)).filter fun w => w % n = i).card = t := by
  have per : Function.Periodic (fun w => w % n = i) n := by intro w; simp
  have one : n.count (fun w => w % n = i) = 1 := by
    rw [Nat.count_eq_card_filter_range]
    have : (Finset.range n).filter (fun w => w % n = i) = {i} := by
      ext w
      simp only [mem_filter, mem_range, mem_singleton]
      constructor
      · rintro ⟨h1, h2⟩; rwa [Nat.mod_eq_of_lt h1] at h2
      · rintro rfl; exact ⟨hi, Nat.mod_eq_of_lt hi⟩
    rw [this, card_singleton]
  induction t with
  | zero => simp
  | succ t ih =>
    have hu : Finset.Ico a (a + n * (t + 1)) = Finset.Ico a (a + n * t) ∪ Finset.Ico (a + n * t) (a + n * t + n) := by
      rw [Finset.Ico_union_Ico_eq_Ico (by omega) (by omega)]
      congr 1; ring
    rw [hu, Finset.filter_union, Finset.card_union_of_disjoint, ih, Nat.filter_Ico_card_eq_of_periodic _ _ _ per, one]
    exact Finset.disjoint_filter_filter (Finset.Ico_disjoint_Ico_consecutive _ _ _)

/-- The raw values split into the non-negative and the negative ones. -/
lemma timesDrawn_split (B n i : Nat) (hB : B < 2 ^ 31) :
    timesDrawn B n i = ((Finset.Ico 0 B).filter fun w => w % n = i).card + ((Finset.Ico 1 (1 + B)).filter fun w => w % n = i).card := by
  have hne : ∀ v : Int, v ∈ Finset.Ico (-(B : Int)) B → v ≠ -2 ^ 31 := by
    intro v hv
    rw [Finset.mem_Ico] at hv
    have : (B : Int) < 2 ^ 31 := by exact_mod_cast hB
    omega
  have hu : Finset.Ico (-(B : Int)) B = Finset.Ico (-(B : Int)) 0 ∪ Finset.Ico 0 B := by
    rw [Finset.Ico_union_Ico_eq_Ico (by omega) (by omega)]
  have e : timesDrawn B n i = ((Finset.Ico (-(B : Int)) 0).filter fun v => v.natAbs % n = i).card +
      ((Finset.Ico (0 : Int) B).filter fun v => v.natAbs % n = i).card := by
    unfold timesDrawn
    rw [← Finset.card_union_of_disjoint, ← Finset.filter_union, ← hu]
    · congr 1
      refine Finset.filter_congr fun v hv => ?_
      rw [drawnIndex_natAbs n v (hne v hv)]
      norm_cast
    · exact Finset.disjoint_filter_filter (Finset.Ico_disjoint_Ico_consecutive _ _ _)
  rw [e, add_comm]
  congr 1
  · refine Finset.card_bij (fun v _ => v.natAbs) ?_ ?_ ?_
    · intro v hv
      simp only [mem_filter, mem_Ico] at hv ⊢
      omega
    · intro v hv w hw h
      simp only [mem_filter, mem_Ico] at hv hw
      omega
    · intro w hw
      simp only [mem_filter, mem_Ico] at hw
      exact ⟨(w : Int), by simp only [mem_filter, mem_Ico, Int.natAbs_natCast]; omega, by simp⟩
  · refine Finset.card_bij (fun v _ => v.natAbs) ?_ ?_ ?_
    · intro v hv
      simp only [mem_filter, mem_Ico] at hv ⊢
      omega
    · intro v hv w hw h
      simp only [mem_filter, mem_Ico] at hv hw
      omega
    · intro w hw
      simp only [mem_filter, mem_Ico] at hw
      exact ⟨-(w : Int), by simp only [mem_filter, mem_Ico, Int.natAbs_neg, Int.natAbs_natCast]; omega, by simp⟩

/-- C132 (part): if the number of rows divides `B`, all rows are equally likely. -/
theorem C132_uniform_partial (B n : Nat) (hB : B < 2 ^ 31) (h : n ∣ B) (i : Nat) (hi : i < n) : timesDrawn B n i = 2 * (B / n) := by
  obtain ⟨t, rfl⟩ := h
  have h1 := count_block n t i hi 0
  have h2 := count_block n t i hi 1
  rw [zero_add] at h1
  rw [timesDrawn_split _ _ _ hB, h1, h2, Nat.mul_div_cancel_left _ (by omega)]
  ring

/-- C132 is false: for every number of rows that does not divide `B = 2^b` (`b = 30` on Linux, where `RAND_MAX = 2^31 - 1`; `b = 14` on
Windows) some row is more likely than another. -/
theorem C132_not_uniform (b n : Nat) (hb : 1 ≤ b) (hb' : b < 31) (hn : 0 < n) (h : ¬n ∣ 2 ^ b) :
    ∃ i j, i < n ∧ j < n ∧ timesDrawn (2 ^ b) n i ≠ timesDrawn (2 ^ b) n j := by
  by_contra hcon
  push Not at hcon
  have hB : 2 ^ b < 2 ^ 31 := Nat.pow_lt_pow_right (by norm_num) hb'
  have hsum : ∑ i ∈ range n, timesDrawn (2 ^ b) n i = 2 * 2 ^ b := by
    have hcard := Finset.card_eq_sum_card_fiberwise (s := Finset.Ico (-(2 ^ b : Nat) : Int) (2 ^ b : Nat)) (t := range n)
      (f := fun v => (drawnIndex n v).toNat) (by
        intro v hv
        have hv' : v ≠ -2 ^ 31 := by
          simp only [coe_Ico, Set.mem_Ico] at hv
          have : ((2 ^ b : Nat) : Int) < 2 ^ 31 := by exact_mod_cast hB
          omega
        have := C132_index_in_range n hn v hv'
        simp only [coe_range, Set.mem_Iio]
        omega)
    rw [Int.card_Ico] at hcard
    have e2 : (((2 ^ b : Nat) : Int) - -((2 ^ b : Nat) : Int)).toNat = 2 * 2 ^ b := by omega
    rw [e2] at hcard
    rw [hcard]
    refine Finset.sum_congr rfl fun i hi => ?_
    unfold timesDrawn
    congr 1
    refine Finset.filter_congr fun v hv => ?_
    have hv' : v ≠ -2 ^ 31 := by
      rw [mem_Ico] at hv
      have : ((2 ^ b : Nat) : Int) < 2 ^ 31 := by exact_mod_cast hB
      omega
    have := C132_index_in_range n hn v hv'
    omega
  have hconst : ∑ i ∈ range n, timesDrawn (2 ^ b) n i = n * timesDrawn (2 ^ b) n 0 := by
    rw [Finset.sum_congr rfl fun i hi => hcon i 0 (mem_range.1 hi) hn, Finset.sum_const, card_range, smul_eq_mul]
  have hdvd : n ∣ 2 ^ (b + 1) := by
    rw [pow_succ, mul_comm, ← hsum, hconst]
    exact dvd_mul_right _ _
  obtain ⟨k, hk, rfl⟩ := (Nat.dvd_prime_pow Nat.prime_two).1 hdvd
  have hkb : k = b + 1 := by
    by_contra hne
    exact h (pow_dvd_pow 2 (by omega))
  subst hkb
  have hlt : 2 ^ b + 1 < 2 ^ (b + 1) := by
    have : 2 ^ 1 ≤ 2 ^ b := Nat.pow_le_pow_right (by norm_num) hb
    rw [pow_succ]; omega
  have h0 : timesDrawn (2 ^ b) (2 ^ (b + 1)) (2 ^ b + 1) = 0 := by
    rw [timesDrawn_split _ _ _ hB, Nat.add_eq_zero_iff, Finset.card_eq_zero, Finset.card_eq_zero]
    constructor
    all_goals
      refine Finset.filter_eq_empty_iff.2 fun w hw => ?_
      rw [mem_Ico] at hw
      rw [Nat.mod_eq_of_lt (by omega)]
      omega
  have h1 : 0 < timesDrawn (2 ^ b) (2 ^ (b + 1)) 0 := by
    rw [timesDrawn_split _ _ _ hB]
    refine Nat.add_pos_left (Finset.card_pos.2 ⟨0, ?_⟩) _
    simp only [mem_filter, mem_Ico, Nat.zero_mod, le_refl, true_and, and_true]
    positivity
  have := hcon (2 ^ b + 1) 0 hlt hn
  omega

/-- C132 is false in a stronger way: rows beyond number `B` are never drawn (on Windows `B = 16384`). -/
theorem C132_never_drawn (B n i : Nat) (hB : B < 2 ^ 31) (hi : B < i) : timesDrawn B n i = 0 := by
  rw [timesDrawn_split _ _ _ hB, Nat.add_eq_zero_iff, Finset.card_eq_zero, Finset.card_eq_zero]
  constructor
  all_goals
    refine Finset.filter_eq_empty_iff.2 fun w hw h => ?_
    rw [mem_Ico] at hw
    have := Nat.mod_le w n
    omega

/-- Non-vacuity: three rows on Linux; the first row is less likely than the second. -/
example : ¬3 ∣ 2 ^ 30 ∧ timesDrawn (2 ^ 3) 3 0 = 5 ∧ timesDrawn (2 ^ 3) 3 1 = 6 ∧ timesDrawn (2 ^ 3) 3 2 = 5 := by decide +kernel

/-! ## C133: K-means -/

section KM
variable {K : Type} [Field K] [LinearOrder K] [IsStrictOrderedRing K] {n k d : Nat}

lemma foldl_addMember (c : Nat) (z : List ((Fin d → K) × Nat)) : ∀ acc : (Fin d → K) × Nat,
    z.foldl (addMember c) acc = (fun l => acc.1 l + (((z.filter fun p => p.2 = c).map Prod.fst).map fun r => r l).sum,
      acc.2 + (z.filter fun p => p.2 = c).length) := by
  induction z with
  | nil => intro acc; simp
  | cons p z ih =>
    intro acc
    rw [List.foldl_cons, ih]
    by_cases h : p.2 = c
    · simp only [addMember, List.filter_cons, h, decide_true, if_true, List.map_cons, List.sum_cons, List.length_cons]
      refine Prod.ext (funext fun l => ?_) ?_
      · simp only; ring
      · simp only; omega
    · simp [addMember, h]

/-- C133: the two engines compute the same centroids for every labelling. -/
theorem C133_centroids (x : List (Fin d → K)) (clusters : List Nat) : calculateCentroids x clusters = KMeans.calculateCentroids x clusters := by
  unfold calculateCentroids KMeans.calculateCentroids
  refine List.map_congr_left fun c _ => ?_
  unfold clusterMean KMeans.mean KMeans.members
  rw [foldl_addMember]
  by_cases h : (x.zip clusters).filter (fun p => p.2 = c) = []
  · simp [h]
  · have hl : ((x.zip clusters).filter fun p => p.2 = c).length ≠ 0 := fun h' => h (List.length_eq_zero_iff.1 h')
    simp only [zero_add, if_neg hl, List.map_eq_nil_iff, if_neg h, List.length_map]

lemma minCoeffAux_some (bi : Nat) (bv : K) (i : Nat) (vs : List K) : minCoeffAux bi (some bv) i (vs.map some) = argminAux bi bv i vs := by
  induction vs generalizing bi bv i with
  | nil => rfl
  | cons v vs ih =>
    simp only [List.map_cons, minCoeffAux, ltNaN, argminAux, decide_eq_true_eq]
    split
    · exact ih i v (i + 1)
    · exact ih bi bv (i + 1)

lemma argMin_some (l : List K) : argMin (l.map some) = argmin? l := by
  cases l with
  | nil => rfl
  | cons v vs => simp only [List.map_cons, argMin, argmin?, minCoeffAux_some]

/-- C133: the two engines give the same labels for centroids that are numbers. -/
theorem C133_labels (root : K → K) (x : List (Fin d → K)) (cs : List (Fin d → K)) :
    getCluster root x (cs.map some) = KMeans.getCluster root x (cs.map some) := by
  unfold getCluster KMeans.getCluster
  congr 1
  funext u
  rw [KMeans.distances_some, show (cs.map fun v => some (root (KMeans.sqDist u v))) = (cs.map fun v => root (KMeans.sqDist u v)).map some by simp,
    KMeans.argminNaN_some, ← argMin_some]
  congr 1
  simp [KMeans.sqDist, pow_two]

/-- C133: the two engines give the same answer when old and new centroids are compared, provided there are as many new as old ones. -/
theorem C133_differences (tol : K) (x0 x1 : List (Option (Fin (d + 1) → K))) (h : x0.length = x1.length) :
    ∃ diff, compareDifferences tol x0 x1 = some diff ∧ KMeans.compareDifferences x0 x1 tol = .ok diff := by
  have e : (rowDiffers tol : Option (Fin (d + 1) → K) → _) = KMeans.rowDiffers tol := by
    funext a b
    cases a <;> cases b <;> simp [rowDiffers, KMeans.rowDiffers]
  exact ⟨_, by simp only [compareDifferences, if_pos h]; rfl, by simp only [KMeans.compareDifferences, if_pos h, e]⟩

/-- C133: ... and if not, the C++ engine has no defined behaviour. -/
theorem C133_differences_undefined (tol : K) (x0 x1 : List (Option (Fin (d + 1) → K))) (h : x0.length ≠ x1.length) :
    compareDifferences tol x0 x1 = none := if_neg h

lemma all_some (x : List (Fin d → K)) (lab : List Nat) (m : Nat) (hl : lab.length = x.length) (hall : ∀ c < m, c ∈ lab)
    (hn : Ops.numUnique lab = m) : ∃ cs' : List (Fin d → K), KMeans.calculateCentroids x lab = cs'.map some ∧ cs'.length = m := by
  obtain ⟨cs1, h1⟩ := KMeans.list_all_some (List.range (Ops.numUnique lab)) (fun c => KMeans.mean (KMeans.members x lab c)) (by
    intro c hc
    exact KMeans.mean_some (KMeans.members_ne_nil hl (hall c (by rw [hn] at hc; simpa using hc))))
  refine ⟨cs1, h1, ?_⟩
  have := congrArg List.length h1
  simp at this
  omega

/-- C133: whenever training with the C++ engine has a defined result, training with the Python engine gives the same result. -/
theorem C133_fit_refines {root : K → K} (hr : KMeans.RootOK root) (x : List (Fin (d + 1) → K)) (tol : K) (epochs : Nat)
    (init : List (Fin (d + 1) → K)) (r : KMeans.Fitted K (d + 1)) (h : fit root x tol epochs init = some r) :
    KMeans.fit root x tol epochs init = .ok r := by
  have key : ∀ (e : Nat) (cs : List (Fin (d + 1) → K)) lab0, fitLoop root x tol e (cs.map some) lab0 = some r →
      KMeans.fitLoop root x tol e (cs.map some) lab0 = .ok r := by
    intro e
    induction e with
    | zero => intro cs lab0 h; simp only [fitLoop, Option.some.injEq] at h; simp only [KMeans.fitLoop, h]
    | succ e ih =>
      intro cs lab0 h
      simp only [fitLoop] at h
      cases hg : getCluster root x (cs.map some) with
      | none => rw [hg] at h; simp at h
      | some lab =>
        rw [hg] at h
        have hg' := hg
        rw [C133_labels] at hg'
        have hv := KMeans.getCluster_valid hr hg'
        simp only [KMeans.fitLoop, hg']
        simp only [C133_centroids] at h
        by_cases hlen : (cs.map some).length = (KMeans.calculateCentroids x lab).length
        · obtain ⟨diff, hd1, hd2⟩ := C133_differences tol _ _ hlen
          rw [hd1] at h
          rw [hd2]
          have hn : Ops.numUnique lab = cs.length := by
            simpa [KMeans.calculateCentroids] using hlen.symm
          obtain ⟨cs', hcs', _⟩ := all_some x lab cs.length hv.1 (KMeans.numUnique_eq_all hv.2 hn) hn
          simp only at h ⊢
          split
          · rename_i hb
            rw [if_pos hb] at h
            rw [hcs'] at h ⊢
            exact ih cs' _ h
          · rename_i hb
            rw [if_neg hb] at h
            simp only [Option.some.injEq] at h
            rw [h]
        · rw [C133_differences_undefined tol _ _ hlen] at h
          simp at h
  exact key epochs init none h

/-- C133 (part): as long as no iteration leaves a centroid without samples, both engines succeed with the same result. -/
theorem C133_fit_partial {root : K → K} (hr : KMeans.RootOK root) (x : List (Fin (d + 1) → K)) (tol : K) (epochs : Nat)
    (init : List (Fin (d + 1) → K)) (hi : init ≠ [])
    (hall : ∀ (cs : List (Fin (d + 1) → K)) labels, KMeans.Visited root x init cs →
      KMeans.getCluster root x (cs.map some) = some labels → ∀ c < cs.length, c ∈ labels) :
    ∃ r, fit root x tol epochs init = some r ∧ KMeans.fit root x tol epochs init = .ok r := by
  have key : ∀ (e : Nat) (cs : List (Fin (d + 1) → K)) lab0, KMeans.Visited root x init cs → cs ≠ [] →
      ∃ r, fitLoop root x tol e (cs.map some) lab0 = some r := by
    intro e
    induction e with
    | zero => intro cs lab0 _ _; exact ⟨_, rfl⟩
    | succ e ih =>
      intro cs lab0 hvis hne
      obtain ⟨lab, hlab⟩ := KMeans.getCluster_some root x hne
      have hv := KMeans.getCluster_valid hr hlab
      have hn := KMeans.numUnique_all hv.2 (hall cs lab hvis hlab)
      obtain ⟨cs', hcs', hl'⟩ := all_some x lab cs.length hv.1 (hall cs lab hvis hlab) hn
      obtain ⟨diff, hd1, _⟩ := C133_differences tol (cs.map some) (cs'.map some) (by simp [hl'])
      simp only [fitLoop, C133_labels, hlab, C133_centroids, hcs', hd1]
      split
      · exact ih cs' _ (.step cs cs' lab hvis hlab hcs') (fun h => hne (List.length_eq_zero_iff.1 (by rw [← hl', h]; rfl)))
      · exact ⟨_, rfl⟩
  obtain ⟨r, h⟩ := key epochs init none .start hi
  exact ⟨r, h, C133_fit_refines hr x tol epochs init r h⟩

/-- C133 is false for every training set and every initial centroids that leave a centroid without samples in the first iteration: the
C++ engine has no defined behaviour. -/
theorem C133_empty_cluster {root : K → K} (hr : KMeans.RootOK root) (x : List (Fin (d + 1) → K)) (tol : K) (epochs : Nat)
    (init : List (Fin (d + 1) → K)) (labels : List Nat) (hl : KMeans.getCluster root x (init.map some) = some labels)
    (c : Nat) (hc : c < init.length) (hmem : c ∉ labels) : fit root x tol (epochs + 1) init = none := by
  have hv := KMeans.getCluster_valid hr hl
  simp only [fit, fitLoop, C133_labels, hl, C133_centroids]
  rw [C133_differences_undefined]
  intro h
  have hn : Ops.numUnique labels = init.length := by simpa [KMeans.calculateCentroids] using h.symm
  exact hmem (KMeans.numUnique_eq_all hv.2 hn c hc)

/-- C133: the Python engine succeeds on such a training set (two points, the second of two centroids too far away). -/
theorem C133_python_goes_on :
    (∃ r, KMeans.fit (id : ℚ → ℚ) [![0], ![1]] (1/1000) 10 [![0], ![100]] = .ok r) ∧
    fit (id : ℚ → ℚ) [![0], ![1]] (1/1000) 10 [![0], ![100]] = none :=
  ⟨(by obtain ⟨r, h, _⟩ := KMeans.C15_collapse; exact ⟨r, h⟩), by decide +kernel⟩

/-- Non-vacuity: a run of three iterations in both engines. -/
example : fit (id : ℚ → ℚ) [![0], ![1], ![10], ![11]] (1/1000) 10 [![0], ![1]] =
    some ⟨[some ![1/2], some ![21/2]], some [0, 0, 1, 1], true⟩ := by decide +kernel

/-- C133, rows with NaN: if the first entry is NaN the answer is 0. -/
theorem C133_nan_first (l : List (Option K)) : argMin (none :: l) = some 0 := by
  have : ∀ i, minCoeffAux 0 (none : Option K) i l = 0 := by
    induction l with
    | nil => intro i; rfl
    | cons v l ih => intro i; cases v <;> simp only [minCoeffAux, ltNaN] <;> exact ih (i + 1)
  simp only [argMin, this]

/-- C133, rows with NaN: otherwise NaN entries are passed over and the answer is the first minimum of the numbers; the Python engine answers
with the position of the first NaN. -/
theorem C133_nan_later (a : K) (l : List (Option K)) :
    ∃ i v, argMin (some a :: l) = some i ∧ (some a :: l)[i]? = some (some v) ∧ (∀ w, some w ∈ some a :: l → v ≤ w) ∧
      ∀ j < i, ∀ w, (some a :: l)[j]? = some (some w) → v < w := by
  have key : ∀ (vs pre : List (Option K)) (bi : Nat) (bv : K), pre[bi]? = some (some bv) → (∀ w, some w ∈ pre → bv ≤ w) →
      (∀ j < bi, ∀ w, pre[j]? = some (some w) → bv < w) →
      ∃ v, (pre ++ vs)[minCoeffAux bi (some bv) pre.length vs]? = some (some v) ∧ (∀ w, some w ∈ pre ++ vs → v ≤ w) ∧
        ∀ j < minCoeffAux bi (some bv) pre.length vs, ∀ w, (pre ++ vs)[j]? = some (some w) → v < w := by
    intro vs
    induction vs with
    | nil => intro pre bi bv h1 h2 h3; rw [List.append_nil]; exact ⟨bv, h1, h2, h3⟩
    | cons o vs ih =>
      intro pre bi bv h1 h2 h3
      have hbl : bi < pre.length := (List.getElem?_eq_some_iff.1 h1).1
      have stay : (∀ w, o = some w → bv ≤ w) → _ := fun hw => ih (pre ++ [o]) bi bv (by rw [List.getElem?_append_left hbl]; exact h1)
        (by intro w hm
            rcases List.mem_append.1 hm with hm | hm
            · exact h2 w hm
            · exact hw w (List.mem_singleton.1 hm).symm)
        (by intro j hj w hw'
            rw [List.getElem?_append_left (hj.trans hbl)] at hw'
            exact h3 j hj w hw')
      rw [List.append_assoc, List.singleton_append, List.length_append, List.length_singleton] at stay
      cases o with
      | none =>
        simp only [minCoeffAux, ltNaN, Bool.false_eq_true, if_false]
        exact stay (by simp)
      | some v =>
        simp only [minCoeffAux, ltNaN, decide_eq_true_eq]
        split
        · rename_i hlt
          have := ih (pre ++ [some v]) pre.length v (by simp)
            (by intro w hm
                rcases List.mem_append.1 hm with hm | hm
                · exact (lt_of_lt_of_le hlt (h2 w hm)).le
                · exact le_of_eq (by simpa using (List.mem_singleton.1 hm).symm))
            (by intro j hj w hw
                rw [List.getElem?_append_left hj] at hw
                exact lt_of_lt_of_le hlt (h2 w (List.mem_of_getElem? hw)))
          simpa using this
        · rename_i hlt
          exact stay (by intro w hw; simp only [Option.some.injEq] at hw; rw [← hw]; exact not_lt.1 hlt)
  obtain ⟨v, h1, h2, h3⟩ := key l [some a] 0 a (by simp) (by simp) (by simp)
  exact ⟨_, v, rfl, h1, h2, h3⟩

end KM

/-! ## C135: means of a mixture, errors of a support vector machine -/

section M
variable {K : Type} [Field K] [LinearOrder K] [IsStrictOrderedRing K] {n k d : Nat}

lemma foldl_add (f : Fin n → K) (l : List (Fin n)) : ∀ a : K, l.foldl (fun acc j => acc + f j) a = a + (l.map f).sum := by
  induction l with
  | nil => intro a; simp
  | cons j l ih => intro a; rw [List.foldl_cons, ih]; simp [add_assoc]

/-- C135: the two engines compute the same means of the components. -/
theorem C135_means (x : Fin n → Fin d → K) (g : Fin n → Fin k → K) : calculateMeans x g = GMM.calculateMeans x g := by
  funext i l
  unfold calculateMeans GMM.calculateMeans
  rw [foldl_add, zero_add, Fin.sum_univ_def, Fin.sum_univ_def]

/-- C135: the two engines compute the same error of every sample, whatever the multipliers, the kernel and the offset, if the marks are 1 for
the multipliers that are not zero and 0 for the others. -/
theorem C135_error (p : SMO.Problem K n) (s : SMO.State K n) (i : Fin n) :
    calculateError p.y s.alphas (fun j => if s.nonZero j = true then 1 else 0) p.gram s.b i = SMO.calculateError p s i := by
  unfold calculateError SMO.calculateError
  have e1 : (∃ j, (if s.nonZero j = true then (1 : K) else 0) ≠ 0) ↔ ∃ j, s.nonZero j = true := by
    refine exists_congr fun j => ?_
    by_cases h : s.nonZero j = true <;> simp [h]
  have e2 : (((List.finRange n).filter fun j => (if s.nonZero j = true then (1 : K) else 0) = 1).map fun j => s.alphas j * p.y j * p.gram j i).sum =
      ∑ j, if s.nonZero j = true then s.alphas j * p.y j * p.gram j i else 0 := by
    rw [Fin.sum_univ_def]
    generalize List.finRange n = l
    induction l with
    | nil => rfl
    | cons j l ih =>
      by_cases h : s.nonZero j = true
      · rw [List.filter_cons_of_pos (by simp [h]), List.map_cons, List.sum_cons, List.map_cons, List.sum_cons, ih, if_pos h]
      · rw [List.filter_cons_of_neg (by simp [h]), List.map_cons, List.sum_cons, ih, if_neg h, zero_add]
  simp only [e1, e2]

end M

/-! ## C134: initial centroids -/

section I
variable {K : Type} [Field K] [LinearOrder K] [IsStrictOrderedRing K] [FloorSemiring K]

/-- C134: a matrix with one row for each cluster and one column for each feature is used as it is, also for one cluster and for one feature. -/
theorem C134_matrix (x : List (List K)) (nF : Nat) (isInt : Bool) (rows : List (List K)) (draw : List Int) (hne : rows ≠ [])
    (hw : ∀ r ∈ rows, r.length = nF) : initCentroids x nF rows.length (.mat isInt rows) draw = .ok (some rows) := by
  cases rows with
  | nil => exact absurd rfl hne
  | cons r rows =>
    have : r.length = nF := hw r (by simp)
    simp [initCentroids, initFromMatrix, this]

lemma colMajor_one (l : List K) : colMajor 1 (l.map fun v => [v]) = l := by
  simp only [colMajor, List.range_one, List.flatMap_cons, List.flatMap_nil, List.append_nil]
  induction l with
  | nil => rfl
  | cons v l ih => simp [ih]

/-- C134: with two or more features a list of as many indices as clusters, each at least 0 and smaller than the number of samples, selects
the samples; numbers that are not integers are rounded down (the Python engine raises `IndexError`, C16_float_indices_refused). -/
theorem C134_indices (x : List (List K)) (nF : Nat) (hF : nF ≠ 1) (isInt : Bool) (l : List K) (draw : List Int) (hne : l ≠ [])
    (hr : ∀ v ∈ l, 0 ≤ v ∧ v < (x.length : K)) :
    ∃ rows, initCentroids x nF l.length (.vec isInt l) draw = .ok (some rows) ∧ rows.length = l.length ∧
      ∀ (j : Nat) (v : K), l[j]? = some v → rows[j]? = x[⌊v⌋₊]? := by
  have hlt : ∀ i ∈ l.map (fun v => ⌊v⌋₊), (x[i]?).isSome := by
    intro i hi
    obtain ⟨v, hv, rfl⟩ := List.mem_map.1 hi
    have : ⌊v⌋₊ < x.length := (Nat.floor_lt (hr v hv).1).2 (hr v hv).2
    simp [this]
  obtain ⟨rows, hrows⟩ := KMeans.mapM_isSome (fun i => x[i]?) _ hlt
  obtain ⟨h1, h2⟩ := KMeans.mapM_some _ _ hrows
  refine ⟨rows, ?_, by simpa using h1, fun j v hv => ?_⟩
  · have hc : ¬(l.any (fun v => decide ((x.length : K) ≤ v)) = true ∨ l.any (fun v => decide (v < 0)) = true) := by
      simp only [List.any_eq_true, decide_eq_true_eq, not_or, not_exists, not_and, not_le, not_lt]
      exact ⟨fun v hv => (hr v hv).2, fun v hv => (hr v hv).1⟩
    simp only [initCentroids, initFromMatrix, colMajor_one, List.length_map, mul_one, if_true, if_neg hne, if_neg hc, true_and,
      if_neg (Ne.symm hF)]
    rw [show Ops.fancy x (l.map fun v => ⌊v⌋₊) = some rows from hrows]
  · obtain ⟨b, hb1, hb2⟩ := h2 j ⌊v⌋₊ (by simp [hv])
    rw [hb1, hb2]

/-- C134: with two or more features and two or more clusters the two engines give the same answer, result or refusal, for every list of
integers. -/
theorem C134_indices_agree (x : List (List K)) (nF nC : Nat) (hF : 2 ≤ nF) (l : List Int) (h2 : 2 ≤ l.length) (draw : List Int) (draw' : List Nat) :
    initCentroids x nF nC (.vec true (l.map (Int.cast : Int → K))) draw =
      (KMeans.initCentroids x nF nC (.vec true (l.map (Int.cast : Int → K))) draw').map some := by
  have hsq : KMeans.squeeze (.vec true (l.map (Int.cast : Int → K))) = .vec true (l.map (Int.cast : Int → K)) := by
    match l, h2 with
    | a :: b :: l, _ => rfl
  have hl : (l.map (Int.cast : Int → K)).length = l.length := List.length_map _
  have hne : l.map (Int.cast : Int → K) ≠ [] := by
    intro h; rw [← List.length_eq_zero_iff, hl] at h; omega
  generalize l.map (Int.cast : Int → K) = m at *
  simp only [initCentroids, KMeans.initCentroids, hsq, initFromMatrix, List.length_map, colMajor_one, mul_one,
    if_neg (show ¬(m.length = nC ∧ 1 = nF) by omega)]
  by_cases hm : m.length = nC
  · simp only [hm, if_true, if_neg hne, ne_eq, not_true_eq_false, if_false]
    by_cases hc : m.any (fun v => decide (v < 0)) = true ∨ m.any (fun v => decide ((x.length : K) ≤ v)) = true
    · rw [if_pos hc, if_pos hc.symm]; rfl
    · rw [if_neg hc, if_neg (fun h => hc h.symm)]
      have hlt : ∀ i ∈ m.map (fun v => ⌊v⌋₊), (x[i]?).isSome := by
        intro i hi
        obtain ⟨v, hv, rfl⟩ := List.mem_map.1 hi
        simp only [List.any_eq_true, decide_eq_true_eq, not_or, not_exists, not_and, not_le, not_lt] at hc
        have : ⌊v⌋₊ < x.length := (Nat.floor_lt (hc.1 v hv)).2 (hc.2 v hv)
        simp [this]
      obtain ⟨rows, hrows⟩ := KMeans.mapM_isSome (fun i => x[i]?) _ hlt
      rw [show Ops.fancy x (m.map fun v => ⌊v⌋₊) = some rows from hrows]
      rfl
  · simp only [ne_eq, hm, not_false_iff, if_true]; rfl

/-- C134: the two engines give the same answer for every matrix with two or more rows and columns whose number of entries is not the number of
clusters. -/
theorem C134_matrix_agree (x : List (List K)) (nF nC : Nat) (isInt : Bool) (rows : List (List K)) (w : Nat) (h2 : 2 ≤ rows.length) (hw : 2 ≤ w)
    (hrect : ∀ r ∈ rows, r.length = w) (hs : rows.length * w ≠ nC) (draw : List Int) (draw' : List Nat) :
    initCentroids x nF nC (.mat isInt rows) draw = (KMeans.initCentroids x nF nC (.mat isInt rows) draw').map some := by
  rw [KMeans.C16_matrix_partial x nF nC isInt rows draw' h2 w hw hrect]
  match rows, h2 with
  | a :: b :: rows, _ =>
    have ha := hrect a (by simp)
    simp only [initCentroids, initFromMatrix, ha, if_neg hs]
    split <;> rfl

/-- C134: the random choice is a choice of samples, one for each cluster. -/
theorem C134_random (x : List (List K)) (nF nC : Nat) (draw : List Int) (hx : 0 < x.length) (hn : draw.length = nC)
    (hd : ∀ v ∈ draw, v ≠ -2 ^ 31) :
    ∃ rows, initCentroids x nF nC .random draw = .ok (some rows) ∧ rows.length = nC ∧ ∀ r ∈ rows, r ∈ x := by
  obtain ⟨a, _, _, h2, h3, _, h5⟩ := C132_pairs draw x x hx rfl hd
  refine ⟨a, ?_, by omega, fun r hr => ?_⟩
  · simp only [initCentroids]; exact congrArg Except.ok h2
  · obtain ⟨j, hj, rfl⟩ := List.mem_iff_getElem.1 hr
    have h := (h5 j draw[j] (List.getElem?_eq_getElem (by omega))).1
    rw [List.getElem?_eq_getElem hj] at h
    exact List.mem_of_getElem? h.symm

/-- C134: refusals: another string raises `TypeError`; a list of another length than the number of clusters, or (with two or more features) with
an index below 0 or beyond the last sample, raises `ValueError`; so does a matrix of another shape, unless its entries are as many as the clusters. -/
theorem C134_refused (x : List (List K)) (nF nC : Nat) (isInt : Bool) (draw : List Int) :
    initCentroids x nF nC .other draw = .error .typeError ∧ initCentroids x nF nC .scalar draw = .error .typeError ∧
    initCentroids x nF nC .tensor draw = .error .typeError ∧
    (∀ l : List K, l.length ≠ nC → initCentroids x nF nC (.vec isInt l) draw = .error .valueError) ∧
    (∀ l : List K, l.length = nC → nF ≠ 1 → (∃ v ∈ l, v < 0 ∨ (x.length : K) ≤ v) → initCentroids x nF nC (.vec isInt l) draw = .error .valueError) ∧
    (∀ (r : List K) (rows : List (List K)), ¬((r :: rows).length = nC ∧ r.length = nF) → (r :: rows).length * r.length ≠ nC →
      initCentroids x nF nC (.mat isInt (r :: rows)) draw = .error .valueError) := by
  refine ⟨rfl, rfl, rfl, fun l hl => ?_, fun l hl hF ⟨v, hv, h⟩ => ?_, fun r rows h1 h2 => ?_⟩
  · simp only [initCentroids, initFromMatrix, List.length_map, mul_one, if_neg hl, if_neg (fun h : l.length = nC ∧ 1 = nF => hl h.1)]
  · have hne : l ≠ [] := List.ne_nil_of_mem hv
    have hc : l.any (fun v => decide ((x.length : K) ≤ v)) = true ∨ l.any (fun v => decide (v < 0)) = true := by
      simp only [List.any_eq_true, decide_eq_true_eq]
      rcases h with h | h
      · exact .inr ⟨v, hv, h⟩
      · exact .inl ⟨v, hv, h⟩
    simp only [initCentroids, initFromMatrix, colMajor_one, List.length_map, mul_one, hl, if_true, if_neg hne, if_pos hc, true_and,
      if_neg (Ne.symm hF)]
  · simp only [initCentroids, initFromMatrix, if_neg h1, if_neg h2]

/-- C134 is false: with one feature a list with one number for each cluster is taken as the centroids themselves by the C++ engine, whatever the
samples; the Python engine takes it as indices (C16). -/
theorem C134_one_feature (x : List (List K)) (isInt : Bool) (l : List K) (draw : List Int) :
    initCentroids x 1 l.length (.vec isInt l) draw = .ok (some (l.map fun v => [v])) := by
  simp only [initCentroids, initFromMatrix, List.length_map, and_self, if_true]

end I

/-- C134 is false: witnesses. With one feature the same argument gives different centroids; a 2 x 2 matrix for four clusters is refused by the
Python engine and read as indices, column by column, by the C++ engine; one row for one cluster is accepted by the C++ engine only. -/
theorem C134_engines_differ :
    initCentroids ([[7], [8], [9]] : List (List ℚ)) 1 2 (.vec true [1, 0]) [] = .ok (some [[1], [0]]) ∧
    KMeans.initCentroids ([[7], [8], [9]] : List (List ℚ)) 1 2 (.vec true [1, 0]) [] = .ok [[8], [7]] ∧
    initCentroids ([[7, 7], [8, 8], [9, 9]] : List (List ℚ)) 2 4 (.mat true [[0, 1], [2, 0]]) [] = .ok (some [[7, 7], [9, 9], [8, 8], [7, 7]]) ∧
    KMeans.initCentroids ([[7, 7], [8, 8], [9, 9]] : List (List ℚ)) 2 4 (.mat true [[0, 1], [2, 0]]) [] = .error .valueError ∧
    initCentroids ([[7, 7], [8, 8], [9, 9]] : List (List ℚ)) 2 1 (.mat false [[8, 8]]) [] = .ok (some [[8, 8]]) ∧
    KMeans.initCentroids ([[7, 7], [8, 8], [9, 9]] : List (List ℚ)) 2 1 (.mat false [[8, 8]]) [] = .error .valueError := by
  decide +kernel

/-- Non-vacuity: two indices. -/
example : initCentroids ([[7, 1], [8, 2], [9, 3]] : List (List ℚ)) 2 2 (.vec true [2, 0]) [] = .ok (some [[9, 3], [7, 1]]) := by decide +kernel

/-! ## C136: subtraction with broadcasting -/

section B
variable {K : Type} [Field K] [LinearOrder K]

/-- C136: for matrices of equal width the subtraction is numpy's when the numbers of rows are equal or one of them is 1 and the other is not 0;
the result has the same width. -/
theorem C136_equal_width (a b : Mat K) (ha : a.Ok) (hb : b.Ok) (hw : a.cols = b.cols) (h0 : a.rows.length ≠ 0 ∧ b.rows.length ≠ 0)
    (h1 : a.rows.length = b.rows.length ∨ a.rows.length = 1 ∨ b.rows.length = 1) :
    ∃ c, broadcastSub a b = .ok (some c) ∧ c.Ok ∧ c.cols = a.cols ∧ numpySub a b = some c.rows := by
  obtain ⟨ca, ra⟩ := a
  obtain ⟨cb, rb⟩ := b
  simp only [Mat.Ok] at ha hb
  simp only at hw h0 h1
  subst hw
  by_cases he : ra.length = rb.length
  · refine ⟨⟨ca, List.zipWith subRow ra rb⟩, by simp [broadcastSub, he], ?_, rfl, ?_⟩
    · intro r hr
      rw [← List.map_uncurry_zip_eq_zipWith] at hr
      obtain ⟨⟨u, v⟩, hp, rfl⟩ := List.mem_map.1 hr
      have := List.of_mem_zip hp
      simp [subRow, ha u this.1, hb v this.2]
    · simp only [numpySub, he, if_true, Option.some.injEq]
      rw [← List.map_uncurry_zip_eq_zipWith]
      refine List.map_congr_left fun p _ => ?_
      simp only [Function.uncurry, subRow]
      rw [← List.map_uncurry_zip_eq_zipWith]
      rfl
  · have hsub : ∀ r r' : List K, subRow r r' = (r.zip r').map fun q => q.1 - q.2 := by
      intro r r'
      simp only [subRow]
      rw [← List.map_uncurry_zip_eq_zipWith]
      rfl
    rcases h1 with h1 | h1 | h1
    · exact absurd h1 he
    · obtain ⟨r0, rfl⟩ := List.length_eq_one_iff.1 h1
      have hlt : ¬rb.length < [r0].length := by omega
      refine ⟨⟨ca, rb.map fun r => (subRow r r0).map fun v => -v⟩, ?_, ?_, rfl, ?_⟩
      · simp only [broadcastSub]
        rw [if_neg (fun h => he h.1), if_neg (fun h => h.1 rfl), if_neg (fun h => h rfl), if_neg hlt]
      · intro r hr
        obtain ⟨u, hu, rfl⟩ := List.mem_map.1 hr
        simp [subRow, ha r0 (by simp), hb u hu]
      · have : ∀ r : List K, ((subRow r r0).map fun v => -v) = (r0.zip r).map fun q => q.1 - q.2 := by
          intro r
          simp only [subRow]
          rw [List.map_zipWith, List.zipWith_comm, ← List.map_uncurry_zip_eq_zipWith]
          refine List.map_congr_left fun q _ => ?_
          simp [Function.uncurry]
        match rb, he with
        | [], _ => simp at h0
        | [_], he => simp at he
        | u :: v :: rb, _ => simp [numpySub, this]
    · obtain ⟨r0, rfl⟩ := List.length_eq_one_iff.1 h1
      refine ⟨⟨ca, ra.map fun r => subRow r r0⟩, ?_, ?_, rfl, ?_⟩
      · have hlt : [r0].length < ra.length := by omega
        simp only [broadcastSub]
        rw [if_neg (fun h => he h.1), if_neg (fun h => h.2 rfl), if_neg (fun h => h rfl), if_pos hlt]
      · intro r hr
        obtain ⟨u, hu, rfl⟩ := List.mem_map.1 hr
        simp [subRow, hb r0 (by simp), ha u hu]
      · simp only [numpySub, if_neg he, hsub]

/-- C136: matrices of different width, or with different numbers of rows neither of which is 1, are refused with `ValueError`. For different
widths numpy refuses only if neither width is 1. -/
theorem C136_refused (a b : Mat K) (h : a.cols ≠ b.cols ∨ (a.rows.length ≠ b.rows.length ∧ a.rows.length ≠ 1 ∧ b.rows.length ≠ 1)) :
    broadcastSub a b = .error .valueError := by
  unfold broadcastSub
  rcases h with h | h
  · rw [if_neg (fun hc => h hc.2)]
    split
    · rfl
    · rfl
  · rw [if_neg (fun hc => h.1 hc.1), if_pos h.2]

/-- C136 is false for a matrix without rows and one with one row: numpy gives a matrix without rows, the C++ engine subtracts matrices of different
sizes, which has no defined result. -/
theorem C136_no_rows (w : Nat) (r : List K) :
    broadcastSub ⟨w, []⟩ ⟨w, [r]⟩ = .ok none ∧ broadcastSub ⟨w, [r]⟩ ⟨w, []⟩ = .ok none ∧
    numpySub ⟨w, []⟩ (⟨w, [r]⟩ : Mat K) = some [] ∧ numpySub ⟨w, [r]⟩ (⟨w, []⟩ : Mat K) = some [] := by
  simp [broadcastSub, numpySub]

end B

/-- Non-vacuity: two rows minus one row, and one row minus two rows. -/
example : (∃ c, broadcastSub (⟨2, [[1, 2], [3, 4]]⟩ : Mat ℚ) ⟨2, [[1, 1]]⟩ = .ok (some c) ∧ c.rows = [[0, 1], [2, 3]]) ∧
    (∃ c, broadcastSub (⟨2, [[1, 1]]⟩ : Mat ℚ) ⟨2, [[1, 2], [3, 4]]⟩ = .ok (some c) ∧ c.rows = [[0, -1], [-2, -3]]) := by
  refine ⟨⟨_, rfl, by decide +kernel⟩, ⟨_, rfl, by decide +kernel⟩⟩

end CML.CC
