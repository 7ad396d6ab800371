import Verif.Lemmas.Ops
import Mathlib.Algebra.Order.Ring.Int

/-! # Properties C01, C04, C05, C09 -/

namespace CML.Ops

/-! ## C01 bootstrap_sampling -/

/-- C01: when the lengths agree the sample has as many rows as the input, and the `k`-th sampled row and
label are the row and the label at one and the same input position `i` (the one drawn). -/
theorem C01_bootstrap_pairs {α β : Type*} (rng : Option Nat → (n : Nat) → Fin n → Fin n)
    (x : Arr α) (y : Arr β) (seed : Option Nat) (h : x.len = y.len) :
    ∃ xs ys, bootstrapSampling rng x (some y) seed = .ok (xs, some ys) ∧
      xs.length = x.len ∧ ys.length = x.len ∧
      ∀ k (hk : k < x.len), ∃ i < x.len, i = (rng seed x.len ⟨k, hk⟩).1 ∧
        (xs[k]?).isSome ∧ xs[k]? = x.row? i ∧ ys[k]? = y.row? i := by
  obtain ⟨xs, h1, h2, h3⟩ := fancy_draw x.rows x.len (rows_length x).symm (rng seed x.len)
  obtain ⟨ys, g1, g2, g3⟩ := fancy_draw y.rows x.len (by rw [rows_length, h]) (rng seed x.len)
  refine ⟨xs, ys, ?_, h2, g2, ?_⟩
  · simp only [bootstrapSampling, ← h, h1, g1, ne_eq, not_true_eq_false, if_false]
  · intro k hk
    refine ⟨_, (rng seed x.len ⟨k, hk⟩).2, rfl, (h3 k hk).1, ?_, ?_⟩
    · rw [← rows_getElem?]; exact (h3 k hk).2
    · rw [← rows_getElem?]; exact (g3 k hk).2

/-- C01, without labels. -/
theorem C01_bootstrap_rows {α β : Type*} (rng : Option Nat → (n : Nat) → Fin n → Fin n)
    (x : Arr α) (seed : Option Nat) :
    ∃ xs, bootstrapSampling (β := β) rng x none seed = .ok (xs, none) ∧ xs.length = x.len ∧
      ∀ k (hk : k < x.len), ∃ i < x.len, i = (rng seed x.len ⟨k, hk⟩).1 ∧
        (xs[k]?).isSome ∧ xs[k]? = x.row? i := by
  obtain ⟨xs, h1, h2, h3⟩ := fancy_draw x.rows x.len (rows_length x).symm (rng seed x.len)
  refine ⟨xs, ?_, h2, ?_⟩
  · simp only [bootstrapSampling, h1]
  · intro k hk
    refine ⟨_, (rng seed x.len ⟨k, hk⟩).2, rfl, (h3 k hk).1, ?_⟩
    rw [← rows_getElem?]; exact (h3 k hk).2

/-- C01: different lengths are refused with `ValueError`. -/
theorem C01_bootstrap_mismatch {α β : Type*} (rng : Option Nat → (n : Nat) → Fin n → Fin n)
    (x : Arr α) (y : Arr β) (seed : Option Nat) (h : x.len ≠ y.len) :
    bootstrapSampling rng x (some y) seed = .error .valueError := by
  simp [bootstrapSampling, h]

/-- non-vacuity: a 3-row data set, the draw `[2, 0, 2]`. -/
example : bootstrapSampling (fun _ n => fun k => if k.1 = 1 then ⟨0, Nat.lt_of_le_of_lt (Nat.zero_le _) k.2⟩
      else ⟨n - 1, Nat.sub_lt (Nat.lt_of_le_of_lt (Nat.zero_le _) k.2) Nat.one_pos⟩)
    (.d2 [[1, 2], [3, 4], [5, 6]]) (some (.d1 ["a", "b", "c"])) (some 7)
    = .ok ([[5, 6], [1, 2], [5, 6]], some [["c"], ["a"], ["c"]]) := by
  rfl

/-! ## C04 clip_alpha -/

section
variable {α : Type*} [LinearOrder α]

/-- C04: the result lies in the interval. -/
theorem C04_clip_mem (alpha low high : α) (h : low ≤ high) :
    low ≤ clipAlpha alpha low high ∧ clipAlpha alpha low high ≤ high := by
  unfold clipAlpha; grind

/-- C04: values inside the interval are unchanged, values outside go to the nearer end. -/
theorem C04_clip_cases (alpha low high : α) (h : low ≤ high) :
    (low ≤ alpha → alpha ≤ high → clipAlpha alpha low high = alpha) ∧
    (high ≤ alpha → clipAlpha alpha low high = high) ∧
    (alpha ≤ low → clipAlpha alpha low high = low) := by
  unfold clipAlpha; grind

/-- C04: clipping twice is clipping once. -/
theorem C04_clip_idem (alpha low high : α) (h : low ≤ high) :
    clipAlpha (clipAlpha alpha low high) low high = clipAlpha alpha low high :=
  (C04_clip_cases _ _ _ h).1 (C04_clip_mem _ _ _ h).1 (C04_clip_mem _ _ _ h).2

/-- C04: clipping is monotone. -/
theorem C04_clip_mono (a b low high : α) (h : low ≤ high) (hab : a ≤ b) :
    clipAlpha a low high ≤ clipAlpha b low high := by
  unfold clipAlpha; grind

/-- C04: the C++ implementation computes the same value. -/
theorem C04_cc_agrees (alpha low high : α) :
    ccClipAlpha alpha low high = clipAlpha alpha low high := by
  unfold ccClipAlpha clipAlpha
  simp only [Id.run, pure, gt_iff_lt]
end

/-- C04: the result is the point of the interval nearest to `alpha`. -/
theorem C04_clip_nearest {K : Type*} [AddCommGroup K] [LinearOrder K] [IsOrderedAddMonoid K]
    (alpha low high z : K) (hz : low ≤ z) (hz' : z ≤ high) :
    |alpha - clipAlpha alpha low high| ≤ |alpha - z| := by
  unfold clipAlpha
  split
  · rename_i h1
    rw [abs_of_nonneg (sub_nonneg.2 h1.le), abs_of_nonneg (sub_nonneg.2 (hz'.trans h1.le))]
    exact sub_le_sub_left hz' _
  · split
    · rename_i h1 h2
      rw [abs_sub_comm alpha low, abs_sub_comm alpha z,
        abs_of_nonneg (sub_nonneg.2 h2.le), abs_of_nonneg (sub_nonneg.2 (h2.le.trans hz))]
      exact sub_le_sub_right hz _
    · simp

example : clipAlpha (7 : Int) 0 5 = 5 ∧ clipAlpha (-1 : Int) 0 5 = 0 ∧ clipAlpha (3 : Int) 0 5 = 3 ∧
    (0 : Int) ≤ 5 := by decide

/-! ## C05 type_of_target -/

/-- C05: for every array with at least one dimension the answer is the documented one. -/
theorem C05_type_of_target {α : Type*} [DecidableEq α] (isInt : α → Bool) (y : Target α)
    (hd : 1 ≤ y.shape.length) (t : TargetType) :
    typeOfTarget isInt y = .ok t ↔ TargetSpec isInt y t :=
  typeOfTarget_spec isInt y hd t

/-- C05: no exception for arrays with at least one dimension. -/
theorem C05_type_of_target_total {α : Type*} [DecidableEq α] (isInt : α → Bool) (y : Target α)
    (hd : 1 ≤ y.shape.length) : ∃ t, typeOfTarget isInt y = .ok t := by
  unfold typeOfTarget
  match hs : y.shape with
  | [] => simp [hs] at hd
  | [n] => simp only [List.length_cons, List.length_nil]; (repeat' split) <;> first | exact ⟨_, rfl⟩ | simp_all
  | n :: c :: r => simp only [List.length_cons]; (repeat' split) <;> first | exact ⟨_, rfl⟩ | simp_all

/-- C05, the excluded point: a 0-d array that is neither object nor non-integer float raises `IndexError`. -/
theorem C05_zero_dim {α : Type*} [DecidableEq α] (isInt : α → Bool) (y : Target α)
    (hs : y.shape = []) (ho : y.kind ≠ .object) (hi : ∀ v ∈ y.data, isInt v = true) :
    typeOfTarget isInt y = .error .indexError := by
  unfold typeOfTarget
  have : ¬ ∃ v ∈ y.data, isInt v = false := by
    rintro ⟨v, hv, h⟩; simp [hi v hv] at h
  simp [hs, ho, this]

example : typeOfTarget (fun _ => true) ⟨.other, [4], [0, 1, 1, 2]⟩ = .ok .multiclass ∧
    typeOfTarget (fun _ => true) ⟨.other, [4, 1], [0, 1, 1, 0]⟩ = .ok .binary ∧
    typeOfTarget (fun _ => true) ⟨.other, [2, 2], [0, 1, 1, 0]⟩ = .ok .multilabel ∧
    typeOfTarget (fun v : Nat => v != 7) ⟨.float, [2], [0, 7]⟩ = .ok .continuous ∧
    typeOfTarget (fun _ => true) ⟨.other, [3], [5, 5, 5]⟩ = .ok .unknown := by decide

/-- C05: the C++ version gives the same answer when the conversion to `float32` separates the values. -/
theorem C05_cc_agrees {α β : Type*} [DecidableEq α] [DecidableEq β] (isInt : α → Bool)
    (toF32 : α → β) (y : Target α) (hd : 1 ≤ y.shape.length)
    (hinj : ∀ a ∈ y.data, ∀ b ∈ y.data, toF32 a = toF32 b → a = b) :
    typeOfTarget isInt y = .ok (ccTypeOfTarget isInt toF32 y) := by
  unfold typeOfTarget ccTypeOfTarget
  rw [numUnique_map_of_injOn toF32 y.data hinj]
  match hs : y.shape with
  | [] => simp [hs] at hd
  | [n] => simp only [List.length_cons, List.length_nil]; grind
  | n :: c :: r => simp only [List.length_cons]; simp; (repeat' split) <;> simp_all

/-- C05, C++ disagreement: two integers merged by `float32` (2^24 and 2^24+1) make Python answer `binary`
and C++ `unknown`. -/
theorem C05_cc_disagrees : ∃ y : Target Int,
    typeOfTarget (fun _ => true) y = .ok .binary ∧
    ccTypeOfTarget (fun _ => true) (fun v : Int => if v = 16777217 then (16777216 : Int) else v) y = .unknown :=
  ⟨⟨.other, [2], [16777216, 16777217]⟩, by decide⟩

/-! ## C09 select_second_alpha -/

/-- C09: on a non-empty non-bound set the Python function returns the documented choice. -/
theorem C09_select_second {K : Type*} [LinearOrder K] [AddGroup K] (error : K) (cache : List K)
    (nonBound : List Bool) (hlen : cache.length = nonBound.length) (hne : true ∈ nonBound) :
    ∃ i e, selectSecondAlpha error cache nonBound = .ok (i, e) ∧
      IsSecondChoice error cache nonBound i e :=
  selectSecondAlpha_spec error cache nonBound hlen hne

/-- C09: with no non-bound sample the function raises `ValueError` (the caller guards against it). -/
theorem C09_select_empty {K : Type*} [LinearOrder K] [AddGroup K] (error : K) (cache : List K)
    (nonBound : List Bool) (hne : true ∉ nonBound) :
    selectSecondAlpha error cache nonBound = .error .valueError := by
  have : nonzero nonBound = [] := by
    rw [List.eq_nil_iff_forall_not_mem]
    intro i hi
    exact hne (List.mem_of_getElem? (mem_nonzero.1 hi))
  simp [selectSecondAlpha, this, fancy, argmax?]

example : selectSecondAlpha (1 : Int) [5, -9, 11, 2, 11] [true, false, true, true, true] = .ok (2, 11) ∧
    (true ∈ [true, false, true, true, true]) := by decide

/-- C09 is false of the C++ backend: with non-bound samples 1 and 2, of which 1 has the larger gap, it returns
index 0, which is not even a non-bound sample. -/
theorem C09_cc_wrong : ∃ (error : Int) (cache : List Int) (nonBound : List Bool),
    cache.length = nonBound.length ∧ true ∈ nonBound ∧
    selectSecondAlpha error cache nonBound = .ok (1, 5) ∧
    ccSelectSecondAlpha error (fun i => cache.getD i 0) nonBound = some (0, 9) ∧
    nonBound[0]? = some false :=
  ⟨1, [9, 5, 2], [false, true, true], by decide⟩

/-- C09 for the C++ backend, partial: the choice is the documented one when the first non-bound sample is not
a maximiser (or is sample 0).  Missing: the case where the first non-bound sample is a maximiser and is not sample 0,
where the C++ code is wrong (`C09_cc_wrong`). -/
theorem C09_cc_select_second_partial {K : Type*} [LinearOrder K] [AddGroup K] (error : K)
    (cache : List K) (d : K) (nonBound : List Bool) (hlen : cache.length = nonBound.length)
    (i0 : Nat) (is : List Nat) (hnz : nonzero nonBound = i0 :: is)
    (hok : i0 = 0 ∨ ∃ j ∈ is, |error - cache.getD i0 d| < |error - cache.getD j d|) :
    ∃ i e, ccSelectSecondAlpha error (fun i => cache.getD i d) nonBound = some (i, e) ∧
      IsSecondChoice error cache nonBound i e := by
  have hin : ∀ j ∈ nonzero nonBound, cache[j]? = some (cache.getD j d) := by
    intro j hj
    have := (List.getElem?_eq_some_iff.1 (mem_nonzero.1 hj)).1
    simp [List.getD_eq_getElem?_getD, show j < cache.length by omega]
  have hsort := nonzero_sorted nonBound
  rw [hnz] at hin hsort
  have hmem : ∀ j, nonBound[j]? = some true ↔ j ∈ i0 :: is := by
    intro j; rw [← hnz, mem_nonzero]
  simp only [ccSelectSecondAlpha, hnz]
  have := ccSelectLoop_spec error (fun i => cache.getD i d) (i0 :: is)
    (0, cache.getD 0 d, |error - cache.getD i0 d|)
  rcases this with ⟨h1, h2⟩ | ⟨k, hk, h1, h2, h3, h4⟩
  · rcases hok with rfl | ⟨j, hj, hlt⟩
    · refine ⟨0, cache.getD 0 d, by rw [h1], (hmem 0).2 (by simp), hin 0 (by simp), ?_⟩
      intro j e' hj he'
      rw [hmem] at hj
      rw [hin j hj] at he'; cases he'
      exact ⟨h2 j hj, by omega⟩
    · exact absurd (h2 j (by simp [hj])) (not_le.2 hlt)
  · refine ⟨(i0 :: is)[k], cache.getD (i0 :: is)[k] d, by rw [h1],
      (hmem _).2 (List.getElem_mem _), hin _ (List.getElem_mem _), ?_⟩
    intro j e' hj he'
    rw [hmem] at hj
    rw [hin j hj] at he'; cases he'
    refine ⟨h3 j hj, ?_⟩
    intro hlt
    obtain ⟨m, hm, rfl⟩ := List.mem_iff_getElem.1 hj
    refine h4 m hm ?_
    by_contra hc
    rcases Nat.lt_or_ge k m with h | h
    · have := List.pairwise_iff_getElem.1 hsort k m hk hm h
      omega
    · have : m = k := by omega
      subst this; omega

example : ∃ is, nonzero [false, true, true] = 1 :: is ∧ ∃ j ∈ is,
    |(1 : Int) - [9, 2, 5].getD 1 0| < |1 - [9, 2, 5].getD j 0| := ⟨[2], by decide⟩

end CML.Ops
