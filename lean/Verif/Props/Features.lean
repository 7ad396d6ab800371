import Verif.Props.Dataset
import Mathlib.Data.Rat.Floor

set_option linter.unusedSectionVars false

/-! # Properties C104-C107 (the feature table of a data set) -/

namespace CML.Data
open CML.Prep

section
variable {K : Type*} [Field K] [LinearOrder K] [IsStrictOrderedRing K]

/-- Writing into an array of floats or objects. -/
def storeFloat : Option K → Cell K
  | some v => .num v
  | none => .missing

theorem mapM_id_some (xs : List K) : (xs.map some).mapM (id : Option K → Option K) = some xs := by
  induction xs with
  | nil => rfl
  | cons x xs ih => rw [List.map_cons, List.mapM_cons, ih]; rfl

theorem mapM_nums (fl : K → K) (parse : String → Option K) (xs : List K) :
    (xs.map (Cell.num (K := K))).mapM (Cell.toFloat fl parse) = .ok ((xs.map fl).map some) := by
  have := mapM_numeric fl parse (xs.map some)
  have e : numericColumn (xs.map some) = xs.map (Cell.num (K := K)) := by simp [numericColumn]
  rw [e] at this
  rw [this]; simp [List.map_map, Function.comp_def]

/-- C104 for arrays of floats (exact arithmetic): a non-constant numeric column is replaced by its min-max scaled values. Missing: arrays of
integers, where it is false (`C104_integer_table`). -/
theorem C104_float_partial (o : Opts K) (hfl : o.fl = id) (hst : o.store = storeFloat) (hn : o.normalization = true) (xs : List K) (a b : K)
    (ha : a ∈ xs) (hb : b ∈ xs) (hab : a ≠ b) :
    ∃ (z : List K) (st : K × K), minMaxCall xs = .ok (st, z.map some) ∧ scaleColumn o (xs.map .num) = .ok (z.map .num) ∧
      (∀ v ∈ z, 0 ≤ v ∧ v ≤ 1) ∧ 0 ∈ z ∧ 1 ∈ z := by
  obtain ⟨st, z, h1, -, h3, h4, h5, -⟩ := C61_minmax xs a b ha hb hab
  refine ⟨z, st, h1, ?_, h3, h4, h5⟩
  unfold scaleColumn
  rw [mapM_nums, hfl]
  simp only [Except.bind, hn, if_true, List.map_id, normVals, mapM_id_some, h1, Except.map, hst]
  simp [storeFloat, List.map_map, Function.comp_def]

end

/-- Writing into an array of integers: numbers are truncated towards zero; the value stored for `NaN` is unspecified (`garbage`). -/
def storeInt (garbage : ℚ) : Option ℚ → Cell ℚ
  | some v => .num (if 0 ≤ v then (⌊v⌋ : ℤ) else (⌈v⌉ : ℤ))
  | none => .num garbage

/-- C104 is false for tables of integers: after `normalization=True` the largest entries of a (non-constant) column are 1 and all others are
0, whatever they were. -/
theorem C104_integer_table (o : Opts ℚ) (garbage : ℚ) (hfl : o.fl = id) (hst : o.store = storeInt garbage) (hn : o.normalization = true)
    (xs : List ℚ) (a b : ℚ) (ha : a ∈ xs) (hb : b ∈ xs) (hab : a ≠ b) (top : ℚ) (ht : top ∈ xs ∧ ∀ v ∈ xs, v ≤ top) :
    scaleColumn o (xs.map .num) = .ok (xs.map fun v => .num (if v = top then 1 else 0)) := by
  obtain ⟨lo, hi, h1, h2, h3, h4, h5⟩ := min_max_exists (List.ne_nil_of_mem ha)
  have hht : hi = top := le_antisymm (ht.2 hi h4) (h5 top ht.1).2
  subst hht
  have hlt : lo < hi := by
    rcases lt_or_gt_of_ne hab with h | h
    · exact (h5 a ha).1.trans_lt (h.trans_le (h5 b hb).2)
    · exact (h5 b hb).1.trans_lt (h.trans_le (h5 a ha).2)
  have hd : 0 < hi - lo := sub_pos.2 hlt
  unfold scaleColumn
  rw [mapM_nums, hfl]
  simp only [Except.bind, hn, if_true, List.map_id, normVals, mapM_id_some, minMaxCall, h1, h2, Except.map, hst, List.map_map, Except.ok.injEq]
  apply List.map_congr_left
  intro v hv
  obtain ⟨g1, g2⟩ := h5 v hv
  have hz : 0 ≤ (v - lo) / (hi - lo) := div_nonneg (by linarith) hd.le
  simp only [Function.comp, npDiv, hd.ne', if_false, storeInt, hz, if_true]
  by_cases hvt : v = hi
  · subst hvt
    rw [div_self hd.ne']; simp
  · rw [if_neg hvt]
    have : (v - lo) / (hi - lo) < 1 := by
      rw [div_lt_one hd]
      have := lt_of_le_of_ne g2 hvt
      linarith
    have hf : ⌊(v - lo) / (hi - lo)⌋ = 0 := Int.floor_eq_zero_iff.2 ⟨hz, this⟩
    rw [hf]; simp

/-- The settings used in the examples. -/
def exampleOpts (norm std dig fill : Bool) (store : Option ℚ → Cell ℚ) : Opts ℚ :=
  { fl := id, parse := fun _ => none, mode := fun l => l.headD .missing, fillStore := id, store := store, fillna := fill,
    digitization := dig, normalization := norm, standardization := std }

example : scaleColumn (exampleOpts true false false false (storeInt 0)) [.num 1, .num 50, .num 99, .num 100] =
    .ok [.num 0, .num 0, .num 0, .num 1] := by decide +kernel

section
variable {K : Type*} [Field K] [LinearOrder K] [IsStrictOrderedRing K]

/-- C105: when both `standardization` and `normalization` are set, only the normalisation of the original column is visible ... -/
theorem C105_overwrites (o : Opts K) (hn : o.normalization = true) (b : Bool) (col : List (Cell K)) :
    scaleColumn { o with standardization := b } col = scaleColumn o col := by
  unfold scaleColumn
  simp [hn]

/-- C105: ... which is the same as normalising the standardised column (for columns with a positive variance). -/
theorem C105_both (x : List K) (s : K) (hs : IsVar x s) (h0 : 0 < s) :
    ∃ (st : Option K × Option K) (z w : List K) (st1 st2 : K × K), standardCall x = (st, z.map some) ∧
      minMaxCall z = .ok (st1, w.map some) ∧ minMaxCall x = .ok (st2, w.map some) := by
  obtain ⟨m, h1, h2⟩ := id hs
  have hm := (isMean_iff m).1 h1
  have hv := (isVar_iff s).1 hs
  obtain ⟨lo, hi, a1, a2, a3, a4, a5⟩ := min_max_exists h1.1
  have hlt : lo < hi := by
    by_contra hcon
    have hall : ∀ v ∈ x, v = lo := fun v hv => le_antisymm ((a5 v hv).2.trans (not_lt.1 hcon)) (a5 v hv).1
    have hrep : x = List.replicate x.length lo := List.eq_replicate_iff.2 ⟨rfl, hall⟩
    have hmm : m = lo := by
      have hl : (0 : K) < x.length := by exact_mod_cast List.length_pos_of_ne_nil h1.1
      have hsum : x.sum = x.length * lo := by
        conv_lhs => rw [hrep]
        simp
      have := h1.2
      rw [hsum, mul_comm] at this
      exact mul_left_cancel₀ hl.ne' this
    have : s * x.length = 0 := by
      have h3 := h2.2
      rw [List.length_map] at h3
      rw [h3]
      apply List.sum_eq_zero
      intro w hw
      obtain ⟨v, hv, rfl⟩ := List.mem_map.1 hw
      rw [hall v hv, hmm]; ring
    have hl : (0 : K) < x.length := by exact_mod_cast List.length_pos_of_ne_nil h1.1
    have := mul_pos h0 hl
    linarith
  have hd : 0 < hi - lo := sub_pos.2 hlt
  refine ⟨(some m, some s), x.map fun v => (v - m) / s, x.map fun v => (v - lo) / (hi - lo), ((lo - m) / s, (hi - m) / s), (lo, hi),
    standard_eq hm hv h0.ne', ?_, ?_⟩
  · have b1 : (x.map fun v => (v - m) / s).min? = some ((lo - m) / s) := by
      rw [List.min?_eq_some_iff]
      refine ⟨List.mem_map.2 ⟨lo, a3, rfl⟩, ?_⟩
      intro c hc
      obtain ⟨v, hv, rfl⟩ := List.mem_map.1 hc
      rw [div_le_div_iff_of_pos_right h0]; linarith [(a5 v hv).1]
    have b2 : (x.map fun v => (v - m) / s).max? = some ((hi - m) / s) := by
      rw [List.max?_eq_some_iff]
      refine ⟨List.mem_map.2 ⟨hi, a4, rfl⟩, ?_⟩
      intro c hc
      obtain ⟨v, hv, rfl⟩ := List.mem_map.1 hc
      rw [div_le_div_iff_of_pos_right h0]; linarith [(a5 v hv).2]
    have hd' : (hi - m) / s - (lo - m) / s ≠ 0 := by
      rw [div_sub_div_same]
      exact (div_pos (by linarith) h0).ne'
    simp only [minMaxCall, b1, b2, npDiv, if_neg hd', List.map_map, Except.ok.injEq, Prod.mk.injEq, true_and]
    apply List.map_congr_left
    intro v _
    simp only [Function.comp, Option.some.injEq]
    rw [div_sub_div_same, div_sub_div_same]
    have e1 : hi - m - (lo - m) = hi - lo := by ring
    have e2 : v - m - (lo - m) = v - lo := by ring
    rw [e1, e2]
    field_simp
  · simp only [minMaxCall, a1, a2, npDiv, if_neg hd.ne', List.map_map]
    rfl

example : IsVar ([0, 4] : List ℚ) 4 := by rw [isVar_iff]; decide +kernel

/-! ## C106: layout of the digitised table -/

/-- A column that the code treats as continuous. -/
def Continuous (o : Opts K) (c : List (Cell K)) : Prop := ∃ c', scaleColumn o c = .ok c'

instance (o : Opts K) (c : List (Cell K)) : Decidable (Continuous o c) :=
  match h : scaleColumn o c with
  | .ok c' => isTrue ⟨c', h⟩
  | .error e => isFalse (by rintro ⟨c', h'⟩; rw [h] at h'; simp at h')

/-- The column after scaling (discrete columns unchanged). -/
def scaled (o : Opts K) (c : List (Cell K)) : List (Cell K) :=
  match scaleColumn o c with
  | .ok c' => c'
  | .error _ => c

theorem loop_dig (o : Opts K) (hd : o.digitization = true) (blk : List (Cell K) → List (List (Cell K))) (rest : List (List (Cell K)))
    (hb : ∀ c ∈ rest, ¬ Continuous o c → dummyColumns c = .ok (blk c)) (pre blocks : List (List (Cell K))) (del : List Nat) :
    (List.range' pre.length rest.length).foldlM (featStep o) (pre ++ rest ++ blocks, del) =
      .ok (pre ++ rest.map (scaled o) ++ blocks ++ (rest.filter fun c => decide (¬ Continuous o c)).flatMap blk,
        del ++ ((rest.zipIdx pre.length).filter fun p => decide (¬ Continuous o p.1)).map Prod.snd) := by
  induction rest generalizing pre blocks del with
  | nil => simp; rfl
  | cons c rest ih =>
    rw [List.length_cons, List.range'_succ, List.foldlM_cons]
    have hget : (pre ++ c :: rest ++ blocks)[pre.length]? = some c := by simp
    have hb' : ∀ c' ∈ rest, ¬ Continuous o c' → dummyColumns c' = .ok (blk c') := fun c' h => hb c' (List.mem_cons_of_mem _ h)
    cases hs : scaleColumn o c with
    | ok c' =>
      have hc : Continuous o c := ⟨c', hs⟩
      have hstep : featStep o (pre ++ c :: rest ++ blocks, del) pre.length = .ok ((pre ++ [c']) ++ rest ++ blocks, del) := by
        simp only [featStep, hget, hs]
        simp
      rw [hstep]
      have := ih hb' (pre ++ [c']) blocks del
      rw [List.length_append, List.length_singleton] at this
      simp only [bind, Except.bind] at this ⊢
      rw [this]
      simp [hc, scaled, hs]
    | error e =>
      have hc : ¬ Continuous o c := by rintro ⟨c', h'⟩; rw [hs] at h'; simp at h'
      have hstep : featStep o (pre ++ c :: rest ++ blocks, del) pre.length =
          .ok ((pre ++ [c]) ++ rest ++ (blocks ++ blk c), del ++ [pre.length]) := by
        simp only [featStep, hget, hs, hd, if_true, hb c (by simp) hc, Except.map]
        simp
      rw [hstep]
      have := ih hb' (pre ++ [c]) (blocks ++ blk c) (del ++ [pre.length])
      rw [List.length_append, List.length_singleton] at this
      simp only [bind, Except.bind] at this ⊢
      rw [this]
      simp [hc, scaled, hs]

theorem delete_eq (f : List (Cell K) → List (Cell K)) (ok : List (Cell K) → Prop) [DecidablePred ok] (cols : List (List (Cell K))) (k : Nat)
    (del : List Nat) (h : ∀ (i : Nat) c, cols[i]? = some c → (k + i ∈ del ↔ ¬ ok c)) :
    (((cols.map f).zipIdx k).filter fun p => decide (p.2 ∉ del)).map Prod.fst = (cols.filter fun c => decide (ok c)).map f := by
  induction cols generalizing k with
  | nil => rfl
  | cons c cols ih =>
    have h0 := h 0 c rfl
    rw [Nat.add_zero] at h0
    have := ih (k + 1) fun i c' hc' => by
      have := h (i + 1) c' (by simpa using hc')
      rwa [show k + (i + 1) = k + 1 + i by omega] at this
    rw [List.map_cons, List.zipIdx_cons]
    by_cases hok : ok c
    · have hk : k ∉ del := fun hk => (h0.1 hk) hok
      rw [List.filter_cons_of_pos (by simpa using hk), List.filter_cons_of_pos (by simpa using hok), List.map_cons, List.map_cons, this]
    · have hk : k ∈ del := h0.2 hok
      rw [List.filter_cons_of_neg (by simpa using hk), List.filter_cons_of_neg (by simpa using hok), this]

theorem delete_tail (B : List (List (Cell K))) (k : Nat) (del : List Nat) (h : ∀ i ∈ del, i < k) :
    ((B.zipIdx k).filter fun p => decide (p.2 ∉ del)).map Prod.fst = B := by
  rw [List.filter_eq_self.2]
  · exact List.zipIdx_map_fst k B
  · rintro ⟨c, i⟩ hp
    have := (List.mem_zipIdx hp).1
    simp only [decide_eq_true_eq]
    intro hi
    have := h i hi
    omega

/-- C106: with `digitization=True` the new table consists of the scaled numeric columns in their order followed by, for every other column
in its order, its block of dummy columns.  (Hypothesis: the other columns can be encoded, that is they hold only strings; the statement is
about the table after imputation.) -/
theorem C106_layout (o : Opts K) (hf : o.fillna = false) (hd : o.digitization = true) (cols : List (List (Cell K)))
    (blk : List (Cell K) → List (List (Cell K))) (hb : ∀ c ∈ cols, ¬ Continuous o c → dummyColumns c = .ok (blk c)) :
    features o cols = .ok ((cols.filter fun c => decide (Continuous o c)).map (scaled o) ++
      (cols.filter fun c => decide (¬ Continuous o c)).flatMap blk) := by
  have hl := loop_dig o hd blk cols hb [] [] []
  simp only [List.length_nil, List.nil_append, List.append_nil] at hl
  unfold features
  simp only [hf, Bool.false_eq_true, if_false]
  rw [List.range_eq_range', hl]
  simp only [Except.map]
  have hmem : ∀ (i : Nat) c, cols[i]? = some c → (i ∈ (cols.zipIdx.filter fun p => decide (¬ Continuous o p.1)).map Prod.snd ↔ ¬ Continuous o c) := by
    intro i c hc
    simp only [List.mem_map, List.mem_filter, Prod.exists, decide_eq_true_eq]
    constructor
    · rintro ⟨c', j, ⟨h1, h2⟩, rfl⟩
      rw [List.mem_zipIdx_iff_getElem?] at h1
      simp only at h1
      rw [hc] at h1; simp at h1; subst h1; exact h2
    · intro h
      exact ⟨c, i, ⟨by rw [List.mem_zipIdx_iff_getElem?]; exact hc, h⟩, rfl⟩
  have hlt : ∀ i ∈ (cols.zipIdx.filter fun p => decide (¬ Continuous o p.1)).map Prod.snd, i < cols.length := by
    intro i hi
    obtain ⟨⟨c, j⟩, hp, rfl⟩ := List.mem_map.1 hi
    have := (List.mem_zipIdx (List.mem_filter.1 hp).1).2.1
    simpa using this
  have hdel : deleteColumns (cols.map (scaled o) ++ (cols.filter fun c => decide (¬ Continuous o c)).flatMap blk)
      ((cols.zipIdx.filter fun p => decide (¬ Continuous o p.1)).map Prod.snd) =
      (cols.filter fun c => decide (Continuous o c)).map (scaled o) ++ (cols.filter fun c => decide (¬ Continuous o c)).flatMap blk := by
    unfold deleteColumns
    rw [List.zipIdx_append, List.filter_append, List.map_append]
    congr 1
    · exact delete_eq (scaled o) (Continuous o) cols 0 _ fun i c hc => by rw [Nat.zero_add]; exact hmem i c hc
    · apply delete_tail
      intro i hi
      simpa using hlt i hi
  split
  · rename_i hnil
    rw [← hdel, hnil]
    unfold deleteColumns
    rw [delete_tail _ 0 [] (by simp)]
  · rw [hdel]

/-- C106: without digitisation the columns stay in place: numeric ones are scaled, the others unchanged. -/
theorem C106_in_place (o : Opts K) (hf : o.fillna = false) (hd : o.digitization = false) (cols : List (List (Cell K))) :
    features o cols = .ok (cols.map (scaled o)) := by
  have loop : ∀ (rest pre : List (List (Cell K))),
      (List.range' pre.length rest.length).foldlM (featStep o) (pre ++ rest, []) = .ok (pre ++ rest.map (scaled o), []) := by
    intro rest
    induction rest with
    | nil => intro pre; simp; rfl
    | cons c rest ih =>
      intro pre
      rw [List.length_cons, List.range'_succ, List.foldlM_cons]
      have hget : (pre ++ c :: rest)[pre.length]? = some c := by simp
      have hstep : featStep o (pre ++ c :: rest, []) pre.length = .ok ((pre ++ [scaled o c]) ++ rest, []) := by
        cases hs : scaleColumn o c with
        | ok c' => simp [featStep, hs, scaled]
        | error e => simp [featStep, hs, scaled, hd]
      rw [hstep]
      have := ih (pre ++ [scaled o c])
      rw [List.length_append, List.length_singleton] at this
      simp only [bind, Except.bind] at this ⊢
      rw [this]; simp
  unfold features
  simp only [hf, Bool.false_eq_true, if_false]
  have := loop cols []
  simp only [List.length_nil, List.nil_append] at this
  rw [List.range_eq_range', this]
  rfl

theorem columnStrings_strs (ls : List String) : columnStrings (ls.map (Cell.str (K := K))) = .ok ls := by
  unfold columnStrings
  rw [List.mapM_map]
  exact (mapM_ok _ id ls fun a _ => rfl).trans (by simp)

/-- C106: a column of strings becomes one 0/1 column per distinct string, in increasing order; the entry of sample `i` in the column of the
class of rank `k` is 1 iff the sample has that class. -/
theorem C106_dummies (ls : List String) : ∃ block : List (List (Cell K)), dummyColumns (ls.map .str) = .ok block ∧
    block.length = numClasses ls ∧ ∀ (k : Nat) col, block[k]? = some col → col.length = ls.length ∧
      ∀ (i : Nat) l, ls[i]? = some l → col[i]? = some (.num (if rank ls l = k then 1 else 0)) := by
  obtain ⟨rows, d', h1, h2, h3⟩ := C63_dummy (K := K) [] ls
  refine ⟨(List.range (npUnique ls).length).map fun j => rows.map fun row => .num ((row[j]?).getD 0),
    by simp only [dummyColumns, columnStrings_strs, Except.bind, h1, Except.map], by simp [length_npUnique], ?_⟩
  intro k col hk
  have hkl : k < numClasses ls := by
    have := (List.getElem?_eq_some_iff.1 hk).1
    simpa [length_npUnique] using this
  rw [List.getElem?_map, List.getElem?_range (by rw [length_npUnique]; exact hkl)] at hk
  simp only [Option.map_some, Option.some.injEq] at hk
  subst hk
  refine ⟨by simp [h2], ?_⟩
  intro i l hi
  obtain ⟨r, p1, ⟨-, -, p2⟩, -⟩ := h3 i l hi
  rw [List.getElem?_map, p1]
  simp only [Option.map_some, p2 k hkl, Option.getD_some, eq_comm]

example : features (exampleOpts true false true false storeFloat)
    [[.str "b", .str "a"], [.num 3, .num 5]] = .ok [[.num 0, .num 1], [.num 0, .num 1], [.num 1, .num 0]] := by decide +kernel

/-! ## C107: the caller's array -/

/-- C107 is false: with `fillna=False` and `normalization=True`, a float array of the working precision passed to `from_tensor_slices` is
overwritten: every non-constant column that is not already scaled to [0,1] changes. -/
theorem C107_overwritten (o : Opts K) (hfl : o.fl = id) (hst : o.store = storeFloat) (hn : o.normalization = true) (hf : o.fillna = false)
    (xs : List K) (a b : K) (ha : a ∈ xs) (hb : b ∈ xs) (hab : a ≠ b) (hout : ∃ v ∈ xs, v < 0 ∨ 1 < v) :
    callerArray o true [xs.map .num] ≠ [xs.map .num] := by
  obtain ⟨z, st, -, h2, h3, -, -⟩ := C104_float_partial o hfl hst hn xs a b ha hb hab
  simp only [callerArray, hf, Bool.not_true, Bool.or_self, Bool.false_eq_true, if_false, List.map_cons, List.map_nil, h2]
  intro h
  simp only [List.cons.injEq, and_true] at h
  have hinj : z = xs := List.map_injective_iff.2 (fun p q hpq => by simpa using hpq) h
  obtain ⟨v, hv, hv'⟩ := hout
  have := h3 v (hinj ▸ hv)
  rcases hv' with h | h <;> linarith

/-- C107, the part that holds: with `fillna=True` (the default), or when the array has another element type, or when nothing is scaled, the
caller's array is unchanged. -/
theorem C107_unchanged_partial (o : Opts K) (same : Bool) (cols : List (List (Cell K)))
    (h : o.fillna = true ∨ same = false ∨ (o.normalization = false ∧ o.standardization = false)) : callerArray o same cols = cols := by
  unfold callerArray
  rcases h with h | h | ⟨h1, h2⟩
  · simp [h]
  · simp [h]
  · split
    · rfl
    · conv_rhs => rw [← List.map_id cols]
      apply List.map_congr_left
      intro c _
      cases hs : scaleColumn o c with
      | error e => rfl
      | ok c' =>
        unfold scaleColumn at hs
        cases hq : c.mapM (Cell.toFloat o.fl o.parse) with
        | error e => rw [hq] at hs; simp [Except.bind] at hs
        | ok w => rw [hq] at hs; simp [Except.bind, h1, h2] at hs; simp [hs]

/-- The caller's array and the data set's table coincide when nothing is copied (they are the same object). -/
theorem C107_same_object (o : Opts K) (hf : o.fillna = false) (hd : o.digitization = false) (cols : List (List (Cell K))) :
    features o cols = .ok (callerArray o true cols) := by
  rw [C106_in_place o hf hd]
  simp only [callerArray, hf, Bool.not_true, Bool.or_self, Bool.false_eq_true, if_false]
  rfl

end

section Mixed
variable {K : Type} [Field K] [LinearOrder K]

theorem columnStrings_error (col : List (Cell K)) (c : Cell K) (hc : c ∈ col) (hs : ∀ s, c ≠ .str s) : columnStrings col = .error .typeError := by
  unfold columnStrings
  induction col with
  | nil => simp at hc
  | cons a col ih =>
    simp only [List.mapM_cons, bind, Except.bind, pure, Except.pure]
    by_cases ha : ∃ s, a = .str s
    · obtain ⟨s, rfl⟩ := ha
      have hc' : c ∈ col := by
        rcases List.mem_cons.1 hc with h | h
        · exact (hs s h).elim
        · exact h
      rw [ih hc']
    · cases a with
      | str s => exact (ha ⟨s, rfl⟩).elim
      | _ => rfl

/-- C106: a discrete column that mixes strings with numbers (or missing values) cannot be digitised: loading the table raises `TypeError`. -/
theorem C106_mixed_refused (o : Opts K) (hf : o.fillna = false) (hd : o.digitization = true) (pre post : List (List (Cell K))) (col : List (Cell K))
    (hpre : ∀ q ∈ pre, ∃ q', scaleColumn o q = .ok q') (e : PyErr) (hcol : scaleColumn o col = .error e) (c : Cell K) (hc : c ∈ col)
    (hs : ∀ s, c ≠ .str s) : features o (pre ++ col :: post) = .error .typeError := by
  have hrun : ∀ (done todo : List (List (Cell K))), (∀ q ∈ todo, ∃ q', scaleColumn o q = .ok q') →
      ∃ done', done'.length = done.length + todo.length ∧
        (List.range' done.length todo.length).foldlM (featStep o) (done ++ todo ++ col :: post, []) = .ok (done' ++ col :: post, []) := by
    intro done todo
    induction todo generalizing done with
    | nil => intro _; exact ⟨done, by simp, by simp [pure, Except.pure]⟩
    | cons q todo ih =>
      intro hq
      obtain ⟨q', hq'⟩ := hq q List.mem_cons_self
      obtain ⟨d', h1, h2⟩ := ih (done ++ [q']) (fun r hr => hq r (List.mem_cons_of_mem _ hr))
      refine ⟨d', by simpa [Nat.add_assoc, Nat.add_comm 1] using h1, ?_⟩
      rw [List.length_cons, List.range'_succ, List.foldlM_cons]
      have hstep : featStep o (done ++ q :: todo ++ col :: post, []) done.length = .ok (done ++ [q'] ++ todo ++ col :: post, []) := by
        simp [featStep, hq']
      rw [hstep]
      simpa [bind, Except.bind] using h2
  obtain ⟨d', h1, h2⟩ := hrun [] pre hpre
  simp only [List.length_nil, Nat.zero_add, List.nil_append] at h1 h2
  unfold features
  simp only [hf, Bool.false_eq_true, if_false]
  have hlen : (pre ++ col :: post).length = pre.length + (post.length + 1) := by simp
  rw [hlen, List.range_eq_range', ← List.range'_append_1, List.foldlM_append, h2, Nat.zero_add, List.range'_succ]
  simp only [bind, Except.bind, List.foldlM_cons]
  have hstep : featStep o (d' ++ col :: post, []) pre.length = .error .typeError := by
    simp [featStep, ← h1, hcol, hd, dummyColumns, columnStrings_error col c hc hs, Except.bind, Except.map]
  rw [hstep]
  rfl

end Mixed

end CML.Data
