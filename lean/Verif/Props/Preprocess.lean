import Verif.Model.Preprocess
import Verif.Spec.Preprocess
import Mathlib.Algebra.Order.Ring.Rat
import Mathlib.Algebra.Field.Rat
import Mathlib.Algebra.BigOperators.Ring.List
import Mathlib.Tactic.Linarith
import Mathlib.Tactic.NormNum
import Mathlib.Tactic.FieldSimp
import Mathlib.Tactic.Ring
import Mathlib.Tactic.LinearCombination
import Mathlib.Tactic.Positivity
import Mathlib.Data.String.Basic

set_option linter.unusedSectionVars false

/-! # Properties C61-C65, C99, C100 (pre-processors) -/

namespace CML.Prep

section Scalers
variable {K : Type*} [Field K] [LinearOrder K] [IsStrictOrderedRing K]

theorem min_max_exists {x : List K} (h : x ≠ []) : ∃ lo hi, x.min? = some lo ∧ x.max? = some hi ∧ lo ∈ x ∧ hi ∈ x ∧
    ∀ v ∈ x, lo ≤ v ∧ v ≤ hi := by
  cases h1 : x.min? with
  | none => exact absurd (List.min?_eq_none_iff.1 h1) h
  | some lo =>
    cases h2 : x.max? with
    | none => exact absurd (List.max?_eq_none_iff.1 h2) h
    | some hi =>
      rw [List.min?_eq_some_iff] at h1
      rw [List.max?_eq_some_iff] at h2
      exact ⟨lo, hi, rfl, rfl, h1.1, h2.1, fun v hv => ⟨h1.2 v hv, h2.2 v hv⟩⟩

/-- C61: on data with at least two distinct values, the results are finite, lie in [0,1], attain 0 and 1, and keep the order of
the samples; the inverse recovers the data exactly. -/
theorem C61_minmax (x : List K) (a b : K) (ha : a ∈ x) (hb : b ∈ x) (hab : a ≠ b) :
    ∃ (st : K × K) (z : List K), minMaxCall x = .ok (st, z.map some) ∧ z.length = x.length ∧ (∀ v ∈ z, 0 ≤ v ∧ v ≤ 1) ∧ 0 ∈ z ∧ 1 ∈ z ∧
      (∀ (i j : Nat) u u' w w', x[i]? = some u → x[j]? = some u' → z[i]? = some w → z[j]? = some w' → (u < u' ↔ w < w')) ∧
      minMaxInverse st (z.map some) = x.map some := by
  obtain ⟨lo, hi, h1, h2, h3, h4, h5⟩ := min_max_exists (List.ne_nil_of_mem ha)
  have hlt : lo < hi := by
    rcases lt_or_gt_of_ne hab with h | h
    · exact (h5 a ha).1.trans_lt (h.trans_le (h5 b hb).2)
    · exact (h5 b hb).1.trans_lt (h.trans_le (h5 a ha).2)
  have hd : 0 < hi - lo := sub_pos.2 hlt
  refine ⟨(lo, hi), x.map fun v => (v - lo) / (hi - lo), ?_, by simp, ?_, ?_, ?_, ?_, ?_⟩
  · simp [minMaxCall, h1, h2, npDiv, hd.ne']
  · intro v hv
    obtain ⟨u, hu, rfl⟩ := List.mem_map.1 hv
    have := h5 u hu
    exact ⟨div_nonneg (by linarith) hd.le, (div_le_one hd).2 (by linarith)⟩
  · exact List.mem_map.2 ⟨lo, h3, by simp⟩
  · exact List.mem_map.2 ⟨hi, h4, div_self hd.ne'⟩
  · intro i j u u' w w' hu hu' hw hw'
    rw [List.getElem?_map, hu] at hw
    rw [List.getElem?_map, hu'] at hw'
    simp only [Option.map_some, Option.some.injEq] at hw hw'
    subst hw; subst hw'
    rw [div_lt_div_iff_of_pos_right hd]
    constructor <;> intro h <;> linarith
  · simp only [minMaxInverse, List.map_map]
    apply List.map_congr_left
    intro v _
    simp [hd.ne']

example : minMaxCall ([3, 1, 2] : List ℚ) = .ok ((1, 3), [some 1, some 0, some (1/2)]) := by decide +kernel

/-- C61, the excluded data: constant data give no finite result at all, empty data raise `ValueError`. -/
theorem C61_constant (c : K) (n : Nat) :
    minMaxCall (List.replicate (n + 1) c) = .ok ((c, c), List.replicate (n + 1) none) ∧
    minMaxCall ([] : List K) = .error .valueError := by
  obtain ⟨lo, hi, h1, h2, h3, h4, -⟩ := min_max_exists (x := List.replicate (n + 1) c) (by simp)
  have e1 := List.eq_of_mem_replicate h3
  have e2 := List.eq_of_mem_replicate h4
  subst e1; subst e2
  constructor
  · simp [minMaxCall, h1, h2, npDiv]
  · rfl

theorem mean_some {x : List K} (h : x ≠ []) : mean x = some (x.sum / x.length) := by
  unfold mean npDiv
  rw [if_neg]
  have := List.length_pos_of_ne_nil h
  exact_mod_cast this.ne'

theorem isMean_iff {x : List K} (m : K) : IsMean x m ↔ mean x = some m := by
  unfold IsMean
  by_cases h : x = []
  · simp [h, mean, npDiv]
  · rw [mean_some h]
    have : (0 : K) < x.length := by exact_mod_cast List.length_pos_of_ne_nil h
    simp only [ne_eq, h, not_false_eq_true, true_and, Option.some.injEq]
    rw [div_eq_iff this.ne', eq_comm]

theorem isVar_iff {x : List K} (s : K) : IsVar x s ↔ var x = some s := by
  unfold IsVar var
  constructor
  · rintro ⟨m, h1, h2⟩
    rw [isMean_iff] at h1 h2
    simp only [h1, Option.bind_some, ← h2, sq]
  · intro h
    cases hm : mean x with
    | none => simp [hm] at h
    | some m =>
      refine ⟨m, (isMean_iff m).2 hm, ?_⟩
      rw [isMean_iff]
      simpa [hm, sq] using h

theorem sum_map_sub (x : List K) (m : K) : (x.map fun v => v - m).sum = x.sum - x.length * m := by
  induction x with
  | nil => simp
  | cons a x ih => simp only [List.map_cons, List.sum_cons, ih, List.length_cons, Nat.cast_add, Nat.cast_one]; ring

theorem sum_map_div (x : List K) (f : K → K) (c : K) : (x.map fun v => f v / c).sum = (x.map f).sum / c := by
  induction x with
  | nil => simp
  | cons a x ih => simp only [List.map_cons, List.sum_cons, ih]; ring

/-- The result of a standard scaling of data with variance `s ≠ 0`. -/
theorem standard_eq {x : List K} {m s : K} (hm : mean x = some m) (hs : var x = some s) (h0 : s ≠ 0) :
    standardCall x = ((some m, some s), (x.map fun v => (v - m) / s).map some) := by
  simp [standardCall, hm, hs, npDiv, h0]

/-- C62, the part that holds: on data with positive variance the results are finite and have mean 0, and the inverse recovers the
data.  Missing: variance 1, which is false (`C62_variance`). -/
theorem C62_standard_partial (x : List K) (s : K) (hs : IsVar x s) (h0 : 0 < s) :
    ∃ (st : Option K × Option K) (z : List K), standardCall x = (st, z.map some) ∧ z.length = x.length ∧ IsMean z 0 ∧
      standardInverse st (z.map some) = x.map some := by
  obtain ⟨m, h1, -⟩ := id hs
  have hm := (isMean_iff m).1 h1
  refine ⟨_, _, standard_eq hm ((isVar_iff s).1 hs) h0.ne', by simp, ?_, ?_⟩
  · refine ⟨by simpa using h1.1, ?_⟩
    rw [sum_map_div, sum_map_sub, ← h1.2]; simp; ring
  · simp only [standardInverse, List.map_map]
    apply List.map_congr_left
    intro v _
    simp [h0.ne']

/-- C62 is false: scaled data have variance `1 / s` (`s` the variance of the data), because the code divides by the variance and not
by its square root.  So the variance is 1 only when it already was. -/
theorem C62_variance (x : List K) (s : K) (hs : IsVar x s) (h0 : 0 < s) :
    ∃ (st : Option K × Option K) (z : List K), standardCall x = (st, z.map some) ∧ IsVar z (1 / s) ∧ (IsVar z 1 ↔ s = 1) := by
  obtain ⟨m, h1, h2⟩ := id hs
  have hm := (isMean_iff m).1 h1
  have hv : IsVar (x.map fun v => (v - m) / s) (1 / s) := by
    refine ⟨0, ?_, ?_, ?_⟩
    · refine ⟨by simpa using h1.1, ?_⟩
      rw [sum_map_div, sum_map_sub, ← h1.2]; simp; ring
    · simpa using h1.1
    · rw [List.map_map]
      have : ((fun v => (v - 0) ^ 2) ∘ fun v => (v - m) / s) = fun v => (fun u => (u - m) ^ 2) v / s ^ 2 := by
        funext v; simp [div_pow]
      rw [this, sum_map_div, ← h2.2]
      simp only [List.length_map]
      field_simp
  refine ⟨_, _, standard_eq hm ((isVar_iff s).1 hs) h0.ne', hv, ?_⟩
  rw [isVar_iff] at hv ⊢
  rw [hv, Option.some.injEq, div_eq_iff h0.ne', one_mul, eq_comm]

example : IsVar ([0, 4] : List ℚ) 4 ∧ standardCall ([0, 4] : List ℚ) = ((some 2, some 4), [some (-1/2), some (1/2)]) := by
  rw [isVar_iff]; decide +kernel

/-- C62, the excluded data: constant data give no finite result. -/
theorem C62_constant (c : K) (n : Nat) : (standardCall (List.replicate (n + 1) c)).2 = List.replicate (n + 1) none := by
  have hm : mean (List.replicate (n + 1) c) = some c := by
    rw [← isMean_iff]; refine ⟨by simp, ?_⟩; simp; ring
  have hv : var (List.replicate (n + 1) c) = some 0 := by
    rw [← isVar_iff]
    refine ⟨c, (isMean_iff c).2 hm, by simp, by simp⟩
  simp [standardCall, hm, hv, npDiv]

/-! ## C99: scaling tables -/

/-- C99 is false for the default axis: every table with at least two rows and two columns and different numbers of rows and
columns is refused, by both scalers. -/
theorem C99_default_axis_refused (t : Tab K) (h1 : 2 ≤ t.rows) (h2 : 2 ≤ t.cols) (h3 : t.rows ≠ t.cols) :
    scaleTable minMaxCell t = .error .valueError ∧ scaleTable standardCell t = .error .valueError := by
  constructor <;> simp only [scaleTable, broadcastLast] <;> rw [if_neg (Ne.symm h3), if_neg (by omega), if_neg (by omega)]

example : ∃ t : Tab ℚ, 2 ≤ t.rows ∧ 2 ≤ t.cols ∧ t.rows ≠ t.cols := ⟨⟨3, 2, fun i j => i + j⟩, by decide, by decide, by decide⟩

/-- C99 is false for the default axis: in a square table entry `(i,j)` is scaled with the statistics of row `j`, not of row `i`
(nor of column `j`); results leave [0,1]. -/
theorem C99_square_wrong_row (t : Tab K) (h : t.rows = t.cols) :
    (∃ r, scaleTable minMaxCell t = .ok r ∧ r.rows = t.rows ∧ r.cols = t.cols ∧ ∀ i j, r.e i j = minMaxCell (t.row j) (t.e i j)) ∧
    (∃ r, scaleTable standardCell t = .ok r ∧ ∀ i j, r.e i j = standardCell (t.row j) (t.e i j)) := by
  constructor <;> simp only [scaleTable, broadcastLast] <;> rw [if_pos h.symm]
  · exact ⟨_, rfl, rfl, rfl, fun i j => rfl⟩
  · exact ⟨_, rfl, fun i j => rfl⟩

/-- C99 violated on a concrete square table: the entry 10 becomes 10. -/
theorem C99_violated : ∃ t : Tab ℚ, ∃ r, t.rows = 2 ∧ t.cols = 2 ∧ scaleTable minMaxCell t = .ok r ∧ r.e 1 0 = some 10 := by
  refine ⟨⟨2, 2, fun i j => if i = 0 then j else 10 + j⟩, _, rfl, rfl, rfl, ?_⟩
  decide +kernel

/-- C99: with `axis=0` every column is scaled by its own statistics, exactly like a one-dimensional array. -/
theorem C99_axis0_partial (t : Tab K) : ∃ r r', scaleTable0 minMaxCell t = .ok r ∧ scaleTable0 standardCell t = .ok r' ∧
    r.rows = t.rows ∧ r.cols = t.cols ∧ r'.rows = t.rows ∧ r'.cols = t.cols ∧
    (∀ j, 0 < t.rows → ∃ st, minMaxCall (t.col j) = .ok (st, (List.range r.rows).map fun i => r.e i j)) ∧
    (∀ j, (standardCall (t.col j)).2 = (List.range r'.rows).map fun i => r'.e i j) := by
  refine ⟨⟨t.rows, t.cols, fun i j => minMaxCell (t.col j) (t.e i j)⟩, ⟨t.rows, t.cols, fun i j => standardCell (t.col j) (t.e i j)⟩,
    ?_, ?_, rfl, rfl, rfl, rfl, ?_, ?_⟩
  · simp [scaleTable0, broadcastLast]
  · simp [scaleTable0, broadcastLast]
  · intro j hr
    obtain ⟨lo, hi, h1, h2, -⟩ := min_max_exists (x := t.col j) (by simp [Tab.col]; omega)
    refine ⟨(lo, hi), ?_⟩
    unfold minMaxCall
    simp only [h1, h2, minMaxCell]
    simp [Tab.col]
  · intro j
    simp only [standardCall, standardCell]
    conv_lhs => arg 2; unfold Tab.col
    rw [List.map_map]
    rfl

/-- C99: a single row is scaled correctly with the default axis. -/
theorem C99_single_row_partial (t : Tab K) (h : t.rows = 1) : ∃ r, scaleTable minMaxCell t = .ok r ∧ r.rows = 1 ∧ r.cols = t.cols ∧
    ∀ j < t.cols, r.e 0 j = minMaxCell (t.row 0) (t.e 0 j) := by
  simp only [scaleTable, broadcastLast]
  split
  · rename_i hc
    refine ⟨_, rfl, h, rfl, ?_⟩
    intro j hj
    obtain rfl : j = 0 := by omega
    rfl
  · exact ⟨_, rfl, h, rfl, fun j _ => rfl⟩

/-- C99 is false for the default axis: a table with one column and two or more rows becomes a square table, entry `(i, j)` being the only entry of
row `i` scaled with the statistics of row `j`. -/
theorem C99_single_column (t : Tab K) (h : t.cols = 1) (hr : 2 ≤ t.rows) : ∃ r r', scaleTable minMaxCell t = .ok r ∧ r.rows = t.rows ∧ r.cols = t.rows ∧
    (∀ i j, r.e i j = minMaxCell (t.row j) (t.e i 0)) ∧ scaleTable standardCell t = .ok r' ∧ r'.rows = t.rows ∧ r'.cols = t.rows ∧
    ∀ i j, r'.e i j = standardCell (t.row j) (t.e i 0) := by
  refine ⟨⟨t.rows, t.rows, fun i j => minMaxCell (t.row j) (t.e i 0)⟩, ⟨t.rows, t.rows, fun i j => standardCell (t.row j) (t.e i 0)⟩,
    ?_, rfl, rfl, fun _ _ => rfl, ?_, rfl, rfl, fun _ _ => rfl⟩ <;>
  · simp only [scaleTable, broadcastLast]
    rw [if_neg (by omega), if_neg (by omega), if_pos h]

end Scalers

/-! ## Encoders -/

section Encoders
variable {K : Type*} [Field K] [LinearOrder K] [IsStrictOrderedRing K] {α : Type*} [LinearOrder α]

theorem fold_get {β : Type*} (f : Nat → β) (classes : List α) (hn : classes.Nodup) (k : Nat) (d : Dict α β) (a : α) :
    ((classes.zipIdx k).foldl (fun d p => d.set p.1 (f p.2)) d).get a =
      if a ∈ classes then some (f (classes.idxOf a + k)) else d.get a := by
  induction classes generalizing k d with
  | nil => simp
  | cons b l ih =>
    rw [List.nodup_cons] at hn
    simp only [List.zipIdx_cons, List.foldl_cons]
    rw [ih hn.2, Dict.get_set]
    by_cases hab : b = a
    · subst hab
      simp [hn.1]
    · have hba : a ≠ b := Ne.symm hab
      by_cases hal : a ∈ l
      · simp only [hal, if_true, List.mem_cons, or_true]
        rw [List.idxOf_cons_ne _ hab]
        congr 2; omega
      · simp [hal, hab, hba]

theorem fillIndices_get {β : Type*} (d : Dict α β) (f : Nat → β) (labels : List α) (a : α) :
    (fillIndices d f (npUnique labels)).get a = if a ∈ labels then some (f (rank labels a)) else d.get a := by
  unfold fillIndices
  rw [fold_get f _ (nodup_npUnique labels)]
  simp only [mem_npUnique, Nat.add_zero]
  split
  · rename_i h
    have hm : a ∈ npUnique labels := mem_npUnique.2 h
    have h1 := countP_lt_of_sorted (sorted_npUnique labels) ((npUnique labels).idxOf a) a (by
      rw [List.getElem?_eq_getElem (List.idxOf_lt_length_of_mem hm), List.getElem_idxOf])
    rw [← h1]
    congr 2
    unfold rank
    rw [List.countP_eq_length_filter, ← List.toFinset_card_of_nodup ((nodup_npUnique labels).filter _)]
    congr 1
    ext b
    simp [mem_npUnique]
  · rfl

theorem length_npUnique (labels : List α) : (npUnique labels).length = numClasses labels := by
  unfold numClasses
  rw [← List.toFinset_card_of_nodup (nodup_npUnique labels)]
  congr 1
  ext b
  simp [mem_npUnique]

theorem rank_lt {labels : List α} {a : α} (h : a ∈ labels) : rank labels a < numClasses labels := by
  unfold rank numClasses
  apply Finset.card_lt_card
  rw [Finset.ssubset_iff_of_subset (Finset.filter_subset _ _)]
  exact ⟨a, by simpa using h, by simp⟩

theorem rank_strict {labels : List α} {a b : α} (ha : a ∈ labels) (h : a < b) : rank labels a < rank labels b := by
  unfold rank
  apply Finset.card_lt_card
  rw [Finset.ssubset_iff_of_subset]
  · exact ⟨a, by simpa using ⟨ha, h⟩, by simp⟩
  · intro c hc
    simp only [Finset.mem_filter] at hc ⊢
    exact ⟨hc.1, hc.2.trans h⟩

theorem rank_inj {labels : List α} {a b : α} (ha : a ∈ labels) (hb : b ∈ labels) : rank labels a = rank labels b ↔ a = b := by
  constructor
  · intro h
    rcases lt_trichotomy a b with h1 | h1 | h1
    · exact absurd h (rank_strict ha h1).ne
    · exact h1
    · exact absurd h (rank_strict hb h1).ne'
  · rintro rfl; rfl

theorem unitRow_spec {n j : Nat} (h : j < n) : IsUnitRow ((List.replicate n (0 : K)).set j 1) n j := by
  refine ⟨by simp, h, ?_⟩
  intro k hk
  rw [List.getElem?_set]
  by_cases hjk : j = k
  · subst hjk; simp [h]
  · simp [hjk, Ne.symm hjk, hk]

theorem mapM_ok {β γ : Type*} (f : β → Except PyErr γ) (g : β → γ) (l : List β) (h : ∀ a ∈ l, f a = .ok (g a)) :
    l.mapM f = .ok (l.map g) := by
  induction l with
  | nil => rfl
  | cons a l ih =>
    rw [List.mapM_cons, h a (by simp), ih fun b hb => h b (List.mem_cons_of_mem _ hb)]
    rfl

theorem oneHot_eq (d : Dict α (List K)) (labels : List α) : oneHotCall d labels =
    .ok (labels.map fun l => (List.replicate (npUnique labels).length 0).set (rank labels l) 1,
      fillIndices d (fun j => (List.replicate (npUnique labels).length 0).set j 1) (npUnique labels)) := by
  simp only [oneHotCall]
  rw [mapM_ok (g := fun l => (List.replicate (npUnique labels).length (0 : K)).set (rank labels l) 1)]
  · rfl
  · intro l hl
    simp only [look, fillIndices_get, hl, if_true, id, Except.bind]
    unfold unitRow
    rw [if_pos (by rw [length_npUnique]; exact rank_lt hl)]

/-- C63: whatever the encoder encoded before, `OneHotEncoder` succeeds on every label list; the row of sample `i` has a single 1, in
the column numbered by the rank of its class, and `class_indices` maps every label of the data to its row. -/
theorem C63_one_hot (d : Dict α (List K)) (labels : List α) :
    ∃ rows d', oneHotCall d labels = .ok (rows, d') ∧ rows.length = labels.length ∧
      ∀ (i : Nat) l, labels[i]? = some l → ∃ r, rows[i]? = some r ∧ IsUnitRow r (numClasses labels) (rank labels l) ∧ d'.get l = some r := by
  refine ⟨labels.map fun l => (List.replicate (npUnique labels).length 0).set (rank labels l) 1,
    fillIndices d (fun j => (List.replicate (npUnique labels).length 0).set j 1) (npUnique labels), ?_, by simp, ?_⟩
  · exact oneHot_eq d labels
  · intro i l hi
    have hl := List.mem_of_getElem? hi
    refine ⟨_, by rw [List.getElem?_map, hi]; rfl, ?_, ?_⟩
    · rw [length_npUnique]; exact unitRow_spec (rank_lt hl)
    · rw [fillIndices_get, if_pos hl]

/-- C63 for `DummyEncoder` (used on feature columns), whose `class_indices` holds the column number. -/
theorem C63_dummy (d : Dict α Nat) (labels : List α) :
    ∃ (rows : List (List K)) (d' : Dict α Nat), dummyCall d labels = .ok (rows, d') ∧ rows.length = labels.length ∧
      ∀ (i : Nat) l, labels[i]? = some l → ∃ r, rows[i]? = some r ∧ IsUnitRow r (numClasses labels) (rank labels l) ∧
        d'.get l = some (rank labels l) := by
  refine ⟨labels.map fun l => (List.replicate (npUnique labels).length 0).set (rank labels l) 1,
    fillIndices d id (npUnique labels), ?_, by simp, ?_⟩
  · simp only [dummyCall]
    rw [mapM_ok (g := fun l => (List.replicate (npUnique labels).length (0 : K)).set (rank labels l) 1)]
    · rfl
    · intro l hl
      simp only [look, fillIndices_get, hl, if_true, id, Except.bind]
      unfold unitRow
      rw [if_pos (by rw [length_npUnique]; exact rank_lt hl)]
  · intro i l hi
    have hl := List.mem_of_getElem? hi
    refine ⟨_, by rw [List.getElem?_map, hi]; rfl, ?_, ?_⟩
    · rw [length_npUnique]; exact unitRow_spec (rank_lt hl)
    · rw [fillIndices_get, if_pos hl]; rfl

/-- C63: the labels can be recovered: two samples get the same row exactly when they have the same label. -/
theorem C63_recoverable (d : Dict α (List K)) (labels : List α) (rows : List (List K)) (d' : Dict α (List K))
    (h : oneHotCall d labels = .ok (rows, d')) (i j : Nat) (l l' : α) (hi : labels[i]? = some l) (hj : labels[j]? = some l') :
    rows[i]? = rows[j]? ↔ l = l' := by
  obtain ⟨rows', d'', h1, -, h3⟩ := C63_one_hot d labels
  rw [h] at h1
  simp only [Except.ok.injEq, Prod.mk.injEq] at h1
  obtain ⟨rfl, rfl⟩ := h1
  obtain ⟨r, hr, ⟨-, hu, hr2⟩, -⟩ := h3 i l hi
  obtain ⟨r', hr', ⟨-, hu', hr2'⟩, hg⟩ := h3 j l' hj
  constructor
  · intro he
    rw [hr, hr', Option.some.injEq] at he
    subst he
    have e1 := hr2 _ hu
    have e2 := hr2' _ hu
    rw [e1] at e2
    by_contra hne
    have : rank labels l ≠ rank labels l' := fun h => hne ((rank_inj (List.mem_of_getElem? hi) (List.mem_of_getElem? hj)).1 h)
    simp [this] at e2
  · rintro rfl
    obtain ⟨r1, a1, -, b1⟩ := h3 i l hi
    rw [hg, Option.some.injEq] at b1
    rw [a1, hr', b1]

/-- C63: for a fresh encoder `class_indices` has exactly the labels of the data as keys and is one-to-one. -/
theorem C63_fresh_indices (labels : List α) (rows : List (List K)) (d' : Dict α (List K))
    (h : oneHotCall [] labels = .ok (rows, d')) :
    (∀ a, d'.get a ≠ none ↔ a ∈ labels) ∧ ∀ a b, d'.get a ≠ none → d'.get a = d'.get b → a = b := by
  have hd : d' = fillIndices [] (fun j => (List.replicate (npUnique labels).length 0).set j 1) (npUnique labels) := by
    rw [oneHot_eq] at h
    simp only [Except.ok.injEq, Prod.mk.injEq] at h
    exact h.2.symm
  have key : ∀ a, d'.get a ≠ none ↔ a ∈ labels := by
    intro a
    rw [hd, fillIndices_get]
    split
    · rename_i ha; simp [ha]
    · rename_i ha; simp [ha, Dict.get]
  refine ⟨key, ?_⟩
  intro a b ha hab
  have ha' := (key a).1 ha
  have hb' := (key b).1 (hab ▸ ha)
  rw [hd, fillIndices_get, fillIndices_get, if_pos ha', if_pos hb', Option.some.injEq, length_npUnique] at hab
  have e1 := (unitRow_spec (K := K) (rank_lt ha')).2.2 _ (rank_lt ha')
  have e2 := (unitRow_spec (K := K) (rank_lt hb')).2.2 _ (rank_lt ha')
  rw [hab, e2] at e1
  by_contra hne
  have : rank labels a ≠ rank labels b := fun h => hne ((rank_inj ha' hb').1 h)
  simp [this] at e1

example : (oneHotCall [] [5, 3, 5, 9] : Except PyErr (List (List ℚ) × Dict Nat (List ℚ))) =
    .ok ([[0,1,0],[1,0,0],[0,1,0],[0,0,1]], [(3,[1,0,0]),(5,[0,1,0]),(9,[0,0,1])]) := by decide +kernel

/-- C100 is false: an encoder used twice keeps the classes of the first use; two different classes then share a code. For all
distinct labels `a`, `b`: after encoding `[a]` and then `[b]` both map to the code `[1]`. -/
theorem C100_stale (a b : α) (hab : a ≠ b) : ∃ d d' : Dict α (List K), oneHotCall [] [a] = .ok ([[1]], d) ∧
    oneHotCall d [b] = .ok ([[1]], d') ∧ d'.get a = some [1] ∧ d'.get b = some [1] := by
  refine ⟨[(a, [1])], [(a, [1]), (b, [1])], ?_, ?_, ?_, ?_⟩
  · simp [oneHotCall, npUnique, pyUnique, fillIndices, Dict.set, look, Dict.get, unitRow, Except.bind, Except.map, pure, Except.pure, bind]
  · simp [oneHotCall, npUnique, pyUnique, fillIndices, Dict.set, look, Dict.get, unitRow, Except.bind, Except.map, pure, Except.pure, bind, hab]
  · simp [Dict.get]
  · simp [Dict.get, hab]

/-- C100, the part that holds: the entries of classes absent from the new data are left alone, the others are replaced. -/
theorem C100_reuse_partial (d : Dict α (List K)) (labels : List α) (rows : List (List K)) (d' : Dict α (List K))
    (h : oneHotCall d labels = .ok (rows, d')) (a : α) (ha : a ∉ labels) : d'.get a = d.get a := by
  have hd : d' = fillIndices d (fun j => (List.replicate (npUnique labels).length 0).set j 1) (npUnique labels) := by
    rw [oneHot_eq] at h
    simp only [Except.ok.injEq, Prod.mk.injEq] at h
    exact h.2.symm
  rw [hd, fillIndices_get, if_neg ha]

theorem rank_zero_iff {labels : List α} {a : α} : rank labels a = 0 ↔ ∀ b ∈ labels, a ≤ b := by
  unfold rank
  rw [Finset.card_eq_zero, Finset.filter_eq_empty_iff]
  simp [not_lt]

/-- C64: `MaxMarginEncoder` succeeds on every label list; the smallest class becomes -1 and every other class +1; `class_indices`
agrees. -/
theorem C64_max_margin (d : Dict α K) (labels : List α) :
    ∃ ys d', maxMarginCall d labels = .ok (ys, d') ∧ ys.length = labels.length ∧
      ∀ (i : Nat) l, labels[i]? = some l → ∃ v, ys[i]? = some v ∧ d'.get l = some v ∧ (v = 1 ∨ v = -1) ∧
        (v = -1 ↔ ∀ b ∈ labels, l ≤ b) := by
  refine ⟨labels.map fun l => if rank labels l = 0 then -1 else 1,
    fillIndices d (fun j => if j = 0 then -1 else 1) (npUnique labels), ?_, by simp, ?_⟩
  · simp only [maxMarginCall]
    rw [mapM_ok (g := fun l => if rank labels l = 0 then (-1 : K) else 1)]
    · rfl
    · intro l hl
      simp only [look, fillIndices_get, hl, if_true]
  · intro i l hi
    have hl := List.mem_of_getElem? hi
    refine ⟨_, by rw [List.getElem?_map, hi]; rfl, ?_, ?_, ?_⟩
    · rw [fillIndices_get, if_pos hl]
    · dsimp only; split <;> simp
    · rw [← rank_zero_iff]
      have h2 : (1 : K) ≠ -1 := by
        intro h
        have := zero_lt_one (α := K)
        linarith
      dsimp only
      split <;> simp_all

/-- C64: for two-class data (at most two classes) different classes get different signs. -/
theorem C64_injective (d : Dict α K) (labels : List α) (h2 : numClasses labels ≤ 2) (ys : List K) (d' : Dict α K)
    (h : maxMarginCall d labels = .ok (ys, d')) (i j : Nat) (l l' : α) (hi : labels[i]? = some l) (hj : labels[j]? = some l') :
    ys[i]? = ys[j]? ↔ l = l' := by
  obtain ⟨ys', d'', h1, -, h3⟩ := C64_max_margin d labels
  rw [h] at h1
  simp only [Except.ok.injEq, Prod.mk.injEq] at h1
  obtain ⟨rfl, rfl⟩ := h1
  obtain ⟨v, a1, a2, a3, a4⟩ := h3 i l hi
  obtain ⟨v', b1, b2, b3, b4⟩ := h3 j l' hj
  have hl := List.mem_of_getElem? hi
  have hl' := List.mem_of_getElem? hj
  constructor
  · intro he
    rw [a1, b1, Option.some.injEq] at he
    subst he
    have hz : rank labels l = 0 ↔ rank labels l' = 0 := by rw [rank_zero_iff, rank_zero_iff, ← a4, b4]
    have r1 := (rank_lt hl).trans_le h2
    have r2 := (rank_lt hl').trans_le h2
    apply (rank_inj hl hl').1
    omega
  · rintro rfl
    rw [a2] at b2
    rw [a1, b1, b2]

example : (maxMarginCall [] ["no", "yes", "no"] : Except PyErr (List ℚ × Dict String ℚ)) = .ok ([-1, 1, -1], [("no", -1), ("yes", 1)]) := by
  decide +kernel

/-- C64, outside the claim: with three classes the two larger ones are merged (the encoder does not refuse them). -/
theorem C64_three_classes (a b c : α) (hab : a < b) (hbc : b < c) :
    ∃ d' : Dict α K, maxMarginCall [] [a, b, c] = .ok ([-1, 1, 1], d') := by
  obtain ⟨ys, d', h1, h2, h3⟩ := C64_max_margin (K := K) [] [a, b, c]
  obtain ⟨v0, p0, -, q0, r0⟩ := h3 0 a rfl
  obtain ⟨v1, p1, -, q1, r1⟩ := h3 1 b rfl
  obtain ⟨v2, p2, -, q2, r2⟩ := h3 2 c rfl
  refine ⟨d', ?_⟩
  rw [h1]
  have e0 : v0 = -1 := r0.2 (by simp [hab.le, (hab.trans hbc).le])
  have e1 : v1 = 1 := q1.resolve_right fun h => absurd (r1.1 h a (by simp)) (not_le.2 hab)
  have e2 : v2 = 1 := q2.resolve_right fun h => absurd (r2.1 h a (by simp)) (not_le.2 (hab.trans hbc))
  subst e0; subst e1; subst e2
  match ys, h2 with
  | [y0, y1, y2], _ =>
    simp at p0 p1 p2
    rw [p0, p1, p2]

end Encoders

/-! ## C65: the imputer -/

section Imputer
variable {K : Type*} [Field K] [LinearOrder K] [IsStrictOrderedRing K]

theorem toFloat_isOk (fl : K → K) (parse : String → Option K) (c : Cell K) :
    (∃ v, c.toFloat fl parse = .ok v) ∨ ∃ s, c = .str s ∧ parse s = none ∧ c.toFloat fl parse = .error .valueError := by
  cases c with
  | num v => exact .inl ⟨_, rfl⟩
  | missing => exact .inl ⟨_, rfl⟩
  | str s =>
    cases h : parse s with
    | none => exact .inr ⟨s, rfl, h, by simp [Cell.toFloat, h]⟩
    | some v => exact .inl ⟨some (fl v), by simp [Cell.toFloat, h]⟩

theorem mapM_toFloat (fl : K → K) (parse : String → Option K) (col : List (Cell K)) :
    (∃ vs, col.mapM (Cell.toFloat fl parse) = .ok vs) ∨
    ((∃ s, .str s ∈ col ∧ parse s = none) ∧ ∃ e, col.mapM (Cell.toFloat fl parse) = .error e) := by
  induction col with
  | nil => exact .inl ⟨[], rfl⟩
  | cons c col ih =>
    rw [List.mapM_cons]
    rcases toFloat_isOk fl parse c with ⟨v, hv⟩ | ⟨s, rfl, hs, he⟩
    · rw [hv]
      rcases ih with ⟨vs, hvs⟩ | ⟨⟨s, h1, h2⟩, e, he⟩
      · exact .inl ⟨v :: vs, by rw [hvs]; rfl⟩
      · exact .inr ⟨⟨s, List.mem_cons_of_mem _ h1, h2⟩, e, by rw [he]; rfl⟩
    · exact .inr ⟨⟨s, by simp, hs⟩, .valueError, by rw [he]; rfl⟩

/-- A column of numbers and missing values, as it comes from a numeric table. -/
def numericColumn (vals : List (Option K)) : List (Cell K) := vals.map fun v => match v with | some v => .num v | none => .missing

theorem mapM_numeric (fl : K → K) (parse : String → Option K) (vals : List (Option K)) :
    (numericColumn vals).mapM (Cell.toFloat fl parse) = .ok (vals.map (Option.map fl)) := by
  induction vals with
  | nil => rfl
  | cons v vals ih =>
    unfold numericColumn at ih ⊢
    rw [List.map_cons, List.mapM_cons, ih]
    cases v <;> rfl

/-- C65 for numeric columns with at least one present value: present values only undergo the conversions to the working precision
and back (`store (fl v)`), and every missing value becomes the converted mean `m` of the present (converted) values. -/
theorem C65_numeric (fl store : K → K) (parse : String → Option K) (mode : List (Cell K) → Cell K) (vals : List (Option K))
    (hp : ∃ v, some v ∈ vals) :
    ∃ m, IsMean ((vals.filterMap id).map fl) m ∧
      fillColumn fl store parse mode (numericColumn vals) =
        vals.map fun v => match v with | some v => .num (store (fl v)) | none => .num (store (fl m)) := by
  have hfm : ∀ l : List (Option K), (l.map (Option.map fl)).filterMap id = (l.filterMap id).map fl := by
    intro l
    induction l with
    | nil => rfl
    | cons v l ih => cases v <;> simpa using ih
  obtain ⟨v0, hv0⟩ := hp
  have hne : (vals.filterMap id).map fl ≠ [] := by
    simp only [ne_eq, List.map_eq_nil_iff]
    exact List.ne_nil_of_mem (List.mem_filterMap.2 ⟨some v0, hv0, rfl⟩)
  refine ⟨_, (isMean_iff _).2 (mean_some hne), ?_⟩
  unfold fillColumn
  rw [mapM_numeric]
  simp only [hfm, mean_some hne, Option.map_some, List.map_map]
  apply List.map_congr_left
  intro v _
  cases v <;> rfl

example : fillColumn (id : ℚ → ℚ) id (fun _ => none) (fun _ => .missing) (numericColumn [some 1, none, some 3]) =
    [.num 1, .num 2, .num 3] := by decide +kernel

/-- C65 for numeric data in the working precision (`fl` and `store` leave the present values alone): every entry is present
afterwards and the present ones are unchanged.  Missing for C65: data that are not exact in the working precision
(`C65_precision_lost`), columns without a present value (`C65_all_missing`), integer arrays with numbers of more than 24 bits. -/
theorem C65_unchanged_partial (fl store : K → K) (parse : String → Option K) (mode : List (Cell K) → Cell K) (vals : List (Option K))
    (hp : ∃ v, some v ∈ vals) (hex : ∀ v, some v ∈ vals → store (fl v) = v) :
    (∀ c ∈ fillColumn fl store parse mode (numericColumn vals), c ≠ .missing) ∧
    ∀ (i : Nat) v, vals[i]? = some (some v) → (fillColumn fl store parse mode (numericColumn vals))[i]? = some (.num v) := by
  obtain ⟨m, -, h⟩ := C65_numeric fl store parse mode vals hp
  rw [h]
  constructor
  · intro c hc
    obtain ⟨v, -, rfl⟩ := List.mem_map.1 hc
    cases v <;> simp
  · intro i v hv
    rw [List.getElem?_map, hv]
    simp [hex v (List.mem_of_getElem? hv)]

/-- C65 for columns with a string that is not a number: the present cells are unchanged, every missing cell receives a most
frequent present cell, so no cell is missing afterwards. -/
theorem C65_categorical (fl store : K → K) (parse : String → Option K) (mode : List (Cell K) → Cell K) (col : List (Cell K))
    (hmode : ∀ l : List (Cell K), l ≠ [] → MostFrequent l (mode l)) (s : String) (hs : .str s ∈ col) (hnum : parse s = none) :
    ∃ c, MostFrequent (col.filter fun c => decide (c ≠ .missing)) c ∧ c ≠ .missing ∧
      fillColumn fl store parse mode col = col.map fun a => if a = .missing then c else a := by
  have hmem : (Cell.str s : Cell K) ∈ col.filter fun c => decide (c ≠ .missing) := by simp [hs]
  have hm := hmode _ (List.ne_nil_of_mem hmem)
  refine ⟨_, hm, ?_, ?_⟩
  · have := (List.mem_filter.1 hm.1).2
    simpa using this
  · unfold fillColumn
    rcases mapM_toFloat fl parse col with ⟨vs, hvs⟩ | ⟨-, e, he⟩
    · exfalso
      have : ∀ (l : List (Cell K)) vs, .str s ∈ l → l.mapM (Cell.toFloat fl parse) ≠ .ok vs := by
        intro l
        induction l with
        | nil => simp
        | cons c l ih =>
          intro vs hl h
          rw [List.mapM_cons] at h
          rcases toFloat_isOk fl parse c with ⟨v, hv⟩ | ⟨s', rfl, hs', he⟩
          · rw [hv] at h
            rcases List.mem_cons.1 hl with h1 | h1
            · subst h1; simp [Cell.toFloat, hnum] at hv
            · cases hq : l.mapM (Cell.toFloat fl parse) with
              | ok w => exact ih w h1 hq
              | error e => rw [hq] at h; simp [bind, Except.bind] at h
          · rw [he] at h; simp [bind, Except.bind] at h
      exact this col vs hs hvs
    · rw [he]

example : fillColumn (id : ℚ → ℚ) id (fun _ => none) (fun l => l.headD .missing) [.str "a", .missing, .str "a", .str "b"] =
    [.str "a", .str "a", .str "a", .str "b"] := by decide +kernel

/-- C65, the excluded columns: a column with no present value stays missing. -/
theorem C65_all_missing (fl store : K → K) (parse : String → Option K) (mode : List (Cell K) → Cell K) (n : Nat) :
    fillColumn fl store parse mode (List.replicate n .missing) = List.replicate n .missing := by
  have h := mapM_numeric fl parse (List.replicate n (none : Option K))
  have e : numericColumn (List.replicate n (none : Option K)) = List.replicate n .missing := by simp [numericColumn]
  rw [e] at h
  have hf : (List.replicate n (none : Option K)).filterMap id = [] := by
    rw [List.filterMap_eq_nil_iff]; intro a ha; simpa using List.eq_of_mem_replicate ha
  unfold fillColumn
  rw [h]
  simp [mean, npDiv]

/-- No number with a 24-bit significand equals 2^24 + 1. -/
theorem not_float32 : ¬ Float32 16777217 := by
  rintro ⟨m, e, hm, h⟩
  rcases lt_or_ge e 0 with he | he
  · obtain ⟨k, rfl⟩ : ∃ k : ℕ, e = -(k : ℤ) := ⟨(-e).toNat, by omega⟩
    have h2 : (0 : ℚ) < 2 ^ k := by positivity
    rw [zpow_neg, zpow_natCast, ← div_eq_mul_inv, eq_div_iff h2.ne'] at h
    have h3 : (16777217 * 2 ^ k : ℤ) = m := by exact_mod_cast h
    have h4 : (1 : ℤ) ≤ 2 ^ k := one_le_pow₀ (by norm_num)
    have h5 := (abs_lt.1 hm).2
    have : (16777217 : ℤ) ≤ 16777217 * 2 ^ k := by linarith
    norm_num at h5
    linarith
  · obtain ⟨k, rfl⟩ : ∃ k : ℕ, e = (k : ℤ) := ⟨e.toNat, by omega⟩
    rw [zpow_natCast] at h
    have h3 : (16777217 : ℤ) = m * 2 ^ k := by exact_mod_cast h
    cases k with
    | zero =>
      rw [pow_zero, mul_one] at h3
      rw [← h3] at hm
      norm_num at hm
    | succ k =>
      have : (2 : ℤ) ∣ 16777217 := ⟨m * 2 ^ k, by rw [h3, pow_succ]; ring⟩
      norm_num at this

/-- C65 is false for integers of more than 24 bits in an integer (or double-precision, or object) table: the present value 2^24+1 is
changed whatever single-precision conversion is used, although nothing is missing. -/
theorem C65_precision_lost (fl : ℚ → ℚ) (hfl : ∀ v, Float32 (fl v)) (parse : String → Option ℚ) (mode : List (Cell ℚ) → Cell ℚ) :
    fillColumn fl id parse mode [.num 16777217] ≠ [.num 16777217] := by
  have h := mapM_numeric fl parse [some (16777217 : ℚ)]
  have e : numericColumn [some (16777217 : ℚ)] = [.num 16777217] := rfl
  rw [e] at h
  unfold fillColumn
  rw [h]
  simp only [List.map_cons, List.map_nil, Option.map_some, id, ne_eq, List.cons.injEq, and_true, Cell.num.injEq]
  intro hq
  exact not_float32 (hq ▸ hfl 16777217)

/-- C65: the table is filled column by column. -/
theorem C65_table (fl store : K → K) (parse : String → Option K) (mode : List (Cell K) → Cell K) (t : List (List (Cell K))) (j : Nat)
    (col : List (Cell K)) (h : t[j]? = some col) : (impute fl store parse mode t)[j]? = some (fillColumn fl store parse mode col) := by
  simp [impute, h]

end Imputer
end CML.Prep
