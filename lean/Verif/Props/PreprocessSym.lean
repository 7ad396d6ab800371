import Verif.Props.Preprocess
import Verif.Props.Metrics
import Verif.Props.Losses
import Mathlib.Algebra.BigOperators.Group.List.Lemmas
import Mathlib.Data.List.OfFn

set_option linter.unusedSectionVars false

/-! # C203–C206: scalers under changes of units, encoders under renaming, metrics and losses under reordering -/

namespace CML.Prep

section Scalers
variable {K : Type*} [Field K] [LinearOrder K] [IsStrictOrderedRing K]

/-- The values of a call, without the attributes. -/
def values (r : Except PyErr ((K × K) × List (Option K))) : Except PyErr (List (Option K)) := r.map Prod.snd

theorem min_max_map_pos {x : List K} {lo hi a : K} (b : K) (ha : 0 < a) (h1 : x.min? = some lo) (h2 : x.max? = some hi) :
    (x.map fun v => a * v + b).min? = some (a * lo + b) ∧ (x.map fun v => a * v + b).max? = some (a * hi + b) := by
  rw [List.min?_eq_some_iff] at h1 ⊢
  rw [List.max?_eq_some_iff] at h2 ⊢
  refine ⟨⟨List.mem_map.2 ⟨lo, h1.1, rfl⟩, ?_⟩, List.mem_map.2 ⟨hi, h2.1, rfl⟩, ?_⟩
  · intro v hv
    obtain ⟨u, hu, rfl⟩ := List.mem_map.1 hv
    have := mul_le_mul_of_nonneg_left (h1.2 u hu) ha.le
    linarith
  · intro v hv
    obtain ⟨u, hu, rfl⟩ := List.mem_map.1 hv
    have := mul_le_mul_of_nonneg_left (h2.2 u hu) ha.le
    linarith

theorem min_max_map_neg {x : List K} {lo hi a : K} (b : K) (ha : a < 0) (h1 : x.min? = some lo) (h2 : x.max? = some hi) :
    (x.map fun v => a * v + b).min? = some (a * hi + b) ∧ (x.map fun v => a * v + b).max? = some (a * lo + b) := by
  rw [List.min?_eq_some_iff] at h1 ⊢
  rw [List.max?_eq_some_iff] at h2 ⊢
  refine ⟨⟨List.mem_map.2 ⟨hi, h2.1, rfl⟩, ?_⟩, List.mem_map.2 ⟨lo, h1.1, rfl⟩, ?_⟩
  · intro v hv
    obtain ⟨u, hu, rfl⟩ := List.mem_map.1 hv
    have := mul_le_mul_of_nonpos_left (h2.2 u hu) ha.le
    linarith
  · intro v hv
    obtain ⟨u, hu, rfl⟩ := List.mem_map.1 hv
    have := mul_le_mul_of_nonpos_left (h1.2 u hu) ha.le
    linarith

theorem npDiv_pos (a lo hi v b : K) (ha : a ≠ 0) : npDiv (a * v + b - (a * lo + b)) (a * hi + b - (a * lo + b)) = npDiv (v - lo) (hi - lo) := by
  have e1 : a * v + b - (a * lo + b) = a * (v - lo) := by ring
  have e2 : a * hi + b - (a * lo + b) = a * (hi - lo) := by ring
  rw [e1, e2]
  unfold npDiv
  by_cases h : hi - lo = 0
  · simp [h]
  · rw [if_neg h, if_neg (mul_ne_zero ha h), mul_div_mul_left _ _ ha]

theorem npDiv_neg (a lo hi v b : K) (ha : a ≠ 0) : npDiv (a * v + b - (a * hi + b)) (a * lo + b - (a * hi + b)) = (npDiv (v - lo) (hi - lo)).map fun z => 1 - z := by
  have e1 : a * v + b - (a * hi + b) = a * (v - hi) := by ring
  have e2 : a * lo + b - (a * hi + b) = a * (lo - hi) := by ring
  rw [e1, e2]
  unfold npDiv
  by_cases h : hi - lo = 0
  · rw [if_pos h, if_pos (by rw [← neg_sub hi lo, h]; simp)]; rfl
  · have h' : lo - hi ≠ 0 := by rw [← neg_sub hi lo]; exact neg_ne_zero.2 h
    rw [if_neg h, if_neg (mul_ne_zero ha h'), mul_div_mul_left _ _ ha, Option.map_some]
    congr 1
    field_simp
    ring

/-- C203: a change of the unit and the origin does not change the result of `MinMaxScaler`; with a negative factor the result is mirrored. -/
theorem C203_units (x : List K) (a b : K) :
    (0 < a → values (minMaxCall (x.map fun v => a * v + b)) = values (minMaxCall x)) ∧
    (a < 0 → values (minMaxCall (x.map fun v => a * v + b)) = (values (minMaxCall x)).map (List.map (Option.map fun z => 1 - z))) := by
  by_cases hx : x = []
  · subst hx; exact ⟨fun _ => rfl, fun _ => rfl⟩
  · obtain ⟨lo, hi, h1, h2, -⟩ := min_max_exists hx
    constructor
    · intro ha
      obtain ⟨e1, e2⟩ := min_max_map_pos b ha h1 h2
      simp only [values, minMaxCall, e1, e2, h1, h2, Except.map, List.map_map]
      congr 2
      funext v
      exact npDiv_pos a lo hi v b ha.ne'
    · intro ha
      obtain ⟨e1, e2⟩ := min_max_map_neg b ha h1 h2
      simp only [values, minMaxCall, e1, e2, h1, h2, Except.map, List.map_map]
      congr 2
      funext v
      exact npDiv_neg a lo hi v b ha.ne

theorem perm_min_max {x x' : List K} (h : x.Perm x') : x.min? = x'.min? ∧ x.max? = x'.max? := by
  by_cases hx : x = []
  · subst hx
    rw [List.nil_perm.1 h]
    exact ⟨rfl, rfl⟩
  · obtain ⟨lo, hi, h1, h2, -⟩ := min_max_exists hx
    refine ⟨h1.trans (List.min?_eq_some_iff.2 ?_).symm, h2.trans (List.max?_eq_some_iff.2 ?_).symm⟩
    · rw [List.min?_eq_some_iff] at h1
      exact ⟨h.mem_iff.1 h1.1, fun v hv => h1.2 v (h.mem_iff.2 hv)⟩
    · rw [List.max?_eq_some_iff] at h2
      exact ⟨h.mem_iff.1 h2.1, fun v hv => h2.2 v (h.mem_iff.2 hv)⟩

/-- C203: samples in another order get the same values: one function of the value serves both orders. -/
theorem C203_order (x x' : List K) (h : x.Perm x') (hx : x ≠ []) :
    ∃ (st : K × K) (f : K → Option K), minMaxCall x = .ok (st, x.map f) ∧ minMaxCall x' = .ok (st, x'.map f) := by
  obtain ⟨lo, hi, h1, h2, -⟩ := min_max_exists hx
  obtain ⟨e1, e2⟩ := perm_min_max h
  rw [h1] at e1
  rw [h2] at e2
  exact ⟨(lo, hi), fun v => npDiv (v - lo) (hi - lo), by simp only [minMaxCall, h1, h2], by simp only [minMaxCall, ← e1, ← e2]⟩

/-- Every column in its own unit and from its own origin. -/
def Tab.rescale (a b : Nat → K) (t : Tab K) : Tab K := ⟨t.rows, t.cols, fun i j => a j * t.e i j + b j⟩

theorem Tab.rescale_col (a b : Nat → K) (t : Tab K) (j : Nat) : (t.rescale a b).col j = (t.col j).map fun v => a j * v + b j := by
  simp [Tab.rescale, Tab.col, List.map_map, Function.comp_def]

theorem minMaxCell_pos (l : List K) (a b v : K) (ha : 0 < a) : minMaxCell (l.map fun v => a * v + b) (a * v + b) = minMaxCell l v := by
  by_cases hl : l = []
  · subst hl; rfl
  · obtain ⟨lo, hi, h1, h2, -⟩ := min_max_exists hl
    obtain ⟨e1, e2⟩ := min_max_map_pos b ha h1 h2
    simp only [minMaxCell, e1, e2, h1, h2]
    exact npDiv_pos a lo hi v b ha.ne'

/-- C203 for tables scaled along `axis=0`: every feature may have its own unit. -/
theorem C203_table (t : Tab K) (a b : Nat → K) (ha : ∀ j, 0 < a j) : ∃ r r', scaleTable0 minMaxCell t = .ok r ∧ scaleTable0 minMaxCell (t.rescale a b) = .ok r' ∧
    r'.rows = r.rows ∧ r'.cols = r.cols ∧ ∀ i j, r'.e i j = r.e i j := by
  refine ⟨_, _, if_pos rfl, if_pos rfl, rfl, rfl, fun i j => ?_⟩
  dsimp only
  rw [Tab.rescale_col]
  exact minMaxCell_pos _ _ _ _ (ha j)

/-- The hypotheses are met: metres and feet. -/
example : values (minMaxCall ([3, 1, 2].map fun v => (3281 / 1000 : ℚ) * v + 0)) = .ok [some 1, some 0, some (1 / 2)] := by decide +kernel

/-! ## StandardScaler -/

theorem sum_map_affine (x : List K) (a b : K) : (x.map fun v => a * v + b).sum = a * x.sum + x.length * b := by
  induction x with
  | nil => simp
  | cons c x ih => simp only [List.map_cons, List.sum_cons, ih, List.length_cons, Nat.cast_add, Nat.cast_one]; ring

theorem mean_affine (x : List K) (a b : K) : mean (x.map fun v => a * v + b) = (mean x).map fun m => a * m + b := by
  by_cases hx : x = []
  · subst hx; simp [mean, npDiv]
  · rw [mean_some hx, mean_some (by simpa using hx), sum_map_affine]
    have : (0 : K) < x.length := by exact_mod_cast List.length_pos_of_ne_nil hx
    simp only [List.length_map, Option.map_some]
    congr 1
    field_simp

theorem var_affine (x : List K) (a b : K) : var (x.map fun v => a * v + b) = (var x).map fun s => a ^ 2 * s := by
  unfold var
  rw [mean_affine]
  cases hm : mean x with
  | none => rfl
  | some m =>
    simp only [Option.map_some, Option.bind_some, List.map_map]
    have e : ((fun v => (v - (a * m + b)) * (v - (a * m + b))) ∘ fun v => a * v + b) = (fun v => a ^ 2 * v + 0) ∘ fun v => (v - m) * (v - m) := by
      funext v
      simp only [Function.comp]
      ring
    rw [e, ← List.map_map, mean_affine]
    congr 1
    funext s
    ring

theorem standard_cell_affine (l : List K) (a b v : K) (ha : a ≠ 0) :
    standardCell (l.map fun v => a * v + b) (a * v + b) = (standardCell l v).map fun z => z / a := by
  unfold standardCell
  rw [mean_affine, var_affine]
  cases mean l with
  | none => rfl
  | some m =>
    cases var l with
    | none => rfl
    | some s =>
      simp only [Option.map_some, Option.bind_some]
      unfold npDiv
      by_cases hs : s = 0
      · simp [hs]
      · rw [if_neg hs, if_neg (mul_ne_zero (pow_ne_zero 2 ha) hs), Option.map_some]
        congr 1
        field_simp
        ring

theorem standardCall_cells (x : List K) : (standardCall x).2 = x.map (standardCell x) := rfl

/-- C204, exactly: a change of the unit by the factor `a` divides the result of `StandardScaler` by `a`; the origin does not matter. -/
theorem C204_units (x : List K) (a b : K) (ha : a ≠ 0) :
    (standardCall (x.map fun v => a * v + b)).2 = (standardCall x).2.map (Option.map fun z => z / a) := by
  rw [standardCall_cells, standardCall_cells, List.map_map, List.map_map]
  apply List.map_congr_left
  intro v _
  exact standard_cell_affine x a b v ha

/-- C204, the part that holds: another origin of the scale changes nothing, nor does the order of the samples. -/
theorem C204_origin_partial (x : List K) (b : K) : (standardCall (x.map fun v => v + b)).2 = (standardCall x).2 := by
  have := C204_units x 1 b one_ne_zero
  simpa [Function.comp_def] using this

theorem C204_order_partial (x x' : List K) (h : x.Perm x') : ∃ f : K → Option K, (standardCall x).2 = x.map f ∧ (standardCall x').2 = x'.map f ∧
    (standardCall x).1 = (standardCall x').1 := by
  have hm : ∀ {y y' : List K}, y.Perm y' → mean y = mean y' := fun h => by rw [mean, mean, h.sum_eq, h.length_eq]
  have hv : var x = var x' := by
    unfold var
    rw [hm h]
    congr 1
    funext m
    exact hm (h.map _)
  refine ⟨standardCell x, rfl, ?_, ?_⟩
  · rw [standardCall_cells]
    congr 1
    funext v
    simp only [standardCell, hm h, hv]
  · simp only [standardCall, hm h, hv]

/-- C204 is false: on all data with positive variance the result depends on the unit; it is the same only if the unit is. -/
theorem C204_violated (x : List K) (s : K) (hs : IsVar x s) (h0 : 0 < s) (a b : K) (ha : a ≠ 0) :
    (standardCall (x.map fun v => a * v + b)).2 = (standardCall x).2 ↔ a = 1 := by
  constructor
  · intro h
    obtain ⟨m, h1, h2⟩ := id hs
    have hm := (isMean_iff m).1 h1
    rw [C204_units x a b ha, standard_eq hm ((isVar_iff s).1 hs) h0.ne'] at h
    have hne : ∃ v ∈ x, v - m ≠ 0 := by
      by_contra hc
      push Not at hc
      have hz : (x.map fun v => (v - m) ^ 2).sum = 0 := by
        apply List.sum_eq_zero
        intro u hu
        obtain ⟨v, hv, rfl⟩ := List.mem_map.1 hu
        rw [hc v hv]; ring
      have := h2.2
      rw [hz] at this
      have hl : (0 : K) < (x.map fun v => (v - m) ^ 2).length := by exact_mod_cast List.length_pos_of_ne_nil h2.1
      rcases mul_eq_zero.1 this with h3 | h3
      · exact h0.ne' h3
      · exact hl.ne' h3
    obtain ⟨v, hv, hv0⟩ := hne
    simp only [List.map_map, List.map_inj_left, Function.comp, Option.map_some, Option.some.injEq] at h
    have := h v hv
    have h4 : (v - m) / s ≠ 0 := div_ne_zero hv0 h0.ne'
    rw [div_eq_iff ha] at this
    exact (mul_left_cancel₀ h4 (by rw [mul_one]; exact this)).symm
  · rintro rfl
    have := C204_units x 1 b one_ne_zero
    rw [this]
    simp

/-- C204 for tables scaled along `axis=0`. -/
theorem C204_table (t : Tab K) (a b : Nat → K) (ha : ∀ j, a j ≠ 0) : ∃ r r', scaleTable0 standardCell t = .ok r ∧
    scaleTable0 standardCell (t.rescale a b) = .ok r' ∧ r'.rows = r.rows ∧ r'.cols = r.cols ∧ ∀ i j, r'.e i j = (r.e i j).map fun z => z / a j := by
  refine ⟨_, _, if_pos rfl, if_pos rfl, rfl, rfl, fun i j => ?_⟩
  dsimp only
  rw [Tab.rescale_col]
  exact standard_cell_affine _ _ _ _ (ha j)

/-- The hypotheses are met: the same lengths in metres and in centimetres. -/
example : IsVar ([1, 3] : List ℚ) 1 ∧ (standardCall ([1, 3] : List ℚ)).2 = [some (-1), some 1] ∧
    (standardCall ([100, 300] : List ℚ)).2 = [some (-1 / 100), some (1 / 100)] := by
  refine ⟨⟨2, ⟨by decide, by norm_num⟩, by decide, by norm_num⟩, ?_, ?_⟩ <;> decide +kernel

end Scalers

/-! ## Encoders -/

section Encoders
variable {K : Type*} [Field K] [LinearOrder K] [IsStrictOrderedRing K] {α β : Type*} [LinearOrder α] [LinearOrder β]

theorem rank_map (φ : α → β) (hφ : StrictMono φ) (labels : List α) (l : α) : rank (labels.map φ) (φ l) = rank labels l := by
  unfold rank
  rw [← Finset.card_map ⟨φ, hφ.injective⟩]
  congr 1
  ext c
  simp only [Finset.mem_filter, List.mem_toFinset, List.mem_map, Finset.mem_map, Function.Embedding.coeFn_mk]
  constructor
  · rintro ⟨⟨a, ha, rfl⟩, h⟩; exact ⟨a, ⟨ha, hφ.lt_iff_lt.1 h⟩, rfl⟩
  · rintro ⟨a, ⟨ha, h⟩, rfl⟩; exact ⟨⟨a, ha, rfl⟩, hφ.lt_iff_lt.2 h⟩

theorem numClasses_map (φ : α → β) (hφ : StrictMono φ) (labels : List α) : numClasses (labels.map φ) = numClasses labels := by
  unfold numClasses
  rw [← Finset.card_map ⟨φ, hφ.injective⟩]
  congr 1
  ext c
  simp

theorem dummy_eq (d : Dict α Nat) (labels : List α) : dummyCall (K := K) d labels =
    .ok (labels.map fun l => (List.replicate (npUnique labels).length 0).set (rank labels l) 1, fillIndices d id (npUnique labels)) := by
  simp only [dummyCall]
  rw [mapM_ok (g := fun l => (List.replicate (npUnique labels).length (0 : K)).set (rank labels l) 1)]
  · rfl
  · intro l hl
    simp only [look, fillIndices_get, hl, if_true, id, Except.bind]
    unfold unitRow
    rw [if_pos (by rw [length_npUnique]; exact rank_lt hl)]

theorem margin_eq (d : Dict α K) (labels : List α) : maxMarginCall d labels =
    .ok (labels.map fun l => if rank labels l = 0 then -1 else 1, fillIndices d (fun j => if j = 0 then -1 else 1) (npUnique labels)) := by
  simp only [maxMarginCall]
  rw [mapM_ok (g := fun l => if rank labels l = 0 then (-1 : K) else 1)]
  · rfl
  · intro l hl
    simp only [look, fillIndices_get, hl, if_true]

/-- C205: renaming the classes without changing their order does not change the encoded rows, whatever the encoders encoded before. -/
theorem C205_renaming (φ : α → β) (hφ : StrictMono φ) (labels : List α) (d1 : Dict α (List K)) (e1 : Dict β (List K)) (d2 : Dict α Nat) (e2 : Dict β Nat)
    (d3 : Dict α K) (e3 : Dict β K) :
    (oneHotCall e1 (labels.map φ)).map Prod.fst = (oneHotCall d1 labels).map Prod.fst ∧
    (dummyCall (K := K) e2 (labels.map φ)).map Prod.fst = (dummyCall d2 labels).map Prod.fst ∧
    (maxMarginCall e3 (labels.map φ)).map Prod.fst = (maxMarginCall d3 labels).map Prod.fst := by
  refine ⟨?_, ?_, ?_⟩
  · rw [oneHot_eq, oneHot_eq]
    simp only [Except.map, List.map_map, length_npUnique, numClasses_map φ hφ, Function.comp_def, rank_map φ hφ]
  · rw [dummy_eq, dummy_eq]
    simp only [Except.map, List.map_map, length_npUnique, numClasses_map φ hφ, Function.comp_def, rank_map φ hφ]
  · rw [margin_eq, margin_eq]
    simp only [Except.map, List.map_map, Function.comp_def, rank_map φ hφ]

/-- C205: samples in another order get the same rows: one function of the label serves both orders. -/
theorem C205_order (labels labels' : List α) (h : labels.Perm labels') (d : Dict α (List K)) (d2 : Dict α Nat) (d3 : Dict α K) :
    ∃ (f f2 : α → List K) (f3 : α → K),
      (oneHotCall d labels).map Prod.fst = .ok (labels.map f) ∧ (oneHotCall d labels').map Prod.fst = .ok (labels'.map f) ∧
      (dummyCall d2 labels).map Prod.fst = .ok (labels.map f2) ∧ (dummyCall d2 labels').map Prod.fst = .ok (labels'.map f2) ∧
      (maxMarginCall d3 labels).map Prod.fst = .ok (labels.map f3) ∧ (maxMarginCall d3 labels').map Prod.fst = .ok (labels'.map f3) := by
  have hs : labels.toFinset = labels'.toFinset := by ext a; simp [h.mem_iff]
  have hr : rank labels' = rank labels := by funext a; simp only [rank, hs]
  have hn : numClasses labels' = numClasses labels := by simp only [numClasses, hs]
  refine ⟨fun l => (List.replicate (npUnique labels).length 0).set (rank labels l) 1, fun l => (List.replicate (npUnique labels).length 0).set (rank labels l) 1,
    fun l => if rank labels l = 0 then -1 else 1, ?_, ?_, ?_, ?_, ?_, ?_⟩
  · rw [oneHot_eq]; rfl
  · rw [oneHot_eq]; simp only [Except.map, length_npUnique, hn, hr]
  · rw [dummy_eq]; rfl
  · rw [dummy_eq]; simp only [Except.map, length_npUnique, hn, hr]
  · rw [margin_eq]; rfl
  · rw [margin_eq]; simp only [Except.map, hr]

/-- The hypotheses are met: 0/1 labels written as -1/1. -/
example : (oneHotCall (K := ℚ) [] ([1, 0, 1].map fun l : Int => 2 * l - 1)).map Prod.fst = (oneHotCall [] ([1, 0, 1] : List Int)).map Prod.fst ∧
    StrictMono (fun l : Int => 2 * l - 1) := by
  have h : StrictMono (fun l : Int => 2 * l - 1) := fun a b hab => by dsimp only; omega
  exact ⟨(C205_renaming _ h _ _ _ [] [] [] []).1, h⟩

end Encoders
end CML.Prep

/-! ## Metrics and losses -/

namespace CML.Metrics
variable {K : Type*} [Field K] [LinearOrder K] [IsStrictOrderedRing K]

/-- C206: the accuracies depend only on which pairs of prediction and label there are, not on their order; both engines. -/
theorem C206_binary (pairs pairs' : List (K × Int)) (h : pairs.Perm pairs') :
    binaryAccuracy (pairs.map Prod.fst) (pairs.map Prod.snd) = binaryAccuracy (pairs'.map Prod.fst) (pairs'.map Prod.snd) ∧
    binaryAccuracyCC (pairs.map Prod.fst) (pairs.map Prod.snd) = binaryAccuracyCC (pairs'.map Prod.fst) (pairs'.map Prod.snd) := by
  have hz : ∀ l : List (K × Int), (l.map Prod.fst).zip (l.map Prod.snd) = l := fun l => by
    induction l with
    | nil => rfl
    | cons a l ih => simp [ih]
  have key : binaryAccuracy (pairs.map Prod.fst) (pairs.map Prod.snd) = binaryAccuracy (pairs'.map Prod.fst) (pairs'.map Prod.snd) := by
    simp only [binaryAccuracy, hz, List.length_map, h.length_eq, h.countP_eq]
  refine ⟨key, ?_⟩
  simp only [binaryAccuracyCC, List.length_map, ne_eq, not_true_eq_false, if_false]
  exact key

/-- `f` on both parts of a pair. -/
def both {α β : Type*} (f : α → Option β) (q : α × α) : Option (β × β) :=
  match f q.1, f q.2 with
  | some a, some b => some (a, b)
  | _, _ => none

/-- Two lists, if both are there, zipped. -/
def zipBoth {β : Type*} (a b : Option (List β)) : Option (List (β × β)) :=
  match a, b with
  | some a, some b => some (a.zip b)
  | _, _ => none

theorem mapM_pairs {α β : Type*} (f : α → Option β) : ∀ l : List (α × α),
    zipBoth ((l.map Prod.fst).mapM f) ((l.map Prod.snd).mapM f) = l.mapM (both f)
  | [] => rfl
  | q :: l => by
    have ih := mapM_pairs f l
    simp only [List.map_cons, List.mapM_cons]
    rw [← ih]
    unfold both
    cases f q.1 <;> cases f q.2 <;> cases (l.map Prod.fst).mapM f <;> cases (l.map Prod.snd).mapM f <;> rfl

theorem mapM_length {α β : Type*} {f : α → Option β} : ∀ {l : List α} {r : List β}, l.mapM f = some r → r.length = l.length
  | [], r, h => by cases h; rfl
  | a :: l, r, h => by
    rw [List.mapM_cons] at h
    cases ha : f a with
    | none => simp [ha] at h
    | some b =>
      cases hl : l.mapM f with
      | none => simp [ha, hl] at h
      | some r' =>
        simp [ha, hl] at h
        rw [← h, List.length_cons, List.length_cons, mapM_length hl]

theorem mapM_perm {α β : Type*} (f : α → Option β) {l l' : List α} (h : l.Perm l') :
    (l.mapM f = none ∧ l'.mapM f = none) ∨ ∃ r r', l.mapM f = some r ∧ l'.mapM f = some r' ∧ r.Perm r' := by
  induction h with
  | nil => exact .inr ⟨[], [], rfl, rfl, .nil⟩
  | cons a _ ih =>
    simp only [List.mapM_cons]
    cases f a with
    | none => exact .inl ⟨rfl, rfl⟩
    | some b =>
      rcases ih with ⟨h1, h2⟩ | ⟨r, r', h1, h2, h3⟩
      · left; simp [h1, h2]
      · right; exact ⟨b :: r, b :: r', by simp [h1], by simp [h2], h3.cons b⟩
  | swap a b l =>
    simp only [List.mapM_cons]
    cases f a <;> cases f b <;> cases hl : l.mapM f
    all_goals first
      | (left; simp; done)
      | (right; exact ⟨_, _, rfl, rfl, .swap ..⟩)
  | trans _ _ ih1 ih2 =>
    rcases ih1 with ⟨h1, h2⟩ | ⟨r, r', h1, h2, h3⟩
    · rcases ih2 with ⟨h4, h5⟩ | ⟨s, s', h4, h5, h6⟩
      · exact .inl ⟨h1, h5⟩
      · rw [h2] at h4; cases h4
    · rcases ih2 with ⟨h4, h5⟩ | ⟨s, s', h4, h5, h6⟩
      · rw [h2] at h4; cases h4
      · rw [h2] at h4; cases h4
        exact .inr ⟨r, s', h1, h5, h3.trans h6⟩

theorem categorical_pairs (pairs : List (List K × List K)) : categoricalAccuracy (pairs.map Prod.fst) (pairs.map Prod.snd) =
    match pairs.mapM (both argmax?) with
    | none => .error .valueError
    | some l => if l.length = 0 then .error .zeroDivision else .ok ((l.countP fun q => decide (q.1 = q.2) : Nat) / (l.length : K)) := by
  rw [← mapM_pairs]
  unfold categoricalAccuracy argmaxRows
  cases h1 : (pairs.map Prod.fst).mapM argmax? with
  | none => rfl
  | some a =>
    cases h2 : (pairs.map Prod.snd).mapM argmax? with
    | none => rfl
    | some b =>
      have hl : a.length = b.length := by
        have e1 := mapM_length h1
        have e2 := mapM_length h2
        rw [e1, e2]; simp
      simp only [hl, if_true, zipBoth]

/-- C206 for the categorical accuracy. -/
theorem C206_categorical (pairs pairs' : List (List K × List K)) (h : pairs.Perm pairs') :
    categoricalAccuracy (pairs.map Prod.fst) (pairs.map Prod.snd) = categoricalAccuracy (pairs'.map Prod.fst) (pairs'.map Prod.snd) := by
  rw [categorical_pairs, categorical_pairs]
  rcases mapM_perm (both (argmax? (α := K))) h with ⟨h1, h2⟩ | ⟨r, r', h1, h2, h3⟩
  · rw [h1, h2]
  · rw [h1, h2]
    simp only [h3.length_eq, h3.countP_eq]

end CML.Metrics

namespace CML
open Finset
variable {n k : Nat}

/-- C206 for the losses: the samples may be taken in any order. -/
theorem C206_losses (e : Equiv.Perm (Fin n)) (p y : Fin n → ℝ) (P Y : Fin n → Fin k → ℝ) :
    binaryCrossentropy (p ∘ e) (y ∘ e) = binaryCrossentropy p y ∧ categoricalCrossentropy (P ∘ e) (Y ∘ e) = categoricalCrossentropy P Y ∧
    crossentropy (P ∘ e) (Y ∘ e) = crossentropy P Y ∧ logLikelihoodOf (y ∘ e) (p ∘ e) = logLikelihoodOf y p ∧
    meanSquaredError (p ∘ e) (y ∘ e) = meanSquaredError p y ∧ meanSquaredErrorBroadcast (p ∘ e) (y ∘ e) = meanSquaredErrorBroadcast p y := by
  have hb : ∀ p y : Fin n → ℝ, binaryCrossentropy (p ∘ e) (y ∘ e) = binaryCrossentropy p y := by
    intro p y
    simp only [binaryCrossentropy, Function.comp]
    rw [Equiv.sum_comp e fun i => y i * Real.log (p i), Equiv.sum_comp e fun i => (1 - y i) * Real.log (1 - p i)]
  have hc : categoricalCrossentropy (P ∘ e) (Y ∘ e) = categoricalCrossentropy P Y := by
    simp only [categoricalCrossentropy, Function.comp]
    rw [Equiv.sum_comp e fun i => ∑ j, Y i j * Real.log (P i j)]
  refine ⟨hb p y, hc, ?_, ?_, ?_, ?_⟩
  · unfold crossentropy
    by_cases h : k = 1
    · rw [dif_pos h, dif_pos h]
      exact hb (fun i => P i ⟨0, by omega⟩) (fun i => Y i ⟨0, by omega⟩)
    · rw [dif_neg h, dif_neg h]; exact hc
  · simp only [logLikelihoodOf, Function.comp]
    rw [Equiv.sum_comp e fun i => -y i * p i + Real.log (1 + Real.exp (p i))]
  · simp only [meanSquaredError, Function.comp]
    rw [Equiv.sum_comp e fun i => p i - y i]
  · simp only [meanSquaredErrorBroadcast, Function.comp]
    rw [Equiv.sum_comp e fun i => ∑ j, (p i - y (e j))]
    congr 2
    refine sum_congr rfl fun i _ => ?_
    rw [Equiv.sum_comp e fun j => p i - y j]

/-- C206: renaming the classes (the columns) does not change the categorical cross entropy. -/
theorem C206_class_order (e : Equiv.Perm (Fin k)) (P Y : Fin n → Fin k → ℝ) :
    categoricalCrossentropy (fun i j => P i (e j)) (fun i j => Y i (e j)) = categoricalCrossentropy P Y := by
  simp only [categoricalCrossentropy]
  congr 2
  refine sum_congr rfl fun i _ => ?_
  rw [Equiv.sum_comp e fun j => Y i j * Real.log (P i j)]

end CML
