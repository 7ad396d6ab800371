import Verif.Lemmas.TreePrune
import Verif.Lemmas.TreeCriteria
import Mathlib.Algebra.Order.Ring.Rat
import Mathlib.Algebra.Field.Rat
import Mathlib.Data.Fin.VecNotation

set_option linter.unusedSectionVars false

/-! # Properties C21 to C28 (decision trees and their pruning) -/

namespace CML.DTree

universe u w
variable {V : Type u} {K : Type w} {m : Nat} [DecidableEq V] [LinearOrder K]

/-! ## A concrete instance, for the examples -/

/-- The first most frequent label. -/
def majFirst (ys : List Int) : Option Int :=
  match argmax? ((pyUnique ys).map fun c => ys.count c) with
  | none => none
  | some i => (pyUnique ys)[i]?

theorem majFirst_ok : MajOK majFirst := by
  refine ⟨by decide, ?_⟩
  intro ys hys
  have hne : (pyUnique ys).map (fun c => ys.count c) ≠ [] := by
    cases ys with
    | nil => exact absurd rfl hys
    | cons c ys => simp [pyUnique]
  obtain ⟨i, hi⟩ := argmax?_isSome hne
  obtain ⟨v, hv, hmax, -⟩ := argmax?_spec hi
  simp only [List.getElem?_map, Option.map_eq_some_iff] at hv
  obtain ⟨c, hc, rfl⟩ := hv
  refine ⟨c, by simp [majFirst, hi, hc], mem_pyUnique.1 (List.mem_of_getElem? hc), ?_⟩
  intro d
  by_cases hd : d ∈ ys
  · exact hmax _ (List.mem_map.2 ⟨d, mem_pyUnique.2 hd, rfl⟩)
  · rw [List.count_eq_zero_of_not_mem hd]; exact Nat.zero_le _

/-- `type_of_target(column) == 'continuous'` for rational columns: some entry is not an integer. -/
def ratCont (D : List ℚ) : Bool := D.any fun q => q.den ≠ 1

/-- The generator with the Gini criterion on rational data. -/
def giniOracle (m : Nat) : Oracle ℚ ℚ m := criterionOracle gini id ratCont majFirst id

/-- The generator with the Gini criterion on discrete data. -/
def giniDiscrete (m : Nat) : Oracle ℚ ℚ m := criterionOracle gini id (fun _ => false) majFirst id

/-- The test holds of the result. -/
def onOk {α : Type*} (x : Except PyErr α) (p : α → Bool) : Bool :=
  match x with
  | .ok t => p t
  | .error _ => false

/-- The call raises `e`. -/
def raises {α : Type*} (x : Except PyErr α) (e : PyErr) : Bool :=
  match x with
  | .ok _ => false
  | .error e' => decide (e' = e)

theorem raises_iff {α : Type*} {x : Except PyErr α} {e : PyErr} : raises x e = true ↔ x = .error e := by
  cases x <;> simp [raises]

theorem exists_ok {α : Type*} {x : Except PyErr α} (p : α → Bool)
    (h : onOk x p = true) : ∃ t, x = .ok t ∧ p t = true := by
  cases x with
  | ok t => exact ⟨t, rfl, h⟩
  | error e => simp [onOk] at h

/-! ## C21 -/

/-- C21 (for the attributes the tree tests by value): `predict` returns a leaf label for every row whose value of each attribute
tested by value occurs in the training column. -/
theorem C21_predict_succeeds_partial (o : Oracle V K m) (limit : Nat) (xs : List (Row V m)) (ys : List Int) (t : Tree V K m)
    (hfit : fit o limit xs ys = .ok t) (r : Row V m) (hr : ∀ a ∈ t.discAttrs, r a ∈ xs.map fun q => q a) :
    ∃ c ∈ t.cats, predict o.num r t = .ok c := by
  obtain ⟨c, hc⟩ := predict_ok o.num r xs t (generate_covers o xs _ _ _ _ _ hfit) hr
  rcases predict_cases o.num r xs t with ⟨d, hd, h⟩ | h
  · exact ⟨d, hd, h⟩
  · rw [hc] at h; simp at h

/-- C21: the only failure is `KeyError`, and it needs an attribute tested by value with a value outside its training column. -/
theorem C21_only_keyError (o : Oracle V K m) (limit : Nat) (xs : List (Row V m)) (ys : List Int) (t : Tree V K m)
    (hfit : fit o limit xs ys = .ok t) (r : Row V m) (e : PyErr) (he : predict o.num r t = .error e) :
    e = .keyError ∧ ∃ a ∈ t.discAttrs, r a ∉ xs.map fun q => q a := by
  constructor
  · rcases predict_cases o.num r xs t with ⟨d, hd, h⟩ | h
    · rw [he] at h; simp at h
    · rw [he] at h; simpa using h
  · by_contra hno
    have : ∀ a ∈ t.discAttrs, r a ∈ xs.map fun q => q a := by
      intro a ha
      by_contra hna
      exact hno ⟨a, ha, hna⟩
    obtain ⟨c, -, hc⟩ := C21_predict_succeeds_partial o limit xs ys t hfit r this
    rw [he] at hc; simp at hc

/-- C21 is false for numerical attributes: on the training column 0.5, 1, 2 (continuous) the generator splits at 0.75, sees the
integers 1, 2 below, and tests them by value; the new row 1.5 then raises `KeyError`. -/
theorem C21_numeric_keyError :
    ∃ (xs : List (Row ℚ 1)) (ys : List Int) (t : Tree ℚ ℚ 1), ratCont (xs.map fun r => r 0) = true ∧
      fit (giniOracle 1) 10 xs ys = .ok t ∧ ∃ r : Row ℚ 1, predict id r t = .error .keyError := by
  obtain ⟨t, h1, h2⟩ := exists_ok (x := fit (giniOracle 1) 10 [![1/2], ![1], ![2]] [0, 1, 2])
    (fun t => decide (predict id ![3/2] t = .error .keyError)) (by decide +kernel)
  exact ⟨_, _, t, by decide +kernel, h1, _, of_decide_eq_true h2⟩

/-! ## C22 -/

/-- C22: every leaf, hence every prediction, is a training label. -/
theorem C22_labels (o : Oracle V K m) (hm : MajOK o.maj) (limit : Nat) (xs : List (Row V m)) (ys : List Int) (t : Tree V K m)
    (hfit : fit o limit xs ys = .ok t) :
    (∀ c ∈ t.cats, c ∈ ys) ∧ ∀ r c, predict o.num r t = .ok c → c ∈ ys := by
  have h1 := generate_cats o xs hm _ _ _ _ _ hfit
  refine ⟨h1, fun r c hc => ?_⟩
  rcases predict_cases o.num r xs t with ⟨d, hd, h⟩ | h
  · rw [hc] at h
    simp only [Except.ok.injEq] at h
    rw [h]; exact h1 d hd
  · rw [hc] at h; simp at h

/-! ## C23 -/

/-- C23: whatever the criterion chooses (also continuous splits, and dividing points rounded in any way), a tree fitted to a
consistent training set predicts every training label. -/
theorem C23_training_exact (o : Oracle V K m) (limit : Nat) (xs : List (Row V m)) (ys : List Int) (t : Tree V K m)
    (hlen : xs.length = ys.length) (hcons : Consistent (xs.zip ys)) (hfit : fit o limit xs ys = .ok t) :
    ∀ q ∈ xs.zip ys, predict o.num q.1 t = .ok q.2 :=
  generate_correct o xs _ _ _ _ _ hfit hlen (fun _ h => h) (fun a ha => absurd (List.mem_finRange a) ha) hcons

/-- C23: with discrete attributes generation succeeds (for any criterion that proposes a remaining attribute) as soon as the
recursion limit exceeds the number of attributes. -/
theorem C23_discrete_succeeds (o : Oracle V K m) (hm : MajOK o.maj) (hs : DiscreteSplits o) (limit : Nat) (hl : m < limit)
    (xs : List (Row V m)) (ys : List Int) (hys : ys ≠ []) : ∃ t, fit o limit xs ys = .ok t :=
  generate_ok o xs hm hs _ _ _ _ (by simpa using hl) hys

/-- C23: with discrete and continuous attributes mixed and dividing points computed exactly, generation with the criteria of the
code (any impurity) succeeds on every consistent training set, as soon as the recursion limit exceeds attributes plus rows. -/
theorem C23_mixed_succeeds {K : Type w} [Field K] [LinearOrder K] [IsStrictOrderedRing K] (imp : List Int → K) (num : V → K)
    (isCont : List V → Bool)
    (hnum : ∀ D, isCont D = true → ∀ v ∈ D, ∀ w ∈ D, num v = num w → v = w) (maj : List Int → Option Int) (hm : MajOK maj)
    (limit : Nat) (xs : List (Row V m)) (ys : List Int) (hl : m + xs.length < limit) (hlen : xs.length = ys.length)
    (hys : ys ≠ []) (hcons : Consistent (xs.zip ys)) :
    ∃ t, fit (criterionOracle imp num isCont maj id) limit xs ys = .ok t ∧ ∀ q ∈ xs.zip ys, predict num q.1 t = .ok q.2 := by
  obtain ⟨t, ht⟩ := generate_succeeds (criterionOracle imp num isCont maj id) xs hm
    (criterionOracle_good imp num isCont maj id hnum) (fun a r _ s _ h => ⟨(midpoint_between h).1, (midpoint_between h).2.le⟩) limit (List.finRange m) xs ys
    (fun _ h => h) (by simpa using hl) hlen hys
    (fun a ha => absurd (List.mem_finRange a) ha) hcons
  exact ⟨t, ht, C23_training_exact _ _ _ _ _ hlen hcons ht⟩

example : ∃ t, fit (giniOracle 2) 10 [![1/2, 0], ![3/2, 1], ![3/2, 0], ![5/2, 1]] [0, 1, 2, 1] = .ok t ∧
    ∀ q ∈ [![1/2, 0], ![3/2, 1], ![3/2, 0], ![5/2, 1]].zip [0, 1, 2, 1], predict id q.1 t = .ok q.2 :=
  C23_mixed_succeeds gini id ratCont (by intro D _ v _ w _ h; exact h) majFirst majFirst_ok 10 _ _ (by decide) rfl (by simp)
    (by unfold Consistent; decide +kernel)

/-- Rounded dividing points: if the dividing point is rounded to a grid that does not separate the two values (as single
precision does for two close double-precision values), generation recurses without end although the training set is consistent. -/
theorem C23_rounding_diverges (limit : Nat) :
    fit (criterionOracle gini id ratCont majFirst fun t => (t.num / t.den : Int) : Oracle ℚ ℚ 1) limit
      [![1/4], ![3/4]] [0, 1] = .error .recursionError := by
  have step : ∀ cols : List (Fin 1), cols = List.finRange 1 →
      fit (criterionOracle gini id ratCont majFirst fun t => (t.num / t.den : Int) : Oracle ℚ ℚ 1) limit
      [![1/4], ![3/4]] [0, 1] = .error .recursionError := by
    intro cols hcols
    unfold fit
    generalize hfull : ([![1/4], ![3/4]] : List (Row ℚ 1)) = full
    rw [← hcols]
    generalize hxs : full = xs
    rw [← hxs] at *
    clear hxs
    induction limit with
    | zero => rfl
    | succ n ih =>
      unfold generate
      rw [if_neg (by decide)]
      rw [if_neg (by subst hfull; subst hcols; decide)]
      have hsp : (criterionOracle gini id ratCont majFirst fun t => (t.num / t.den : Int) : Oracle ℚ ℚ 1).split cols full [0, 1]
          = some (0, some (1/2)) := by
        subst hfull; subst hcols; decide +kernel
      rw [hsp]
      simp only
      have h0 : (full.filter fun r => decide ((criterionOracle gini id ratCont majFirst fun t => (t.num / t.den : Int) :
          Oracle ℚ ℚ 1).fl (1/2) ≤ (criterionOracle gini id ratCont majFirst fun t => (t.num / t.den : Int) :
          Oracle ℚ ℚ 1).num (r 0))) = full := by
        subst hfull; decide +kernel
      have h1 : selY (fun r => decide ((criterionOracle gini id ratCont majFirst fun t => (t.num / t.den : Int) :
          Oracle ℚ ℚ 1).fl (1/2) ≤ (criterionOracle gini id ratCont majFirst fun t => (t.num / t.den : Int) :
          Oracle ℚ ℚ 1).num (r 0))) full [0, 1] = [0, 1] := by
        subst hfull; decide +kernel
      rw [h0, h1, ih]
  exact step _ rfl

/-! ## C24 -/

section C24
variable {K : Type w} [Field K] [LinearOrder K]

/-- C24 (gini, entropy; any impurity): the chosen attribute is the first one with the smallest criterion value, and it comes with
its own criterion value and dividing point. -/
theorem C24_optimal_division (imp : List Int → K) (num : V → K) (isCont : List V → Bool) (cols : List (Fin m))
    (xs : List (Row V m)) (ys : List Int) :
    ∃ value : Fin m → WithTop K × Option (Option K),
      (∀ a, IsCriterion imp num (isCont (xs.map fun r => r a)) (xs.map fun r => r a) ys (value a)) ∧
      ((optimalDivision imp num isCont cols xs ys = (none, ⊤, none) ∧ ∀ a ∈ cols, (value a).1 = ⊤) ∨
       ∃ pre a post, cols = pre ++ a :: post ∧ optimalDivision imp num isCont cols xs ys = (some a, value a) ∧
        (value a).1 ≠ ⊤ ∧ (∀ b ∈ pre, (value a).1 < (value b).1) ∧ ∀ b ∈ post, (value a).1 ≤ (value b).1) := by
  refine ⟨fun a => getValue imp num (isCont (xs.map fun r => r a)) (xs.map fun r => r a) ys,
    fun a => getValue_spec imp num _ _ _, ?_⟩
  rcases minLoop_spec (fun a => let D := xs.map fun r : Row V m => r a; getValue imp num (isCont D) D ys) cols (none, ⊤, none) with
      ⟨h1, h2⟩ | ⟨pre, a, post, hl, h1, h2, h3, h4⟩
  · exact .inl ⟨h1, fun a ha => top_le_iff.1 (h2 a ha)⟩
  · exact .inr ⟨pre, a, post, hl, h1, ne_of_lt h2, h3, h4⟩

/-- C24 (information gain): the chosen attribute is the first one with the largest gain (the impurity of the labels minus the
criterion value; minus infinity if there is no candidate split). -/
theorem C24_gain_division (imp : List Int → K) (num : V → K) (isCont : List V → Bool) (cols : List (Fin m))
    (xs : List (Row V m)) (ys : List Int) :
    ∃ (value : Fin m → WithTop K × Option (Option K)) (gain : Fin m → WithBot K),
      (∀ a, IsCriterion imp num (isCont (xs.map fun r => r a)) (xs.map fun r => r a) ys (value a)) ∧
      (∀ a, ((value a).1 = ⊤ ∧ gain a = ⊥) ∨ ∃ v : K, (value a).1 = v ∧ gain a = ((imp ys - v : K) : WithBot K)) ∧
      ((gainDivision imp num isCont cols xs ys = (none, ⊥, none) ∧ ∀ a ∈ cols, gain a = ⊥) ∨
       ∃ pre a post, cols = pre ++ a :: post ∧ gainDivision imp num isCont cols xs ys = (some a, gain a, (value a).2) ∧
        gain a ≠ ⊥ ∧ (∀ b ∈ pre, gain b < gain a) ∧ ∀ b ∈ post, gain b ≤ gain a) := by
  refine ⟨fun a => getValue imp num (isCont (xs.map fun r => r a)) (xs.map fun r => r a) ys,
    fun a => gainOf (imp ys) (getValue imp num (isCont (xs.map fun r => r a)) (xs.map fun r => r a) ys).1,
    fun a => getValue_spec imp num _ _ _, ?_, ?_⟩
  · intro a
    simp only
    cases (getValue imp num (isCont (xs.map fun r => r a)) (xs.map fun r => r a) ys).1 with
    | top => exact .inl ⟨rfl, rfl⟩
    | coe v => exact .inr ⟨v, rfl, rfl⟩
  · rcases maxLoop_spec (fun a => let D := xs.map fun r : Row V m => r a; let r := getValue imp num (isCont D) D ys;
      (gainOf (imp ys) r.1, r.2)) cols (none, ⊥, none) with ⟨h1, h2⟩ | ⟨pre, a, post, hl, h1, h2, h3, h4⟩
    · exact .inl ⟨h1, fun a ha => le_bot_iff.1 (h2 a ha)⟩
    · exact .inr ⟨pre, a, post, hl, h1, ne_of_gt h2, h3, h4⟩

example : optimalDivision (m := 2) (gini (K := ℚ)) id ratCont [0, 1] [![1, 1/2], ![1, 3/2], ![0, 5/2], ![0, 7/2]] [0, 1, 1, 1]
    = (some 1, 0, some (some 1)) := by decide +kernel

end C24

/-! ## C25 -/

/-- C25 (leaf count): at every node of a generated tree the recorded number of leaves is the true one. -/
theorem C25_leaves (o : Oracle V K m) (limit : Nat) (xs : List (Row V m)) (ys : List Int) (t : Tree V K m)
    (hfit : fit o limit xs ys = .ok t) : t.All LeavesRight ∧ t.nl = (t.leaves : Int) := by
  have h := generate_leaves o xs _ _ _ _ _ hfit
  exact ⟨h, all_self h⟩

/-- C25 (height): the recorded height is never too small, and it is right at every node if each continuous node has a leaf below
it (in particular if all attributes are discrete). Missing: continuous nodes with two inner branches, see
`C25_height_wrong`. -/
theorem C25_height_partial (o : Oracle V K m) (limit : Nat) (xs : List (Row V m)) (ys : List Int) (t : Tree V K m)
    (hfit : fit o limit xs ys = .ok t) :
    (t.depth : Int) ≤ t.ht ∧ (t.All OneSided → t.All HeightRight ∧ t.ht = (t.depth : Int)) :=
  ⟨generate_height_ge o xs _ _ _ _ _ hfit, fun h1 =>
    let h := generate_height o xs _ _ _ _ _ hfit h1
    ⟨h, all_self h⟩⟩

/-- C25 is false for continuous attributes: a tree of depth 2 with recorded height 3. -/
theorem C25_height_wrong :
    ∃ (xs : List (Row ℚ 1)) (ys : List Int) (t : Tree ℚ ℚ 1),
      fit (giniOracle 1) 10 xs ys = .ok t ∧ t.depth = 2 ∧ t.ht = 3 := by
  obtain ⟨t, h1, h2⟩ := exists_ok
    (x := fit (giniOracle 1) 10 [![1/2], ![3/2], ![3/2], ![5/2], ![5/2], ![7/2]] [0, 1, 1, 2, 2, 3])
    (fun t => decide (t.depth = 2 ∧ t.ht = 3)) (by decide +kernel)
  exact ⟨_, _, t, h1, of_decide_eq_true h2⟩

/-- Discrete attributes: a generated tree of depth 2 with right statistics. -/
example : ∃ t, fit (giniDiscrete 2) 10 [![0, 0], ![0, 1], ![1, 0], ![1, 1]] [0, 1, 1, 0] = .ok t ∧
    t.ht = 2 ∧ t.depth = 2 ∧ t.nl = 4 ∧ t.leaves = 4 := by
  obtain ⟨t, h1, h2⟩ := exists_ok
    (x := fit (giniDiscrete 2) 10 [![0, 0], ![0, 1], ![1, 0], ![1, 1]] [0, 1, 1, 0])
    (fun t => decide (t.ht = 2 ∧ t.depth = 2 ∧ t.nl = 4 ∧ t.leaves = 4)) (by decide +kernel)
  exact ⟨t, h1, of_decide_eq_true h2⟩

/-! ## C26, C27 -/

/-- C26: the post-pruned tree classifies at least as many validation rows correctly as the original, for every tree. -/
theorem C26_validation_score (num : V → K) (maj : List Int → Option Int) (t t' : Tree V K m)
    (train val : List (Row V m × Int)) (h : postPrune num maj t train val = .ok t') :
    correct num t val ≤ correct num t' val := postPrune_correct num maj t train val t' h

/-- C26: post-pruning a fitted tree with its own training data succeeds whenever the validation values of the attributes tested
by value occur in the training columns. -/
theorem C26_succeeds (o : Oracle V K m) (hm : MajOK o.maj) (limit : Nat) (xs : List (Row V m)) (ys : List Int)
    (t : Tree V K m) (val : List (Row V m × Int)) (hlen : xs.length = ys.length) (hfit : fit o limit xs ys = .ok t)
    (hval : ∀ q ∈ val, ∀ a ∈ t.discAttrs, q.1 a ∈ xs.map fun r => r a) :
    ∃ t', postPrune o.num o.maj t (xs.zip ys) val = .ok t' :=
  postPrune_ok o hm xs _ _ _ _ _ _ hfit hlen hval

/-- Post-pruning a fitted tree: hypotheses met, and the score rises from 1 to 2. -/
example : ∃ t t', fit (giniDiscrete 1) 10 [![0], ![0], ![1]] [0, 0, 1] = .ok t ∧
    postPrune id majFirst t ([![0], ![0], ![1]].zip [0, 0, 1]) [(![0], 0), (![1], 0)] = .ok t' ∧
    correct id t [(![0], 0), (![1], 0)] = 1 ∧ correct id t' [(![0], 0), (![1], 0)] = 2 := by
  obtain ⟨t, h1, h2⟩ := exists_ok (x := fit (giniDiscrete 1) 10 [![0], ![0], ![1]] [0, 0, 1])
    (fun t => onOk (postPrune id majFirst t ([![0], ![0], ![1]].zip [0, 0, 1]) [(![0], 0), (![1], 0)]) fun t' => decide (correct id t [(![0], 0), (![1], 0)] = 1 ∧ correct id t' [(![0], 0), (![1], 0)] = 2)) (by decide +kernel)
  obtain ⟨t', h3, h4⟩ := exists_ok _ h2
  exact ⟨t, t', h1, h3, of_decide_eq_true h4⟩

/-- C27 (leaf count): post-pruning keeps the recorded number of leaves right at every node. -/
theorem C27_leaves (num : V → K) (maj : List Int → Option Int) (t t' : Tree V K m) (train val : List (Row V m × Int))
    (h : postPrune num maj t train val = .ok t') (hA : t.All LeavesRight) : t'.All LeavesRight :=
  postPrune_leaves num maj t train val t' h hA

/-- C27 (height): the recorded heights are right if they were before and, in the pruned tree, the branches of each discrete node
are equally deep (in particular for trees with continuous nodes only). Missing: discrete nodes with branches of different depth, see
`C27_height_wrong`. -/
theorem C27_height_partial (num : V → K) (maj : List Int → Option Int) (t t' : Tree V K m) (train val : List (Row V m × Int))
    (h : postPrune num maj t train val = .ok t') (hA : t.All HeightRight) (hB : t.All HasBranch)
    (hL : t'.All LevelBranches) : t'.All HeightRight := postPrune_height num maj t train val t' h hA hB hL

/-- C27 (height) for a fitted tree: if its heights were right and the pruned tree has level branches, all heights are right. -/
theorem C27_height_fitted_partial (o : Oracle V K m) (limit : Nat) (xs : List (Row V m)) (ys : List Int) (hx : xs ≠ [])
    (t t' : Tree V K m) (hfit : fit o limit xs ys = .ok t) (h1 : t.All OneSided) (train val : List (Row V m × Int))
    (h : postPrune o.num o.maj t train val = .ok t') (hL : t'.All LevelBranches) : t'.All HeightRight :=
  postPrune_height o.num o.maj t train val t' h (C25_height_partial o limit xs ys t hfit |>.2 h1).1
    (generate_hasBranch o xs hx _ _ _ _ _ hfit) hL

/-- C27 is false: a tree of depth 2, right before pruning, nothing is pruned, and the height becomes 1. -/
theorem C27_height_wrong :
    ∃ (xs : List (Row ℚ 2)) (ys : List Int) (val : List (Row ℚ 2 × Int)) (t t' : Tree ℚ ℚ 2),
      fit (giniDiscrete 2) 10 xs ys = .ok t ∧ t.ht = 2 ∧ t.depth = 2 ∧
      postPrune id majFirst t (xs.zip ys) val = .ok t' ∧ t'.depth = 2 ∧ t'.ht = 1 := by
  obtain ⟨t, h1, h2⟩ := exists_ok (x := fit (giniDiscrete 2) 10 [![0, 0], ![1, 0], ![1, 1]] [0, 1, 0])
    (fun t => decide (t.ht = 2 ∧ t.depth = 2) &&
      onOk (postPrune id majFirst t ([![0, 0], ![1, 0], ![1, 1]].zip [0, 1, 0]) [(![1, 0], 1), (![1, 1], 0), (![0, 0], 0)]) fun t' => decide (t'.depth = 2 ∧ t'.ht = 1)) (by decide +kernel)
  simp only [Bool.and_eq_true] at h2
  obtain ⟨t', h3, h4⟩ := exists_ok _ h2.2
  exact ⟨_, _, _, t, t', h1, (of_decide_eq_true h2.1).1, (of_decide_eq_true h2.1).2, h3, of_decide_eq_true h4⟩

/-! ## C28 -/

/-- C28 (leaf count): when pre-pruning completes, the recorded number of leaves is right at every node. Missing: completion and
heights, both false (`C28_continuous_fails`, `C28_unseen_fails`, `C28_height_wrong`). -/
theorem C28_leaves_partial [Zero K] (num : V → K) (maj : List Int → Option Int) (t t' : Tree V K m)
    (train val : List (Row V m × Int)) (h : prePrune num maj t train val = .ok t') (hA : t.All LeavesRight) :
    t'.All LeavesRight := prePrune_leaves num maj t train val t' h hA

/-- C28 is false: pre-pruning fails on every tree whose root is a continuous node with a dividing point other than 0. -/
theorem C28_continuous_fails [Zero K] (num : V → K) (maj : List Int → Option Int) (hm : MajOK maj) (a : Fin m) (t : K) (n h : Int)
    (g l : Tree V K m) (train val : List (Row V m × Int)) (ht : t ≠ 0) (hv : val ≠ []) (htr : train ≠ []) :
    prePrune num maj (.cont a t n h g l) train val = .error .indexingError := by
  rw [prePrune, if_neg hv]
  obtain ⟨c, hc, -⟩ := hm.2 (train.map Prod.snd) (by simpa using htr)
  rw [hc]
  simp only
  rw [if_pos ht]

/-- Such a tree is generated from the column 0.5, 1.5. -/
theorem C28_continuous_generated :
    ∃ (xs : List (Row ℚ 1)) (ys : List Int) (t : Tree ℚ ℚ 1), fit (giniOracle 1) 10 xs ys = .ok t ∧
      prePrune id majFirst t (xs.zip ys) [(![1], 0)] = .error .indexingError := by
  obtain ⟨t, h1, h2⟩ := exists_ok (x := fit (giniOracle 1) 10 [![1/2], ![3/2]] [0, 1])
    (fun t => raises (prePrune id majFirst t ([![1/2], ![3/2]].zip [0, 1]) [(![1], 0)]) .indexingError) (by decide +kernel)
  exact ⟨_, _, t, h1, raises_iff.1 h2⟩

/-- C28 is false for discrete attributes: a validation value that has no training row in the node (although it occurs in the
training column) raises `KeyError`. -/
theorem C28_unseen_fails :
    ∃ (xs : List (Row ℚ 2)) (ys : List Int) (t : Tree ℚ ℚ 2) (val : List (Row ℚ 2 × Int)), fit (giniDiscrete 2) 10 xs ys = .ok t ∧
      (∀ q ∈ val, ∀ a, q.1 a ∈ xs.map fun r => r a) ∧ prePrune id majFirst t (xs.zip ys) val = .error .keyError := by
  obtain ⟨t, h1, h2⟩ := exists_ok (x := fit (giniDiscrete 2) 10 [![0, 0], ![0, 1], ![0, 2], ![1, 0], ![1, 1]] [0, 0, 0, 1, 0])
    (fun t => raises (prePrune id majFirst t ([![0, 0], ![0, 1], ![0, 2], ![1, 0], ![1, 1]].zip [0, 0, 0, 1, 0])
        [(![1, 0], 1), (![1, 2], 1)]) .keyError) (by decide +kernel)
  exact ⟨_, _, t, _, h1, by decide +kernel, raises_iff.1 h2⟩

/-- C28 is false: a kept discrete node with only leaves below it gets height 2. -/
theorem C28_height_wrong :
    ∃ (xs : List (Row ℚ 1)) (ys : List Int) (val : List (Row ℚ 1 × Int)) (t t' : Tree ℚ ℚ 1),
      fit (giniDiscrete 1) 10 xs ys = .ok t ∧ t.ht = 1 ∧ t.depth = 1 ∧
      prePrune id majFirst t (xs.zip ys) val = .ok t' ∧ t'.depth = 1 ∧ t'.ht = 2 := by
  obtain ⟨t, h1, h2⟩ := exists_ok (x := fit (giniDiscrete 1) 10 [![0], ![1]] [0, 1])
    (fun t => decide (t.ht = 1 ∧ t.depth = 1) &&
      onOk (prePrune id majFirst t ([![0], ![1]].zip [0, 1]) [(![0], 0), (![1], 1)]) fun t' =>
        decide (t'.depth = 1 ∧ t'.ht = 2)) (by decide +kernel)
  simp only [Bool.and_eq_true] at h2
  obtain ⟨t', h3, h4⟩ := exists_ok _ h2.2
  exact ⟨_, _, _, t, t', h1, (of_decide_eq_true h2.1).1, (of_decide_eq_true h2.1).2, h3, of_decide_eq_true h4⟩

end CML.DTree
