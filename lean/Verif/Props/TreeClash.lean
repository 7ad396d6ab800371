import Verif.Spec.TreeClash
import Verif.Props.TreeSize

set_option linter.unusedSectionVars false

/-!
# Property C309: contradictory rows of continuous attributes

generators.py:282-367, criteria.py:33-172 and decision_tree_classifier.py:126-180.
-/

namespace CML.DTree

universe u w
variable {V : Type u} [DecidableEq V] {K : Type w} [Field K] [LinearOrder K] [IsStrictOrderedRing K] {m : Nat}

lemma clash_split {num : V → K} {isCont : List V → Bool} {fl : K → K} {o : Oracle V K m} (ho : UsesLibrary num isCont fl o)
    (cols : List (Fin m)) (xs : List (Row V m)) (ys : List Int) :
    (o.split cols xs ys = none ∧ ∀ b ∈ cols, ∀ p, ¬ Candidate num isCont xs b p) ∨
    ∃ a ∈ cols, ∃ p, o.split cols xs ys = some (a, p) ∧ Candidate num isCont xs a p := by
  obtain ⟨imp, maj, -, rfl | rfl⟩ := ho
  · rcases C24_generator_choice imp num isCont maj fl cols xs ys with h | ⟨a, ha, p, h1, h2, -⟩
    · exact .inl h
    · exact .inr ⟨a, ha, p, h1, h2⟩
  · rcases C24_generator_choice_gain imp num isCont maj fl cols xs ys with h | ⟨a, ha, p, h1, h2, -⟩
    · exact .inl h
    · exact .inr ⟨a, ha, p, h1, h2⟩

lemma clash_maj {num : V → K} {isCont : List V → Bool} {fl : K → K} {o : Oracle V K m} (ho : UsesLibrary num isCont fl o) :
    MajOK o.maj ∧ o.num = num ∧ o.fl = fl := by
  obtain ⟨imp, maj, h, rfl | rfl⟩ := ho <;> exact ⟨h, rfl, rfl⟩

lemma clash_generate {num : V → K} {isCont : List V → Bool} {fl : K → K} {o : Oracle V K m} (ho : UsesLibrary num isCont fl o)
    (full : List (Row V m)) (r : Row V m) (hr : ∀ a, Fractional isCont (r a)) (c d : Int) (hcd : c ≠ d) (cols : List (Fin m)) (hcols : cols ≠ []) :
    ∀ (fuel : Nat) (xs : List (Row V m)) (ys : List Int), xs.length = ys.length → (r, c) ∈ xs.zip ys → (r, d) ∈ xs.zip ys →
      ∀ t, generate o full fuel cols xs ys ≠ .ok t := by
  intro fuel
  induction fuel with
  | zero => intro xs ys _ _ _ t h; simp [generate] at h
  | succ fuel ih =>
    intro xs ys hlen h1 h2 t h
    have hx : r ∈ xs := (List.of_mem_zip h1).1
    rcases generate_cases h with ⟨e, -, h3, -⟩ | ⟨e, h3, -⟩ | ⟨a, t₀, g, l, -, -, hs, hg, hl, -⟩ | ⟨a, br, -, -, hs, -⟩
    · exact hcd (pyUnique_length_eq_one h3 c (List.of_mem_zip h1).2 d (List.of_mem_zip h2).2)
    · rcases h3 with rfl | h3
      · simp at hx
      · exact hcols h3
    · by_cases hc : o.fl t₀ ≤ o.num (r a)
      · refine ih _ _ (length_selY _ xs ys hlen) ?_ ?_ g hg
        · rw [zip_filter_selY _ xs ys hlen]; exact List.mem_filter.2 ⟨h1, by simpa using hc⟩
        · rw [zip_filter_selY _ xs ys hlen]; exact List.mem_filter.2 ⟨h2, by simpa using hc⟩
      · refine ih _ _ (length_selY _ xs ys hlen) ?_ ?_ l hl
        · rw [zip_filter_selY _ xs ys hlen]; exact List.mem_filter.2 ⟨h1, by simpa using hc⟩
        · rw [zip_filter_selY _ xs ys hlen]; exact List.mem_filter.2 ⟨h2, by simpa using hc⟩
    · rcases clash_split ho cols xs ys with ⟨h3, -⟩ | ⟨b, -, p, h3, h4⟩
      · rw [h3] at hs; simp at hs
      · rw [h3] at hs
        simp only [Option.some.injEq, Prod.mk.injEq] at hs
        obtain ⟨rfl, rfl⟩ := hs
        have := hr b (xs.map fun r => r b) (List.mem_map.2 ⟨r, hx, rfl⟩)
        simp only [Candidate] at h4
        rw [this] at h4
        simp at h4

/-- C309: two equal rows of numbers that are not integers, with different labels, anywhere in the training set: no decision tree is grown. -/
theorem C309_contradiction {num : V → K} {isCont : List V → Bool} {fl : K → K} {o : Oracle V K m} (ho : UsesLibrary num isCont fl o) (hm : 0 < m)
    (limit : Nat) (xs : List (Row V m)) (ys : List Int) (hlen : xs.length = ys.length) (r : Row V m) (hr : ∀ a, Fractional isCont (r a))
    (c d : Int) (hcd : c ≠ d) (h1 : (r, c) ∈ xs.zip ys) (h2 : (r, d) ∈ xs.zip ys) : ∃ e, fit o limit xs ys = .error e := by
  cases h : fit o limit xs ys with
  | error e => exact ⟨e, rfl⟩
  | ok t =>
    refine absurd h (clash_generate ho xs r hr c d hcd (List.finRange m) ?_ limit xs ys hlen h1 h2 t)
    intro h0
    have := congrArg List.length h0
    simp only [List.length_finRange, List.length_nil] at this
    omega

lemma midpoint_differ {D : List K} {t : K} (h : NeighbourMidpoint D t) : ∃ a ∈ D, ∃ b ∈ D, a < t ∧ t < b := by
  obtain ⟨a, ha, b, hb, hab, -, rfl⟩ := h
  exact ⟨a, ha, b, hb, by linarith, by linarith⟩

lemma midpoint_exists {D : List K} {u v : K} (hu : u ∈ D) (hv : v ∈ D) (h : u < v) : ∃ t, NeighbourMidpoint D t := by
  have hne : (D.toFinset.filter fun w => u < w).Nonempty := ⟨v, by simp [hv, h]⟩
  refine ⟨(u + (D.toFinset.filter fun w => u < w).min' hne) / 2, u, hu, _, ?_, ?_, ?_, rfl⟩
  · have := Finset.min'_mem _ hne
    rw [Finset.mem_filter, List.mem_toFinset] at this
    exact this.1
  · have := Finset.min'_mem _ hne
    rw [Finset.mem_filter] at this
    exact this.2
  · intro w hw
    by_cases huw : u < w
    · exact .inr (Finset.min'_le _ _ (by simp [hw, huw]))
    · exact .inl (not_lt.1 huw)

/-- C309: when all rows are equal (numbers that are not integers) but the labels are not, the error is the `ValueError` of the search for a missing
column name. -/
theorem C309_equal_rows {num : V → K} {isCont : List V → Bool} {fl : K → K} {o : Oracle V K m} (ho : UsesLibrary num isCont fl o) (hm : 0 < m)
    (limit : Nat) (hl : 0 < limit) (xs : List (Row V m)) (ys : List Int) (r : Row V m) (hr : ∀ a, Fractional isCont (r a))
    (hx : xs ≠ []) (hall : ∀ v ∈ xs, v = r) (c d : Int) (hcd : c ≠ d) (h1 : c ∈ ys) (h2 : d ∈ ys) : fit o limit xs ys = .error .valueError := by
  obtain ⟨n, rfl⟩ : ∃ n, limit = n + 1 := ⟨limit - 1, by omega⟩
  have hcols : List.finRange m ≠ [] := by
    intro h0
    have := congrArg List.length h0
    simp only [List.length_finRange, List.length_nil] at this
    omega
  have hrx : r ∈ xs := by
    cases xs with
    | nil => exact absurd rfl hx
    | cons v xs => rw [← hall v List.mem_cons_self]; exact List.mem_cons_self
  have hs : o.split (List.finRange m) xs ys = none := by
    rcases clash_split ho (List.finRange m) xs ys with ⟨h, -⟩ | ⟨b, -, p, h3, h4⟩
    · exact h
    · cases p with
      | none =>
        have := hr b (xs.map fun r => r b) (List.mem_map.2 ⟨r, hrx, rfl⟩)
        simp only [Candidate] at h4
        rw [this] at h4
        simp at h4
      | some t =>
        obtain ⟨u, hu, v, hv, h5, h6⟩ := midpoint_differ h4.2
        simp only [List.map_map, List.mem_map, Function.comp] at hu hv
        obtain ⟨p, hp, rfl⟩ := hu
        obtain ⟨q, hq, rfl⟩ := hv
        rw [hall p hp] at h5
        rw [hall q hq] at h6
        exact absurd (lt_trans h5 h6) (lt_irrefl _)
  have h3 : (pyUnique ys).length ≠ 1 := fun h => hcd (pyUnique_length_eq_one h c h1 d h2)
  unfold fit generate
  rw [if_neg h3, if_neg (by rw [not_or]; exact ⟨hx, hcols⟩), hs]

lemma clash_completes {num : V → K} {isCont : List V → Bool} {o : Oracle V K m} (ho : UsesLibrary num isCont id o) (hi : Function.Injective num)
    (full : List (Row V m)) : ∀ (fuel : Nat) (xs : List (Row V m)) (ys : List Int), xs.length = ys.length → xs ≠ [] → xs.length ≤ fuel →
      (∀ r ∈ xs, ∀ a, Fractional isCont (r a)) → Consistent (xs.zip ys) → ∃ t, generate o full fuel (List.finRange m) xs ys = .ok t := by
  obtain ⟨hmaj, hnum, hfl⟩ := clash_maj ho
  intro fuel
  induction fuel with
  | zero =>
    intro xs ys _ hx h
    exact absurd (List.length_pos_of_ne_nil hx) (by omega)
  | succ fuel ih =>
    intro xs ys hlen hx hfuel hfr hcons
    have hys : ys ≠ [] := by
      intro h0
      rw [h0, List.length_nil] at hlen
      exact hx (List.length_eq_zero_iff.1 hlen)
    unfold generate
    split
    · cases ys with
      | nil => exact absurd rfl hys
      | cons c ys => exact ⟨_, rfl⟩
    · rename_i hone
      split
      · obtain ⟨c, hc, -⟩ := hmaj.2 ys hys
        rw [hc]; exact ⟨_, rfl⟩
      · rcases clash_split ho (List.finRange m) xs ys with ⟨hs, hno⟩ | ⟨a, -, p, hs, hcand⟩
        · exfalso
          apply hone
          have hsame : ∀ p ∈ xs, ∀ q ∈ xs, p = q := by
            intro p hp q hq
            funext a
            by_contra hne
            have hcont : isCont (xs.map fun r => r a) = true := hfr p hp a _ (List.mem_map.2 ⟨p, hp, rfl⟩)
            have hpD : num (p a) ∈ (xs.map fun r => r a).map num := List.mem_map.2 ⟨_, List.mem_map.2 ⟨p, hp, rfl⟩, rfl⟩
            have hqD : num (q a) ∈ (xs.map fun r => r a).map num := List.mem_map.2 ⟨_, List.mem_map.2 ⟨q, hq, rfl⟩, rfl⟩
            obtain ⟨t, ht⟩ : ∃ t, NeighbourMidpoint ((xs.map fun r => r a).map num) t := by
              rcases lt_or_gt_of_ne (fun e => hne (hi e) : num (p a) ≠ num (q a)) with h | h
              · exact midpoint_exists hpD hqD h
              · exact midpoint_exists hqD hpD h
            exact hno a (List.mem_finRange a) (some t) ⟨hcont, ht⟩
          refine pyUnique_length_of_const hys fun c hc d hd => ?_
          rw [← map_snd_zip hlen] at hc hd
          obtain ⟨p, hp, rfl⟩ := List.mem_map.1 hc
          obtain ⟨q, hq, rfl⟩ := List.mem_map.1 hd
          exact hcons p hp q hq (hsame _ (List.of_mem_zip (a := p.1) (b := p.2) hp).1 _ (List.of_mem_zip (a := q.1) (b := q.2) hq).1)
        · cases p with
          | none =>
            exfalso
            obtain ⟨r, hr⟩ := List.exists_mem_of_ne_nil xs hx
            have := hfr r hr a (xs.map fun r => r a) (List.mem_map.2 ⟨r, hr, rfl⟩)
            simp only [Candidate] at hcand
            rw [this] at hcand
            simp at hcand
          | some t =>
            obtain ⟨u, hu, v, hv, h5, h6⟩ := midpoint_differ hcand.2
            simp only [List.map_map, List.mem_map, Function.comp] at hu hv
            obtain ⟨p, hp, rfl⟩ := hu
            obtain ⟨q, hq, rfl⟩ := hv
            rw [hs]
            simp only [hfl, id]
            have hsum := split_lengths xs a o.num t
            rw [hnum] at hsum ⊢
            have hq' : q ∈ xs.filter fun r => decide (t ≤ num (r a)) := List.mem_filter.2 ⟨hq, by simpa using h6.le⟩
            have hp' : p ∈ xs.filter fun r => decide (num (r a) < t) := List.mem_filter.2 ⟨hp, by simpa using h5⟩
            have l1 := List.length_pos_of_mem hq'
            have l2 := List.length_pos_of_mem hp'
            have sub : ∀ f : Row V m → Bool, Consistent ((xs.filter f).zip (selY f xs ys)) := by
              intro f
              rw [zip_filter_selY f xs ys hlen]
              exact fun p hp q hq => hcons p (List.mem_of_mem_filter hp) q (List.mem_of_mem_filter hq)
            obtain ⟨g, hg⟩ := ih _ _ (length_selY (fun r => decide (t ≤ num (r a))) xs ys hlen) (List.ne_nil_of_mem hq') (by omega)
              (fun r hr => hfr r (List.mem_of_mem_filter hr)) (sub _)
            obtain ⟨l, hl⟩ := ih _ _ (length_selY (fun r => decide (num (r a) < t)) xs ys hlen) (List.ne_nil_of_mem hp') (by omega)
              (fun r hr => hfr r (List.mem_of_mem_filter hr)) (sub _)
            rw [hg, hl]
            exact ⟨_, rfl⟩

/-- C309 in exact arithmetic: a tree is grown from attributes that are no integers exactly when equal rows have equal labels (recursion limit at least the
number of samples). -/
theorem C309_iff {num : V → K} {isCont : List V → Bool} {o : Oracle V K m} (ho : UsesLibrary num isCont id o) (hi : Function.Injective num) (hm : 0 < m)
    (limit : Nat) (xs : List (Row V m)) (ys : List Int) (hlen : xs.length = ys.length) (hx : xs ≠ []) (hl : xs.length ≤ limit)
    (hfr : ∀ r ∈ xs, ∀ a, Fractional isCont (r a)) : (∃ t, fit o limit xs ys = .ok t) ↔ Consistent (xs.zip ys) := by
  constructor
  · rintro ⟨t, ht⟩ p hp q hq he
    by_contra hne
    obtain ⟨r, c⟩ := p
    obtain ⟨r', d⟩ := q
    obtain rfl : r = r' := he
    obtain ⟨e, h⟩ := C309_contradiction ho hm limit xs ys hlen r (hfr r (List.of_mem_zip hp).1) c d hne hp hq
    rw [h] at ht
    cases ht
  · exact clash_completes ho hi xs limit xs ys hlen hx hl hfr

/-- C127, C128: pruning a tree that asks a question needs training samples: without any there is no majority label (`IndexError`). -/
theorem C127_no_training (num : V → K) (maj : List Int → Option Int) (hm : MajOK maj) (t : Tree V K m) (ht : t.isLeaf = false) (val : List (Row V m × Int))
    (hv : val ≠ []) : postPrune num maj t [] val = .error .indexError ∧ prePrune num maj t [] val = .error .indexError := by
  cases t with
  | leaf c => simp [Tree.isLeaf] at ht
  | cont a p nl h g l =>
    constructor
    · simp only [postPrune, if_neg hv, List.map_nil, hm.1]
    · simp only [prePrune, if_neg hv, List.map_nil, hm.1]
  | disc a nl h br =>
    constructor
    · simp only [postPrune, if_neg hv, List.map_nil, hm.1]
    · simp only [prePrune, if_neg hv, List.map_nil, hm.1]

example : postPrune id majFirst (.cont 0 0 2 1 (.leaf 1) (.leaf 0) : Tree ℚ ℚ 1) [] [(![1], 1)] = .error .indexError :=
  (C127_no_training id majFirst majFirst_ok _ rfl _ (by simp)).1

lemma fractional_rat {q : ℚ} (h : q.den ≠ 1) : Fractional ratCont q := fun _ hD => List.any_eq_true.2 ⟨q, hD, by simpa using h⟩

lemma giniOracle_library (m : Nat) : UsesLibrary id ratCont id (giniOracle m) := ⟨gini, majFirst, majFirst_ok, .inl rfl⟩

/-- Three samples, two of them equal with different labels: refused; without one of the two a tree is grown. -/
example : (∃ e, fit (giniOracle 2) 100 [![1/2, 3/2], ![5/2, 3/2], ![1/2, 3/2]] [0, 1, 1] = .error e) ∧
    ∃ t, fit (giniOracle 2) 100 [![1/2, 3/2], ![5/2, 3/2]] [0, 1] = .ok t :=
  ⟨C309_contradiction (giniOracle_library 2) (by decide) _ _ _ rfl ![1/2, 3/2] (fun a => fractional_rat (by revert a; decide +kernel)) 0 1 (by decide)
    (by decide +kernel) (by decide +kernel),
   (C309_iff (giniOracle_library 2) Function.injective_id (by decide) 100 _ _ rfl (by simp) (by decide)
    (fun r hr a => fractional_rat (by revert r a; decide +kernel))).2 (by unfold Consistent; decide +kernel)⟩

end CML.DTree
