import Verif.Model.Reload
import Verif.Props.Dataset
import Verif.Props.Ensemble

set_option linter.unusedSectionVars false

/-! # Properties C168 (loading leaves the frame alone) and C169 (default seeds) -/

namespace CML.Data
open CML.Prep

/-! ## C168 -/

/-- C168, the part that holds: test sets and unsupervised sets leave the label column alone, and so does every integer column of two classes, every
column of two classes none of which is an answer word. -/
theorem C168_unchanged_partial (labels : List String) (ints : List Int) :
    stringsAfter false labels = labels ∧ intsAfter false ints = ints ∧
    (∀ a b, TwoClasses ints a b → intsAfter true ints = ints) := by
  refine ⟨rfl, rfl, fun a b h => ?_⟩
  simp [intsAfter, npUnique_two h]

/-- C168, two classes of strings: the caller's column is unchanged exactly when neither class is one of the answer words. -/
theorem C168_two_classes_iff (labels : List String) (a b : String) (h : TwoClasses labels a b) :
    stringsAfter true labels = labels ↔ ¬ Positive a ∧ ¬ Negative a ∧ ¬ Positive b ∧ ¬ Negative b := by
  have h1 : ("1" : String) ∉ positiveKeyWords := by decide +kernel
  have h0 : ("0" : String) ∉ negativeKeyWords := by decide +kernel
  have e : stringsAfter true labels =
      labels.map fun l => if l ∈ positiveKeyWords then "1" else if l ∈ negativeKeyWords then "0" else l := by
    simp [stringsAfter, npUnique_two h, replaced_eq]
  rw [e]
  have key : (labels.map fun l => if l ∈ positiveKeyWords then "1" else if l ∈ negativeKeyWords then "0" else l) = labels ↔
      ∀ l ∈ labels, l ∉ positiveKeyWords ∧ l ∉ negativeKeyWords := by
    constructor
    · intro he l hl
      have : (if l ∈ positiveKeyWords then "1" else if l ∈ negativeKeyWords then "0" else l) = l := by
        conv_rhs at he => rw [← List.map_id labels]
        exact (List.map_inj_left.1 he) l hl
      constructor
      · intro hp
        rw [if_pos hp] at this
        rw [← this] at hp
        exact h1 hp
      · intro hn
        by_cases hp : l ∈ positiveKeyWords
        · rw [if_pos hp] at this
          rw [← this] at hp
          exact h1 hp
        · rw [if_neg hp, if_pos hn] at this
          rw [← this] at hn
          exact h0 hn
    · intro hall
      conv_rhs => rw [← List.map_id labels]
      apply List.map_congr_left
      intro l hl
      rw [if_neg (hall l hl).1, if_neg (hall l hl).2]
      rfl
  rw [key]
  constructor
  · intro hall
    exact ⟨(hall a ((h.2 a).2 (.inl rfl))).1, (hall a ((h.2 a).2 (.inl rfl))).2, (hall b ((h.2 b).2 (.inr rfl))).1, (hall b ((h.2 b).2 (.inr rfl))).2⟩
  · rintro ⟨p1, p2, p3, p4⟩ l hl
    rcases (h.2 l).1 hl with rfl | rfl
    · exact ⟨p1, p2⟩
    · exact ⟨p3, p4⟩

/-- C168 is false for every frame whose two classes are a positive and a negative word: a second data set made from the same frame has the same `y`,
but knows the classes "0" and "1" instead of the words (no word has a class index any more). -/
theorem C168_words_second_load {K : Type*} [Field K] [LinearOrder K] (toInt : String → Option Int) (h0 : toInt "0" = some 0) (h1 : toInt "1" = some 1)
    (labels : List String) (pos neg : String) (hp : Positive pos) (hn : Negative neg) (h2 : TwoClasses labels (min pos neg) (max pos neg)) :
    ∃ y d, frameStrings (K := K) toInt .none [] labels = .ok (.ints y, d) ∧ d.get pos ≠ none ∧ d.get neg ≠ none ∧
      secondStrings (K := K) toInt .none labels = .ok (.ints y, [("0", .int 0), ("1", .int 1)]) := by
  have hlen : (npUnique labels).length = 2 := by rw [npUnique_two h2]; rfl
  have hnp : neg ∉ positiveKeyWords := by
    have : ∀ s ∈ negativeKeyWords, s ∉ positiveKeyWords := by decide +kernel
    exact this neg hn
  have hmem : ∀ l, l ∈ labels ↔ l = pos ∨ l = neg := by
    intro l
    rw [h2.2]
    rcases le_total pos neg with h | h
    · rw [min_eq_left h, max_eq_right h]
    · rw [min_eq_right h, max_eq_left h]; exact or_comm
  have haft : stringsAfter true labels = labels.map fun l => if l = pos then "1" else "0" := by
    have : stringsAfter true labels =
        labels.map fun l => if l ∈ positiveKeyWords then "1" else if l ∈ negativeKeyWords then "0" else l := by
      simp [stringsAfter, hlen, replaced_eq]
    rw [this]
    apply List.map_congr_left
    intro l hl
    have hpn : pos ≠ neg := fun e => hnp (e ▸ hp)
    rcases (hmem l).1 hl with rfl | rfl
    · rw [if_pos (show l ∈ positiveKeyWords from hp), if_pos rfl]
    · rw [if_neg hnp, if_pos (show l ∈ negativeKeyWords from hn), if_neg (Ne.symm hpn)]
  have htwo : TwoClasses (stringsAfter true labels) "0" "1" := by
    refine ⟨by decide +kernel, fun l => ?_⟩
    have hpn : pos ≠ neg := fun e => hnp (e ▸ hp)
    rw [haft, List.mem_map]
    constructor
    · rintro ⟨l', _, rfl⟩
      split
      · exact .inr rfl
      · exact .inl rfl
    · rintro (rfl | rfl)
      · exact ⟨neg, (hmem neg).2 (.inr rfl), by rw [if_neg (Ne.symm hpn)]⟩
      · exact ⟨pos, (hmem pos).2 (.inl rfl), by rw [if_pos rfl]⟩
  have hy : ∀ ls : List String, astypeInt toInt (ls.map fun l => if l = pos then "1" else "0") = .ok (ls.map fun l => if l = pos then 1 else 0) := by
    intro ls
    unfold astypeInt
    induction ls with
    | nil => rfl
    | cons l ls ih =>
      rw [List.map_cons, List.mapM_cons, ih]
      by_cases hl : l = pos
      · simp only [if_pos hl, parseLabel, h1, List.map_cons]; rfl
      · simp only [if_neg hl, parseLabel, h0, List.map_cons]; rfl
  have hfirst : binaryStrings toInt labels = .ok (labels.map fun l => if l = pos then 1 else 0, [(min pos neg, 0), (max pos neg, 1)]) := by
    unfold binaryStrings
    have : replaceWords negativeKeyWords "0" (replaceWords positiveKeyWords "1" labels) = labels.map fun l => if l = pos then "1" else "0" := by
      rw [← haft]; simp [stringsAfter, hlen]
    rw [this, hy, binaryIndices_two h2]
    rfl
  have hsec : binaryStrings toInt (stringsAfter true labels) = .ok (labels.map fun l => if l = pos then 1 else 0, [("0", 0), ("1", 1)]) := by
    unfold binaryStrings
    have hz : ∀ l ∈ stringsAfter true labels, l ∉ positiveKeyWords ∧ l ∉ negativeKeyWords := by
      intro l hl
      rcases (htwo.2 l).1 hl with rfl | rfl <;> decide +kernel
    have : replaceWords negativeKeyWords "0" (replaceWords positiveKeyWords "1" (stringsAfter true labels)) = stringsAfter true labels := by
      rw [replaced_eq]
      conv_rhs => rw [← List.map_id (stringsAfter true labels)]
      apply List.map_congr_left
      intro l hl
      rw [if_neg (hz l hl).1, if_neg (hz l hl).2]
      rfl
    rw [this, binaryIndices_two htwo, haft, hy]
    rfl
  refine ⟨labels.map fun l => if l = pos then 1 else 0, [(min pos neg, .int 0), (max pos neg, .int 1)], ?_, ?_, ?_, ?_⟩
  · unfold frameStrings
    rw [if_pos hlen, hfirst]
    rfl
  · rcases le_total pos neg with h | h
    · rw [min_eq_left h, max_eq_right h]; simp [Dict.get]
    · rw [min_eq_right h, max_eq_left h]; simp only [Dict.get]; split <;> simp
  · rcases le_total pos neg with h | h
    · rw [min_eq_left h, max_eq_right h]; simp only [Dict.get]; split <;> simp
    · rw [min_eq_right h, max_eq_left h]; simp [Dict.get]
  · unfold secondStrings frameStrings
    rw [if_pos (by rw [npUnique_two htwo]; rfl), hsec]
    rfl

/-- The column after the first load: every class is replaced by its number. -/
theorem stringsAfter_rank (labels : List String) (hk : (npUnique labels).length ≠ 2) (h : ∀ l ∈ labels, ∀ k : Nat, l ≠ toString k) :
    stringsAfter true labels = labels.map fun l => toString (rank labels l) := by
  simp only [stringsAfter, if_true, if_neg hk]
  exact relabel_rank (fun k : Nat => toString k) labels fun l hl i _ => h l hl i

theorem toString_inj {a b : Nat} (h : toString a = toString b) : a = b := by
  have : (Nat.repr a).toList = (Nat.repr b).toList := congrArg String.toList h
  rw [Nat.toList_repr, Nat.toList_repr] at this
  rw [← Nat.ofDigitChars_ten_toDigits (n := a), this, Nat.ofDigitChars_ten_toDigits]

/-- The numbers of the classes are exactly 0, ..., k-1. -/
theorem mem_after (labels : List String) (hk : (npUnique labels).length ≠ 2) (h : ∀ l ∈ labels, ∀ k : Nat, l ≠ toString k) (s : String) :
    s ∈ stringsAfter true labels ↔ ∃ i < (npUnique labels).length, s = toString i := by
  rw [stringsAfter_rank labels hk h, List.mem_map]
  constructor
  · rintro ⟨l, hl, rfl⟩
    exact ⟨rank labels l, by rw [length_npUnique]; exact rank_lt hl, rfl⟩
  · rintro ⟨i, hi, rfl⟩
    obtain ⟨hm, hr⟩ := rank_of_npUnique (List.getElem?_eq_getElem hi)
    exact ⟨_, hm, by rw [hr]⟩

/-- C168 is false for EVERY frame with eleven classes or more (none of them a numeral): a second data set made from the same frame merges at least
two classes, because "10" is sorted before "2". -/
theorem C168_eleven_classes (labels : List String) (hk : 11 ≤ (npUnique labels).length) (h : ∀ l ∈ labels, ∀ k : Nat, l ≠ toString k) :
    ¬ Separates labels (relabel (fun k : Nat => toString k) (npUnique (stringsAfter true labels)) (stringsAfter true labels)) := by
  have hk2 : (npUnique labels).length ≠ 2 := by omega
  have hmem := mem_after labels hk2 h
  intro hS
  have hS' : Separates (stringsAfter true labels) (relabel (fun k : Nat => toString k) (npUnique (stringsAfter true labels)) (stringsAfter true labels)) := by
    intro i j s s' hi hj
    rw [stringsAfter_rank labels hk2 h, List.getElem?_map, Option.map_eq_some_iff] at hi hj
    obtain ⟨l, hl, rfl⟩ := hi
    obtain ⟨l', hl', rfl⟩ := hj
    rw [hS i j l l' hl hl']
    constructor
    · rintro rfl; rfl
    · intro e
      exact (rank_inj (List.mem_of_getElem? hl) (List.mem_of_getElem? hl')).1 (toString_inj e)
  have hiff := (C67_iff (fun k : Nat => toString k) (fun a b => toString_inj) (stringsAfter true labels)).1 hS'
  have h2 : toString 2 ∈ stringsAfter true labels := (hmem _).2 ⟨2, by omega, rfl⟩
  refine hiff (toString 2) h2 2 ?_ rfl
  have hsub : ({toString 0, toString 1, toString 10} : Finset String) ⊆ (stringsAfter true labels).toFinset.filter (· < toString 2) := by
    intro s hs
    simp only [Finset.mem_insert, Finset.mem_singleton] at hs
    simp only [Finset.mem_filter, List.mem_toFinset]
    rcases hs with rfl | rfl | rfl
    · exact ⟨(hmem _).2 ⟨0, by omega, rfl⟩, by decide +kernel⟩
    · exact ⟨(hmem _).2 ⟨1, by omega, rfl⟩, by decide +kernel⟩
    · exact ⟨(hmem _).2 ⟨10, by omega, rfl⟩, by decide +kernel⟩
  have hc : ({toString 0, toString 1, toString 10} : Finset String).card = 3 := by decide +kernel
  have := Finset.card_le_card hsub
  unfold rank
  omega

/-- C168, the part that holds for labels: with three to ten classes (none a numeral) a second data set made from the same frame has the same `y`. Its `class_indices` knows the
numerals only: no class of the frame the caller made is in it. -/
theorem C168_ten_classes_partial (toInt : String → Option Int) (ht : ∀ k : Nat, toInt (toString k) = some (k : Int)) (labels : List String)
    (hk : (npUnique labels).length ≠ 2) (hk10 : (npUnique labels).length ≤ 10) (h : ∀ l ∈ labels, ∀ k : Nat, l ≠ toString k) :
    ∃ y d d', categoricalStrings toInt [] labels = .ok (y, d) ∧ categoricalStrings toInt [] (stringsAfter true labels) = .ok (y, d') ∧
      (∀ l ∈ labels, d.get l ≠ none) ∧ (∀ l ∈ labels, d'.get l = none) := by
  have hmem := mem_after labels hk h
  have haft := stringsAfter_rank labels hk h
  have hord : ∀ i < 10, ∀ j < 10, (toString i < toString j ↔ i < j) := by decide +kernel
  -- the rank of a numeral in the new column is the number itself
  have hrank : ∀ i < (npUnique labels).length, rank (stringsAfter true labels) (toString i) = i := by
    intro i hi
    unfold rank
    have : (stringsAfter true labels).toFinset.filter (· < toString i) = (Finset.range i).image (fun n : Nat => toString n) := by
      ext s
      simp only [Finset.mem_filter, List.mem_toFinset, Finset.mem_image, Finset.mem_range]
      rw [hmem]
      constructor
      · rintro ⟨⟨j, hj, rfl⟩, hlt⟩
        exact ⟨j, (hord j (by omega) i (by omega)).1 hlt, rfl⟩
      · rintro ⟨j, hj, rfl⟩
        exact ⟨⟨j, by omega, rfl⟩, (hord j (by omega) i (by omega)).2 hj⟩
    rw [this, Finset.card_image_of_injective _ (fun a b e => toString_inj e), Finset.card_range]
  have hrel : relabel (fun k : Nat => toString k) (npUnique (stringsAfter true labels)) (stringsAfter true labels) = stringsAfter true labels := by
    rw [relabel_rank]
    · conv_rhs => rw [← List.map_id (stringsAfter true labels)]
      apply List.map_congr_left
      intro s hs
      obtain ⟨i, hi, rfl⟩ := (hmem s).1 hs
      rw [hrank i hi]
      rfl
    · intro s hs j hj e
      obtain ⟨i, hi, rfl⟩ := (hmem s).1 hs
      rw [hrank i hi] at hj
      have := toString_inj e
      omega
  have hy : astypeInt toInt (labels.map fun l => toString (rank labels l)) = .ok (labels.map fun l => (rank labels l : Int)) := by
    unfold astypeInt
    generalize rank labels = f
    clear * - ht
    induction labels with
    | nil => rfl
    | cons a b ih => rw [List.map_cons, List.mapM_cons, ih]; simp only [parseLabel, ht]; rfl
  refine ⟨labels.map fun l => (rank labels l : Int), updateIndices [] (npUnique labels), updateIndices [] (npUnique (stringsAfter true labels)), ?_, ?_, ?_, ?_⟩
  · unfold categoricalStrings
    rw [relabel_rank (fun k : Nat => toString k) labels fun l hl i _ => h l hl i, hy]
    rfl
  · unfold categoricalStrings
    rw [hrel, haft, hy]
    rfl
  · intro l hl
    rw [updateIndices_get, if_pos hl]
    simp
  · intro l hl
    rw [updateIndices_get, if_neg]
    · rfl
    · intro hm
      obtain ⟨i, _, e⟩ := (hmem l).1 hm
      exact h l hl i e

/-- C168 for integer columns without negative classes (other than two classes): the caller's column holds the numbers of the classes afterwards; it is unchanged exactly when the
classes were 0, ..., k-1. A second data set gets the same `y`. -/
theorem C168_ints_iff (labels : List Int) (hk : (npUnique labels).length ≠ 2) (h : ∀ l ∈ labels, 0 ≤ l) :
    (intsAfter true labels = labels ↔ ∀ l ∈ labels, (rank labels l : Int) = l) ∧
    (categoricalInts [] (intsAfter true labels)).1 = (categoricalInts [] labels).1 := by
  have e : intsAfter true labels = labels.map fun l => (rank labels l : Int) := by
    simp only [intsAfter, if_true, if_neg hk]
    exact (C67_ints_partial [] labels h).2.2
  constructor
  · rw [e]
    conv_lhs => rhs; rw [← List.map_id labels]
    rw [List.map_inj_left]
    rfl
  · rw [(C67_ints_partial [] labels h).2.2]
    have hnn : ∀ l ∈ intsAfter true labels, 0 ≤ l := by
      rw [e]
      intro l hl
      obtain ⟨l', _, rfl⟩ := List.mem_map.1 hl
      omega
    rw [(C67_ints_partial [] (intsAfter true labels) hnn).2.2, e, List.map_map]
    apply List.map_congr_left
    intro l hl
    simp only [Function.comp]
    have : rank (labels.map fun l => (rank labels l : Int)) (rank labels l : Int) = rank labels l := by
      rw [show ∀ (ls : List Int) (v : Int), rank ls v = (ls.toFinset.filter (· < v)).card from fun _ _ => rfl]
      have : ((labels.map fun l => (rank labels l : Int)).toFinset.filter (· < (rank labels l : Int))) =
          (labels.toFinset.filter (· < l)).image (fun l => (rank labels l : Int)) := by
        ext s
        simp only [Finset.mem_filter, List.mem_toFinset, List.mem_map, Finset.mem_image]
        constructor
        · rintro ⟨⟨l', hl', rfl⟩, hlt⟩
          refine ⟨l', ⟨hl', ?_⟩, rfl⟩
          by_contra hge
          have hge : l ≤ l' := not_lt.1 hge
          have : rank labels l ≤ rank labels l' := by
            unfold rank
            apply Finset.card_le_card
            intro c hc
            simp only [Finset.mem_filter] at hc ⊢
            exact ⟨hc.1, lt_of_lt_of_le hc.2 hge⟩
          omega
        · rintro ⟨l', ⟨hl', hlt⟩, rfl⟩
          refine ⟨⟨l', hl', rfl⟩, ?_⟩
          have : rank labels l' < rank labels l := by
            unfold rank
            apply Finset.card_lt_card
            rw [Finset.ssubset_iff_of_subset]
            · exact ⟨l', by simp [hl', hlt], by simp⟩
            · intro c hc
              simp only [Finset.mem_filter] at hc ⊢
              exact ⟨hc.1, hc.2.trans hlt⟩
          omega
      rw [this, Finset.card_image_of_injOn]
      · rfl
      · intro a ha b hb hab
        simp only [Finset.coe_filter, List.mem_toFinset, Set.mem_ofPred_eq] at ha hb
        exact (rank_inj ha.1 hb.1).1 (by simpa using hab)
    exact_mod_cast this

/-- A frame with labels yes and no: after loading, the caller's column reads 1, 0; integer classes 1, 2, 3 become 0, 1, 2; eleven letters are merged by the second load. -/
example : stringsAfter true ["yes", "no", "yes"] = ["1", "0", "1"] ∧ intsAfter true [1, 2, 3, 1] = [0, 1, 2, 0] ∧
    relabel (fun k : Nat => toString k) (npUnique (stringsAfter true ["a", "b", "c", "d", "e", "f", "g", "h", "i", "j", "k"]))
      (stringsAfter true ["a", "b", "c", "d", "e", "f", "g", "h", "i", "j", "k"]) =
      ["0", "1", "10", "10", "10", "10", "10", "10", "10", "10", "10"] := by decide +kernel

end CML.Data

namespace CML.Bagging

/-! ## C169 -/

/-- C169 is false: all ensembles compiled without a seed in one process have the same seed, the number drawn at import, whatever the program does in
between; fitted with the same data they have the same members. -/
theorem C169_shared_seed {E K : Type} (stream : Nat → Nat) (p : Nat) (events : List Event) (i : Nat) (o : Obj E)
    (hi : events[i]? = some .compileDefault) (ho : ((Process.start stream p).run events)[i]? = some (some o)) :
    o.seed = stream p ∧
    ∀ (j : Nat) (o' : Obj E), events[j]? = some .compileDefault → ((Process.start stream p).run events)[j]? = some (some o') →
      ∀ (rng : Option Nat → (n : Nat) → Fin n → Fin n) (learn : List (List K) → List (List Int) → Except PyErr E) (x : List (List K)) (y : List Int)
        (n : Nat), o.fit rng learn x y n = o'.fit rng learn x y n := by
  have key : ∀ (events : List Event) (s : Process) (i : Nat) (o : Obj E), events[i]? = some .compileDefault →
      (s.run events)[i]? = some (some o) → o = { seed := s.defaultSeed } := by
    intro events
    induction events with
    | nil => intro s i o h _; simp at h
    | cons e es ih =>
      intro s i o h1 h2
      cases i with
      | zero =>
        simp only [List.getElem?_cons_zero, Option.some.injEq] at h1
        subst h1
        simp only [Process.run, Process.step, List.getElem?_cons_zero, Option.some.injEq] at h2
        exact h2.symm
      | succ i =>
        simp only [List.getElem?_cons_succ] at h1
        simp only [Process.run, List.getElem?_cons_succ] at h2
        have := ih _ i o h1 h2
        rw [this]
        cases e <;> rfl
  have h1 := key events _ i o hi ho
  refine ⟨by rw [h1]; rfl, ?_⟩
  intro j o' hj ho' rng learn x y n
  rw [h1, key events _ j o' hj ho']

/-- C169, the part that holds: an explicit seed is the seed of the ensemble. -/
theorem C169_explicit_seed_partial {E : Type} (stream : Nat → Nat) (p : Nat) (events : List Event) (i s : Nat) (o : Obj E)
    (hi : events[i]? = some (.compileSeed s)) (ho : ((Process.start stream p).run events)[i]? = some (some o)) : o.seed = s := by
  have key : ∀ (events : List Event) (q : Process) (i : Nat) (o : Obj E), events[i]? = some (.compileSeed s) →
      (q.run events)[i]? = some (some o) → o.seed = s := by
    intro events
    induction events with
    | nil => intro q i o h _; simp at h
    | cons e es ih =>
      intro q i o h1 h2
      cases i with
      | zero =>
        simp only [List.getElem?_cons_zero, Option.some.injEq] at h1
        subst h1
        simp only [Process.run, Process.step, List.getElem?_cons_zero, Option.some.injEq] at h2
        rw [← h2]
      | succ i =>
        simp only [List.getElem?_cons_succ] at h1
        simp only [Process.run, List.getElem?_cons_succ] at h2
        exact ih _ i o h1 h2
  exact key events _ i o hi ho

/-- Two ensembles compiled without a seed, with other draws in between. -/
example : ((Process.start (fun p => 7 * p + 3) 5).run (E := Nat) [.compileDefault, .draw, .compileSeed 4, .compileDefault]).map
    (Option.map Obj.seed) = [some 38, none, some 4, some 38] := by decide +kernel

end CML.Bagging
