import Verif.Spec.TreeBoxes
import Verif.Props.TreeSize

set_option linter.unusedSectionVars false

/-! # Property C307: decision trees and boxes -/

namespace CML.DTree

variable {V K : Type} [LinearOrder K] {m : Nat} [DecidableEq V]

/-- The part of a box with `t ≤` attribute `a`. -/
def Box.above (b : Box K m) (a : Fin m) (t : K) : Box K m :=
  ⟨Function.update b.lo a (some (match b.lo a with | some s => max s t | none => t)), b.hi⟩

/-- The part of a box with attribute `a < t`. -/
def Box.below (b : Box K m) (a : Fin m) (t : K) : Box K m :=
  ⟨b.lo, Function.update b.hi a (some (match b.hi a with | some s => min s t | none => t))⟩

lemma has_above (b : Box K m) (a : Fin m) (t : K) (p : Fin m → K) : (b.above a t).Has p ↔ b.Has p ∧ t ≤ p a := by
  unfold Box.Has Box.above
  constructor
  · intro h
    have ha := (h a).1
    simp only [Function.update_self] at ha
    have ha := ha _ rfl
    refine ⟨fun c => ⟨fun s hs => ?_, (h c).2⟩, ?_⟩
    · by_cases hc : c = a
      · subst hc
        rw [hs] at ha
        exact (le_max_left _ _).trans ha
      · exact (h c).1 s (by simp only [Function.update_of_ne hc]; exact hs)
    · cases hl : b.lo a with
      | none => rw [hl] at ha; exact ha
      | some s => rw [hl] at ha; exact (le_max_right _ _).trans ha
  · rintro ⟨h, ht⟩ c
    refine ⟨fun s hs => ?_, (h c).2⟩
    by_cases hc : c = a
    · subst hc
      simp only [Function.update_self, Option.some.injEq] at hs
      rw [← hs]
      cases hl : b.lo c with
      | none => exact ht
      | some s => exact max_le ((h c).1 s hl) ht
    · simp only [Function.update_of_ne hc] at hs
      exact (h c).1 s hs

lemma has_below (b : Box K m) (a : Fin m) (t : K) (p : Fin m → K) : (b.below a t).Has p ↔ b.Has p ∧ p a < t := by
  unfold Box.Has Box.below
  constructor
  · intro h
    have ha := (h a).2
    simp only [Function.update_self] at ha
    have ha := ha _ rfl
    refine ⟨fun c => ⟨(h c).1, fun s hs => ?_⟩, ?_⟩
    · by_cases hc : c = a
      · subst hc
        rw [hs] at ha
        exact lt_of_lt_of_le ha (min_le_left _ _)
      · exact (h c).2 s (by simp only [Function.update_of_ne hc]; exact hs)
    · cases hl : b.hi a with
      | none => rw [hl] at ha; exact ha
      | some s => rw [hl] at ha; exact lt_of_lt_of_le ha (min_le_right _ _)
  · rintro ⟨h, ht⟩ c
    refine ⟨(h c).1, fun s hs => ?_⟩
    by_cases hc : c = a
    · subst hc
      simp only [Function.update_self, Option.some.injEq] at hs
      rw [← hs]
      cases hl : b.hi c with
      | none => exact ht
      | some s => exact lt_min ((h c).2 s hl) ht
    · simp only [Function.update_of_ne hc] at hs
      exact (h c).2 s hs

/-- **C307.** A tree that asks about continuous attributes only, fitted or pruned or loaded, cuts the space into as many boxes as it has leaves: every row is in exactly one box, and
the answer is the label of the box. -/
theorem C307_boxes (num : V → K) : ∀ t : Tree V K m, t.discAttrs = [] →
    ∃ (B : List (Box K m × Int)), B.length = t.leaves ∧ ∀ row : Row V m,
      ∃ i : Nat, ∃ b : Box K m × Int, B[i]? = some b ∧ b.1.Has (fun a => num (row a)) ∧ predict num row t = .ok b.2 ∧
        ∀ j c, B[j]? = some c → c.1.Has (fun a => num (row a)) → j = i
  | .leaf c, _ => by
    refine ⟨[(⟨fun _ => none, fun _ => none⟩, c)], by simp [Tree.leaves], fun row => ⟨0, _, rfl, fun a => by simp, by simp [predict], fun j c hj _ => ?_⟩⟩
    by_contra hne
    rw [List.getElem?_eq_none (by simp; omega)] at hj
    cases hj
  | .cont a t n h g l, hd => by
    simp only [Tree.discAttrs, List.append_eq_nil_iff] at hd
    obtain ⟨G, hG, pG⟩ := C307_boxes num g hd.1
    obtain ⟨L, hL, pL⟩ := C307_boxes num l hd.2
    refine ⟨G.map (fun b => (b.1.above a t, b.2)) ++ L.map (fun b => (b.1.below a t, b.2)), by simp [Tree.leaves, hG, hL], fun row => ?_⟩
    by_cases ht : t ≤ num (row a)
    · obtain ⟨i, b, hi, hb, hp, hu⟩ := pG row
      have hlt : i < G.length := (List.getElem?_eq_some_iff.1 hi).1
      refine ⟨i, (b.1.above a t, b.2), by rw [List.getElem?_append_left (by simpa using hlt)]; simp [hi], (has_above _ _ _ _).2 ⟨hb, ht⟩, ?_, fun j c hj hc => ?_⟩
      · simp only [predict, if_pos ht]; exact hp
      · by_cases hjl : j < G.length
        · rw [List.getElem?_append_left (by simpa using hjl), List.getElem?_map, Option.map_eq_some_iff] at hj
          obtain ⟨c', hc', rfl⟩ := hj
          exact hu j c' hc' ((has_above _ _ _ _).1 hc).1
        · rw [List.getElem?_append_right (by simpa using not_lt.1 hjl), List.getElem?_map, Option.map_eq_some_iff] at hj
          obtain ⟨c', hc', rfl⟩ := hj
          exact absurd ht (not_le.2 ((has_below _ _ _ _).1 hc).2)
    · obtain ⟨i, b, hi, hb, hp, hu⟩ := pL row
      refine ⟨G.length + i, (b.1.below a t, b.2), by rw [List.getElem?_append_right (by simp)]; simp [hi], (has_below _ _ _ _).2 ⟨hb, not_le.1 ht⟩, ?_, fun j c hj hc => ?_⟩
      · simp only [predict, if_neg ht]; exact hp
      · by_cases hjl : j < G.length
        · rw [List.getElem?_append_left (by simpa using hjl), List.getElem?_map, Option.map_eq_some_iff] at hj
          obtain ⟨c', hc', rfl⟩ := hj
          exact absurd ((has_above _ _ _ _).1 hc).2 ht
        · rw [List.getElem?_append_right (by simpa using not_lt.1 hjl), List.getElem?_map, Option.map_eq_some_iff] at hj
          obtain ⟨c', hc', rfl⟩ := hj
          have := hu (j - G.length) c' (by simpa using hc') ((has_below _ _ _ _).1 hc).1
          omega
  | .disc a n h br, hd => by simp [Tree.discAttrs] at hd

/-- C307: the tree that `fit` builds from continuous attributes has at most as many boxes as there are training samples. -/
theorem C307_fit {V K : Type} [Field K] [LinearOrder K] [IsStrictOrderedRing K] [DecidableEq V] {m : Nat} (o : Oracle V K m) (ho : LibraryOracle o) (limit : Nat) (xs : List (Row V m)) (ys : List Int)
    (hlen : xs.length = ys.length) (t : Tree V K m) (hfit : fit o limit xs ys = .ok t) (hd : t.discAttrs = []) :
    ∃ (B : List (Box K m × Int)), B.length ≤ xs.length ∧ ∀ row : Row V m,
      ∃ i : Nat, ∃ b : Box K m × Int, B[i]? = some b ∧ b.1.Has (fun a => o.num (row a)) ∧ predict o.num row t = .ok b.2 ∧
        ∀ j c, B[j]? = some c → c.1.Has (fun a => o.num (row a)) → j = i := by
  obtain ⟨B, h1, h2⟩ := C307_boxes o.num t hd
  exact ⟨B, by rw [h1]; exact C231_leaves_partial o ho limit xs ys hlen t hfit hd, h2⟩

/-- C307: two rows of the same box and all rows between them get the same answer. -/
theorem C307_between (num : V → K) (t : Tree V K m) (hd : t.discAttrs = []) :
    ∃ (B : List (Box K m × Int)), B.length = t.leaves ∧ (∀ row : Row V m, ∃ b ∈ B, b.1.Has fun a => num (row a)) ∧
      ∀ b ∈ B, ∀ r s z : Row V m, b.1.Has (fun a => num (r a)) → b.1.Has (fun a => num (s a)) →
        (∀ a, min (num (r a)) (num (s a)) ≤ num (z a) ∧ num (z a) ≤ max (num (r a)) (num (s a))) →
        predict num r t = .ok b.2 ∧ predict num s t = .ok b.2 ∧ predict num z t = .ok b.2 := by
  obtain ⟨B, h1, h2⟩ := C307_boxes num t hd
  have key : ∀ b ∈ B, ∀ row : Row V m, b.1.Has (fun a => num (row a)) → predict num row t = .ok b.2 := by
    intro b hb row hr
    obtain ⟨j, hj⟩ := List.mem_iff_getElem?.1 hb
    obtain ⟨i, c, hi, -, hp, hu⟩ := h2 row
    have := hu j b hj hr
    subst this
    rw [hj] at hi
    injection hi with hi
    rw [hi]
    exact hp
  refine ⟨B, h1, fun row => ?_, fun b hb r s z hr hs hz => ⟨key b hb r hr, key b hb s hs, key b hb z fun a => ⟨fun t ht => ?_, fun t ht => ?_⟩⟩⟩
  · obtain ⟨i, c, hi, hc, -⟩ := h2 row
    exact ⟨c, List.mem_of_getElem? hi, hc⟩
  · exact (le_min ((hr a).1 t ht) ((hs a).1 t ht)).trans (hz a).1
  · exact lt_of_le_of_lt (hz a).2 (max_lt ((hr a).2 t ht) ((hs a).2 t ht))

/-- The hypotheses are met: a continuous tree with four boxes. -/
example : ∃ t, LibraryOracle (giniOracle 1) ∧ fit (giniOracle 1) 10 [![1/2], ![3/2], ![5/2], ![7/2]] [0, 1, 0, 1] = .ok t ∧ t.discAttrs = [] ∧ t.leaves = 4 := by
  obtain ⟨t, h1, h2⟩ := exists_ok (x := fit (giniOracle 1) 10 [![1/2], ![3/2], ![5/2], ![7/2]] [0, 1, 0, 1])
    (fun t => decide (t.discAttrs = [] ∧ t.leaves = 4)) (by decide +kernel)
  exact ⟨t, ⟨_, _, _, _, _, majFirst_ok, .inl rfl⟩, h1, (of_decide_eq_true h2).1, (of_decide_eq_true h2).2⟩

end CML.DTree
