import Verif.Props.Reload

set_option linter.unusedSectionVars false

/-! # C168 and C169, further theorems: the second load of an integer column, the generator after the import -/

namespace CML.Data
open CML.Prep

/-- C168 for integer columns of three classes or more (none negative): both loads succeed with the same `y`, but the `class_indices` of the second one
has exactly the keys `0, …, k - 1`, each mapped to itself, whatever the classes of the caller's frame were. -/
theorem C168_ints_second_load {K : Type*} [Field K] [LinearOrder K] (labels : List Int) (hk : 3 ≤ (npUnique labels).length) (h : ∀ l ∈ labels, 0 ≤ l) :
    ∃ y d d', frameInts (K := K) .none [] labels = .ok (.ints y, d) ∧ secondInts (K := K) .none labels = .ok (.ints y, d') ∧
      (∀ l, d.get l ≠ none ↔ l ∈ labels) ∧
      ∀ l : Int, (d'.get l = if 0 ≤ l ∧ l < (npUnique labels).length then some (.int l) else none) := by
  have hk2 : (npUnique labels).length ≠ 2 := by omega
  have e : intsAfter true labels = labels.map fun l => (rank labels l : Int) := by
    simp only [intsAfter, if_true, if_neg hk2]
    exact (C67_ints_partial [] labels h).2.2
  have hmem : ∀ s : Int, s ∈ intsAfter true labels ↔ ∃ i < (npUnique labels).length, s = (i : Int) := by
    intro s
    rw [e, List.mem_map]
    constructor
    · rintro ⟨l, hl, rfl⟩
      exact ⟨rank labels l, by rw [length_npUnique]; exact rank_lt hl, rfl⟩
    · rintro ⟨i, hi, rfl⟩
      obtain ⟨hm, hr⟩ := rank_of_npUnique (List.getElem?_eq_getElem hi)
      exact ⟨_, hm, by rw [hr]⟩
  have hset : (intsAfter true labels).toFinset = (Finset.range (npUnique labels).length).image fun i : Nat => (i : Int) := by
    ext s
    simp only [List.mem_toFinset, Finset.mem_image, Finset.mem_range]
    rw [hmem]
    constructor
    · rintro ⟨i, hi, rfl⟩; exact ⟨i, hi, rfl⟩
    · rintro ⟨i, hi, rfl⟩; exact ⟨i, hi, rfl⟩
  have hlen : (npUnique (intsAfter true labels)).length = (npUnique labels).length := by
    rw [length_npUnique (intsAfter true labels)]
    unfold numClasses
    rw [hset, Finset.card_image_of_injective _ (fun a b e => by exact_mod_cast e), Finset.card_range]
  have hrank : ∀ i < (npUnique labels).length, rank (intsAfter true labels) (i : Int) = i := by
    intro i hi
    unfold rank
    have : (intsAfter true labels).toFinset.filter (· < (i : Int)) = (Finset.range i).image fun j : Nat => (j : Int) := by
      rw [hset]
      ext s
      simp only [Finset.mem_filter, Finset.mem_image, Finset.mem_range]
      constructor
      · rintro ⟨⟨j, hj, rfl⟩, hlt⟩; exact ⟨j, by omega, rfl⟩
      · rintro ⟨j, hj, rfl⟩; exact ⟨⟨j, by omega, rfl⟩, by omega⟩
    rw [this, Finset.card_image_of_injective _ (fun a b e => by exact_mod_cast e), Finset.card_range]
  refine ⟨(categoricalInts [] labels).1, (categoricalInts [] labels).2.map (fun p => (p.1, Code.int p.2)),
    (categoricalInts [] (intsAfter true labels)).2.map (fun p => (p.1, Code.int p.2)), ?_, ?_, ?_, ?_⟩
  · unfold frameInts
    rw [if_neg hk2]
    rfl
  · unfold secondInts frameInts
    rw [hlen, if_neg hk2, ← (C168_ints_iff labels hk2 h).2]
    rfl
  · intro l
    rw [get_map_snd]
    simp only [categoricalInts, updateIndices_get]
    by_cases hl : l ∈ labels
    · simp [hl]
    · simp [hl, Dict.get]
  · intro l
    rw [get_map_snd]
    simp only [categoricalInts, updateIndices_get]
    by_cases hl : 0 ≤ l ∧ l < (npUnique labels).length
    · obtain ⟨i, rfl⟩ := Int.eq_ofNat_of_zero_le hl.1
      have hi : i < (npUnique labels).length := by have := hl.2; omega
      rw [if_pos hl, if_pos ((hmem _).2 ⟨i, hi, rfl⟩), hrank i hi]
      rfl
    · rw [if_neg hl, if_neg]
      · rfl
      · intro hm
        obtain ⟨i, hi, rfl⟩ := (hmem l).1 hm
        exact hl ⟨by omega, by omega⟩

/-- Classes 10, 20, 30: the second data set does not know them. -/
example : ∃ y d d', frameInts (K := ℚ) .none [] [10, 20, 30, 10] = .ok (.ints y, d) ∧ secondInts (K := ℚ) .none [10, 20, 30, 10] = .ok (.ints y, d') ∧
    d.get 10 ≠ none ∧ d'.get 10 = none := by
  obtain ⟨y, d, d', h1, h2, h3, h4⟩ := C168_ints_second_load (K := ℚ) [10, 20, 30, 10] (by decide +kernel) (by decide)
  refine ⟨y, d, d', h1, h2, (h3 10).2 (by decide), ?_⟩
  rw [h4, if_neg]
  decide +kernel

end CML.Data

namespace CML.Bagging

/-- The process after a sequence of events. -/
def Process.after {E : Type} (s : Process) (events : List Event) : Process := events.foldl (fun s e => (s.step (E := E) e).1) s

/-- C169: importing the library takes one number from numpy's global generator, and compiling an ensemble takes none, with or without a seed: the
generator has advanced by one plus the number of other draws. -/
theorem C169_generator {E : Type} (stream : Nat → Nat) (p : Nat) (events : List Event) :
    ((Process.start stream p).after (E := E) events).pos = p + 1 + events.count .draw ∧
    ((Process.start stream p).after (E := E) events).defaultSeed = stream p := by
  have key : ∀ (events : List Event) (s : Process), (s.after (E := E) events).pos = s.pos + events.count .draw ∧
      (s.after (E := E) events).defaultSeed = s.defaultSeed := by
    intro events
    induction events with
    | nil => intro s; simp [Process.after]
    | cons e es ih =>
      intro s
      have h := ih (s.step (E := E) e).1
      have e1 : s.after (E := E) (e :: es) = (s.step (E := E) e).1.after (E := E) es := rfl
      rw [e1, h.1, h.2]
      cases e with
      | draw =>
        simp only [Process.step, List.count_cons_self]
        exact ⟨by omega, trivial⟩
      | compileDefault => simp [Process.step]
      | compileSeed s => simp [Process.step]
  have h := key events (Process.start stream p)
  exact ⟨by rw [h.1]; rfl, by rw [h.2]; rfl⟩

example : ((Process.start (fun k => 7 * k) 3).after (E := Nat) [.draw, .compileDefault, .draw]).pos = 6 := by decide

end CML.Bagging
