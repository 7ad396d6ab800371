import Verif.Prelude
import Mathlib.Data.List.Sort
import Mathlib.Data.List.Nodup

/-! # Python dictionaries (insertion ordered association lists) and `np.unique` -/

namespace CML

/-- A Python `dict`: keys in insertion order. -/
abbrev Dict (α β : Type*) := List (α × β)

namespace Dict
variable {α β : Type*} [DecidableEq α]

/-- `d[key]` / `d.get(key)`; `none` = missing key. -/
def get : Dict α β → α → Option β
  | [], _ => none
  | (k, v) :: d, a => if k = a then some v else get d a

/-- `d.update({key: value})` / `d[key] = value`: replaces the value in place, or appends the key. -/
def set : Dict α β → α → β → Dict α β
  | [], a, b => [(a, b)]
  | (k, v) :: d, a, b => if k = a then (k, b) :: d else (k, v) :: set d a b

theorem get_set (d : Dict α β) (a b : α) (v : β) : get (set d a v) b = if a = b then some v else get d b := by
  induction d with
  | nil => simp [set, get]
  | cons p d ih =>
    obtain ⟨k, w⟩ := p
    unfold set
    split
    · rename_i h; subst h; simp only [get]; split <;> rfl
    · rename_i h
      simp only [get, ih]
      by_cases h1 : k = b
      · subst h1; simp [Ne.symm h]
      · simp [h1]

theorem mem_keys_set (d : Dict α β) (a b : α) (v : β) : b ∈ (set d a v).map Prod.fst ↔ b = a ∨ b ∈ d.map Prod.fst := by
  induction d with
  | nil => simp [set]
  | cons p d ih =>
    obtain ⟨k, w⟩ := p
    unfold set
    split
    · rename_i h; subst h; simp
    · simp only [List.map_cons, List.mem_cons, ih]; tauto

theorem get_eq_none (d : Dict α β) (a : α) : get d a = none ↔ a ∉ d.map Prod.fst := by
  induction d with
  | nil => simp [get]
  | cons p d ih =>
    obtain ⟨k, w⟩ := p
    unfold get
    split
    · rename_i h; simp [h]
    · rename_i h; rw [ih]; simp [Ne.symm h]

theorem mem_of_get {d : Dict α β} {a : α} {v : β} (h : get d a = some v) : (a, v) ∈ d := by
  induction d with
  | nil => simp [get] at h
  | cons p d ih =>
    obtain ⟨k, w⟩ := p
    unfold get at h
    split at h
    · rename_i hk; subst hk; simp at h; simp [h]
    · exact List.mem_cons_of_mem _ (ih h)

/-- Keys occur once. -/
theorem nodup_set {d : Dict α β} (h : (d.map Prod.fst).Nodup) (a : α) (v : β) : ((set d a v).map Prod.fst).Nodup := by
  induction d with
  | nil => simp [set]
  | cons p d ih =>
    obtain ⟨k, w⟩ := p
    simp only [List.map_cons, List.nodup_cons] at h
    unfold set
    split
    · simpa using h
    · rename_i hk
      simp only [List.map_cons, List.nodup_cons]
      refine ⟨?_, ih h.2⟩
      rw [mem_keys_set]
      rintro (h1 | h1)
      · exact hk h1
      · exact h.1 h1

end Dict

/-- `np.unique`: the distinct values in increasing order. -/
def npUnique {α : Type*} [LinearOrder α] (l : List α) : List α := (pyUnique l).insertionSort (· ≤ ·)

section
variable {α : Type*} [LinearOrder α]

theorem mem_npUnique {l : List α} {a : α} : a ∈ npUnique l ↔ a ∈ l := by
  unfold npUnique; rw [(List.perm_insertionSort (· ≤ ·) (pyUnique l)).mem_iff, mem_pyUnique]

theorem npUnique_perm (l : List α) : (npUnique l).Perm (pyUnique l) := List.perm_insertionSort _ _

theorem nodup_npUnique (l : List α) : (npUnique l).Nodup := (npUnique_perm l).nodup_iff.2 (nodup_pyUnique l)

theorem sorted_npUnique (l : List α) : (npUnique l).Pairwise (· < ·) := by
  have h1 : (npUnique l).Pairwise (· ≤ ·) := List.pairwise_insertionSort _ _
  exact (h1.and (nodup_npUnique l)).imp fun {a b} ⟨hle, hne⟩ => lt_of_le_of_ne hle hne

/-- The position of a value in a strictly increasing list is the number of smaller entries. -/
theorem countP_lt_of_sorted {l : List α} (h : l.Pairwise (· < ·)) (i : Nat) (a : α) (hi : l[i]? = some a) :
    l.countP (· < a) = i := by
  induction l generalizing i with
  | nil => simp at hi
  | cons b l ih =>
    rw [List.pairwise_cons] at h
    cases i with
    | zero =>
      simp only [List.getElem?_cons_zero, Option.some.injEq] at hi
      subst hi
      rw [List.countP_cons]
      simp only [lt_self_iff_false, decide_false, Bool.false_eq_true, if_false, Nat.add_zero]
      rw [List.countP_eq_zero]
      intro c hc; simpa using (h.1 c hc).le
    | succ i =>
      simp only [List.getElem?_cons_succ] at hi
      rw [List.countP_cons, ih h.2 i hi, if_pos]
      simpa using h.1 a (List.mem_of_getElem? hi)

end

end CML
