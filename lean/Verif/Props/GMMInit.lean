import Verif.Model.GMMInit
import Verif.Props.EM
import Mathlib.Algebra.Field.Rat

/-! # Initial covariances of the Gaussian mixture (C121) -/

set_option linter.unusedSectionVars false

namespace CML.GMM

variable {K : Type*} [Field K]

/-- C121: by default every component starts with the covariance `0.1 · I`. -/
theorem C121_default (d m : Nat) :
    ∃ s : Arr K, initCovariances d m .none = .ok s ∧ s.shape = [m, d, d] ∧
      ∀ i a b, s.entry [i, a, b] = if a = b then 1 / 10 else 0 := by
  refine ⟨_, rfl, rfl, fun i a b => ?_⟩
  simp

/-- C121 (with two or more components and features): an array of the required shape is accepted and used entry by entry.  Missing:
one component or one feature, where it is refused (`C121_one_refused`). -/
theorem C121_accepted_partial (d m : Nat) (hd : d ≠ 1) (hm : m ≠ 1) (a : Arr K) (ha : a.shape = [m, d, d]) :
    ∃ s : Arr K, initCovariances d m (.array a) = .ok s ∧ s.shape = [m, d, d] ∧
      ∀ i k l, s.entry [i, k, l] = a.entry [i, k, l] := by
  have hs : a.squeeze.shape = [m, d, d] := by simp [Arr.squeeze, ha, hd, hm]
  refine ⟨a.squeeze, by simp [initCovariances, hs], hs, fun i k l => ?_⟩
  simp [Arr.squeeze, ha, unsqueeze, hd, hm]

/-- The index that is left of `idx` when the axes of length 1 of the shape are dropped. -/
def dropOnes : List Nat → List Nat → List Nat
  | n :: s, i :: idx => if n = 1 then dropOnes s idx else i :: dropOnes s idx
  | _, _ => []

/-- `idx` is an index of an array of that shape. -/
def InShape (shape idx : List Nat) : Prop := List.Forall₂ (fun n i => i < n) shape idx

theorem unsqueeze_dropOnes : ∀ (s idx : List Nat), InShape s idx → unsqueeze s (dropOnes s idx) = idx
  | [], _, h => by cases h; rfl
  | n :: s, _, .cons (b := i) (l₂ := idx) hi h => by
    have ih := unsqueeze_dropOnes s idx h
    by_cases hn : n = 1
    · subst hn
      have : i = 0 := by omega
      simp [dropOnes, unsqueeze, ih, this]
    · simp [dropOnes, unsqueeze, hn, ih]

/-- C121: whatever axes of length 1 an accepted array has, the covariances used are its entries. -/
theorem C121_accepted_entries (d m : Nat) (a s : Arr K) (h : initCovariances d m (.array a) = .ok s) :
    s.shape = [m, d, d] ∧ ∀ idx, InShape a.shape idx → s.entry (dropOnes a.shape idx) = a.entry idx := by
  simp only [initCovariances] at h
  split at h
  · rename_i hs
    injection h with h
    rw [← h]
    exact ⟨hs, fun idx hi => by simp only [Arr.squeeze]; rw [unsqueeze_dropOnes _ _ hi]⟩
  · simp at h

example : InShape [2, 1, 3, 3] [1, 0, 2, 1] ∧ dropOnes [2, 1, 3, 3] [1, 0, 2, 1] = [1, 2, 1] := by
  refine ⟨?_, by decide⟩
  unfold InShape
  repeat' constructor

/-- C121: what is accepted, exactly: arrays whose shape becomes `(n_components, features, features)` when the axes of length 1
are dropped. Everything else raises `ValueError`, and what is not an array `TypeError`. -/
theorem C121_exactly (d m : Nat) (a : Arr K) :
    ((∃ s, initCovariances d m (.array a) = .ok s) ↔ a.shape.filter (fun n => n ≠ 1) = [m, d, d]) ∧
    (a.shape.filter (fun n => n ≠ 1) ≠ [m, d, d] → initCovariances d m (.array a) = .error .valueError) ∧
    initCovariances (K := K) d m .other = .error .typeError := by
  have e : a.squeeze.shape = a.shape.filter fun n => n ≠ 1 := rfl
  refine ⟨⟨?_, ?_⟩, ?_, rfl⟩
  · rintro ⟨s, hs⟩
    by_contra hne
    rw [← e] at hne
    simp [initCovariances, hne] at hs
  · intro h
    rw [← e] at h
    exact ⟨a.squeeze, by simp [initCovariances, h]⟩
  · intro h
    rw [← e] at h
    simp [initCovariances, h]

/-- C121 fails for one component or one feature: every array is refused, the one of the required shape included. -/
theorem C121_one_refused (d m : Nat) (h : d = 1 ∨ m = 1) (a : Arr K) :
    initCovariances d m (.array a) = .error .valueError := by
  apply (C121_exactly d m a).2.1
  intro he
  have h1 : ∀ n ∈ [m, d, d], n ≠ 1 := by
    rw [← he]
    intro n hn
    simpa using (List.mem_filter.1 hn).2
  rcases h with h | h
  · exact h1 d (by simp) h
  · exact h1 m (by simp) h

/-- C121: nothing else is checked: arrays that are no covariance matrices (not positive semidefinite) are accepted.  Here the
covariance `-I` of two features. -/
theorem C121_not_validated :
    ∃ (a s : Arr ℚ), a.shape = [2, 2, 2] ∧ initCovariances 2 2 (.array a) = .ok s ∧
      ∀ i, ¬ IsPSD fun k l : Fin 2 => s.entry [i, k, l] := by
  obtain ⟨s, hs, _, he⟩ := C121_accepted_partial (K := ℚ) 2 2 (by decide) (by decide)
    ⟨[2, 2, 2], fun idx => if idx[1]? = idx[2]? then -1 else 0⟩ rfl
  refine ⟨_, s, rfl, hs, ?_⟩
  intro i h
  have := h.2 fun _ => 1
  simp [he, Fin.sum_univ_two] at this
  norm_num at this

example : ∃ s, initCovariances 3 2 (.array (⟨[2, 3, 3], fun _ => 1⟩ : Arr ℚ)) = .ok s :=
  (C121_exactly 3 2 _).1.2 (by decide)

end CML.GMM
