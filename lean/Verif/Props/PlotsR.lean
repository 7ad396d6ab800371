import Verif.Props.Plots
import Verif.Props.PlotsGrid
import Verif.Props.PlotsCluster

set_option linter.unusedSectionVars false

/-! # The refusals of the figures (C155, C157, C158) -/

namespace CML.PlotsCluster

variable {K : Type} [Field K] [LinearOrder K] [IsStrictOrderedRing K] {d : Nat}

/-- C155 fails for an instance that was fitted with `epochs=0`: there are no labels, and the figure of any data is an `IndexError`. -/
theorem C155_no_labels (argsort : List (K × K) → List (K × K)) {trained loaded : Bool} (ht : trained = true ∨ loaded = true) (hd : 2 ≤ d) (n : Nat)
    (hn : 0 < n) (centroids : List (Option (Fin d → K))) (x : List (Fin d → K)) :
    plotKMeans argsort trained loaded n centroids none x = .error .indexError := by
  have hne : ¬(trained = false ∧ loaded = false) := by rintro ⟨rfl, rfl⟩; simp at ht
  simp only [plotKMeans]
  rw [if_neg hne, dif_pos hd]
  obtain ⟨m, rfl⟩ := Nat.exists_eq_succ_of_ne_zero hn.ne'
  rw [List.range_succ_eq_map, List.mapM_cons]
  rfl

/-- C155: with less than two features the figure is an `IndexError`. -/
theorem C155_one_feature (argsort : List (K × K) → List (K × K)) {trained loaded : Bool} (ht : trained = true ∨ loaded = true) (hd : d < 2) (n : Nat)
    (centroids : List (Option (Fin d → K))) (clusters : Option (List Nat)) (x : List (Fin d → K)) :
    plotKMeans argsort trained loaded n centroids clusters x = .error .indexError := by
  have hne : ¬(trained = false ∧ loaded = false) := by rintro ⟨rfl, rfl⟩; simp at ht
  simp only [plotKMeans]
  rw [if_neg hne, dif_neg (by omega)]

end CML.PlotsCluster

namespace CML.PlotsGrid
open Plots

/-- C157: samples and labels of different number are an `IndexError`, … -/
theorem C157_mismatch {d : Nat} {trained loaded : Bool} (ht : trained = true ∨ loaded = true) (support : List Nat)
    (predict : List (List ℝ) → Except PyErr (List Int)) (x : List (Fin d → ℝ)) (y : List Int) (h : x.length ≠ y.length) :
    plotSVC trained loaded support predict x y = .error .indexError := by
  have hne : ¬(trained = false ∧ loaded = false) := by rintro ⟨rfl, rfl⟩; simp at ht
  simp only [plotSVC]
  rw [if_neg hne, if_pos h]

/-- …and so is a single feature. -/
theorem C157_one_feature {d : Nat} (hd : d < 2) {trained loaded : Bool} (ht : trained = true ∨ loaded = true) (support : List Nat)
    (predict : List (List ℝ) → Except PyErr (List Int)) (x : List (Fin d → ℝ)) (y : List Int) :
    plotSVC trained loaded support predict x y = .error .indexError := by
  have hne : ¬(trained = false ∧ loaded = false) := by rintro ⟨rfl, rfl⟩; simp at ht
  by_cases h : x.length = y.length
  · simp only [plotSVC]
    rw [if_neg hne, if_neg (not_not.2 h), dif_neg (by omega)]
  · exact C157_mismatch ht support predict x y h

/-- C158: the same for ensembles. -/
theorem C158_mismatch {d : Nat} {trained loaded : Bool} (ht : trained = true ∨ loaded = true) (es : List (List (List ℝ) → Except PyErr (List Int)))
    (predict : List (List ℝ) → Except PyErr (List Int)) (b : Bool) (x : List (Fin d → ℝ)) (y : List Int) (h : x.length ≠ y.length ∨ d < 2) :
    plotEnsemble trained loaded es predict b x y = .error .indexError := by
  have hne : ¬(trained = false ∧ loaded = false) := by rintro ⟨rfl, rfl⟩; simp at ht
  simp only [plotEnsemble]
  rw [if_neg hne]
  by_cases hl : x.length = y.length
  · rw [if_neg (not_not.2 hl), dif_neg]
    rcases h with h | h
    · exact absurd hl h
    · omega
  · rw [if_pos hl]

/-- C157, C158: a classifier that does not answer with one class for each node of the grid is refused with `ValueError`, and its own error on the grid
is the error of the figure. -/
theorem C157_bad_answers {d : Nat} {trained loaded : Bool} (ht : trained = true ∨ loaded = true) (hd : 2 ≤ d) (support : List Nat)
    (predict : List (List ℝ) → Except PyErr (List Int)) (x : List (Fin d → ℝ)) (y : List Int)
    (hl : x.length = y.length) (hs : ∀ i ∈ support, i < x.length) :
    (∀ e, (∀ rows, predict rows = .error e) → plotSVC trained loaded support predict x y = .error e) ∧
    (∀ ans : List Int, ans.length ≠ 90000 → (∀ rows, predict rows = .ok ans) → plotSVC trained loaded support predict x y = .error .valueError) := by
  have hne : ¬(trained = false ∧ loaded = false) := by rintro ⟨rfl, rfl⟩; simp at ht
  have hm : marks hd x support = .ok ((support.filterMap fun i => x[i]?).map (shown hd)) := by
    unfold marks
    rw [if_neg]
    simp only [List.any_eq_true, decide_eq_true_eq, not_exists, not_and, not_le]
    exact hs
  constructor
  · intro e he
    simp only [plotSVC]
    rw [if_neg hne, if_neg (by simp [hl]), dif_pos hd, hm]
    simp only [gridHeights, gridOn, he]
  · intro ans hans he
    simp only [plotSVC]
    rw [if_neg hne, if_neg (by simp [hl]), dif_pos hd, hm]
    simp only [gridHeights, gridOn, he, reshape]
    rw [if_pos (by omega)]

/-- Non-vacuity: ten answers for the grid. -/
example : plotSVC true false [] (fun _ => .ok [1, 1, 1, 1, 1, 1, 1, 1, 1, 1]) [![0, (0 : ℝ)]] [1] = .error .valueError :=
  (C157_bad_answers (.inl rfl) (le_refl 2) [] _ _ _ rfl (by simp)).2 _ (by simp) fun _ => rfl

end CML.PlotsGrid

/-- The window contains its corners and nothing beyond. -/
example : CML.Plots.Visible (0, 1) ∧ CML.Plots.Visible (1, 0) ∧ ¬CML.Plots.Visible (2, 0) ∧ ¬CML.Plots.Visible (0, -1) := by
  simp [CML.Plots.Visible]

example : CML.PlotsCluster.Visible ((0 : ℚ), (1 : ℚ)) ∧ CML.PlotsCluster.Visible ((1 : ℚ), (0 : ℚ)) ∧ ¬CML.PlotsCluster.Visible ((2 : ℚ), (0 : ℚ)) := by
  simp [CML.PlotsCluster.Visible]
