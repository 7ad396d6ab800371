import Verif.Props.RBF

set_option linter.unusedSectionVars false

/-! # C91, further theorems: the error term of the RBF network -/

namespace CML.RBF
open Finset Net

/-- C91: `y_pred - y_true` for a label vector of length `n`: the vector is laid along the columns, whatever the number of samples, and a length of one on either
side is repeated; without such a match `ValueError`. -/
theorem C91_error_vector (p : Mat) (n : Nat) (f : ℕ → ℝ) :
    (p.cols = n ∨ n = 1 ∨ p.cols = 1 → ∃ m, error p (.vec n f) = .ok m ∧ m.rows = p.rows ∧ m.cols = (if p.cols = 1 then n else p.cols) ∧
      ∀ i j, i < m.rows → j < m.cols → m.e i j = p.e i (if p.cols = 1 then 0 else j) - f (if n = 1 then 0 else j)) ∧
    (¬ (p.cols = n ∨ n = 1 ∨ p.cols = 1) → error p (.vec n f) = .error .valueError) := by
  unfold error
  dsimp only
  constructor
  · intro h
    by_cases h1 : p.cols = n
    · rw [if_pos h1]
      refine ⟨_, rfl, rfl, by rw [h1]; simp, ?_⟩
      intro i j _ hj
      dsimp only at hj ⊢
      by_cases h2 : n = 1
      · rw [if_pos (h1.trans h2), if_pos h2]
        have : j = 0 := by omega
        rw [this]
      · rw [if_neg (fun h => h2 (h1.symm.trans h)), if_neg h2]
    · rw [if_neg h1]
      by_cases h2 : n = 1
      · rw [if_pos h2]
        have h3 : ¬ p.cols = 1 := fun h => h1 (h.trans h2.symm)
        refine ⟨_, rfl, rfl, by rw [if_neg h3], ?_⟩
        intro i j _ _
        dsimp only
        rw [if_neg h3, if_pos h2]
      · rw [if_neg h2]
        have h3 : p.cols = 1 := by omega
        rw [if_pos h3]
        refine ⟨_, rfl, rfl, by rw [if_pos h3], ?_⟩
        intro i j _ _
        dsimp only
        rw [if_pos h3, if_neg h2]
  · intro h
    rw [if_neg (by omega), if_neg (by omega), if_neg (by omega)]

/-- C91, the consequence: for one sample per label the error of a network with one output is a square matrix, every prediction against every label. -/
theorem C91_all_pairs (p : Mat) (hp : p.cols = 1) (f : ℕ → ℝ) :
    ∃ m, error p (.vec p.rows f) = .ok m ∧ m.rows = p.rows ∧ m.cols = p.rows ∧ ∀ i j, i < p.rows → j < p.rows → m.e i j = p.e i 0 - f j := by
  obtain ⟨m, h1, h2, h3, h4⟩ := (C91_error_vector p p.rows f).1 (.inr (.inr hp))
  rw [if_pos hp] at h3
  refine ⟨m, h1, h2, h3, fun i j hi hj => ?_⟩
  rw [h4 i j (by omega) (by omega), if_pos hp]
  by_cases h : p.rows = 1
  · rw [if_pos h]
    have : j = 0 := by omega
    rw [this]
  · rw [if_neg h]

/-- C91: an error that does not fit the hidden layer, or predictions that do not fit the weights, raise `ValueError`. -/
theorem C91_backward_refused (yPred : Mat) (y : Labels) (c : RCache) (dy : Mat) (he : error yPred y = .ok dy)
    (h : dy.rows ≠ c.rho.rows ∨ yPred.cols ≠ c.w.rows) : backward yPred y c = .error .valueError := by
  unfold backward
  rw [he]
  dsimp only
  rcases h with h | h
  · have e : tMatmul dy c.rho = .error .valueError := if_neg h
    rw [e]
  · have e : matmul yPred c.w = .error .valueError := if_neg h
    rw [e]
    cases tMatmul dy c.rho <;> rfl

example : ∃ m, error ⟨3, 1, fun i _ => i⟩ (.vec 3 fun j => 10 * j) = .ok m ∧ m.rows = 3 ∧ m.cols = 3 :=
  let ⟨m, h1, h2, h3, _⟩ := C91_all_pairs ⟨3, 1, fun i _ => i⟩ rfl fun j => 10 * j
  ⟨m, h1, h2, h3⟩

end CML.RBF
