import Verif.Props.EnginesK

/-! # C164: the kernels on two sets of rows -/

set_option linter.unusedSectionVars false

namespace CML.Eng
open Finset

/-- The matrix of kernel values of the rows `a 0, …, a (m-1)` (first argument) and `b 0, …, b (n-1)` (second argument): entry (i, j) is the value
of row `i` of the second and row `j` of the first argument. -/
def KernelMatrix (k : (ℕ → ℝ) → (ℕ → ℝ) → ℝ) (n m : Nat) (a b : ℕ → ℕ → ℝ) (result : Arr ℝ) : Prop :=
  ∃ e, result = .mat n m e ∧ ∀ i < n, ∀ j < m, e i j = k (a j) (b i)

/-- C164 for the linear, polynomial and sigmoid kernels: the kernel matrix of the two sets of rows. -/
theorem C164_matrix_partial (n m d : Nat) (a b : ℕ → ℕ → ℝ) (gamma beta theta : ℝ) (degree : Nat) :
    (∃ r, linearPy (.mat m d a) (.mat n d b) = .ok (.inl r) ∧ KernelMatrix (fun x y => ∑ l ∈ range d, x l * y l) n m a b r) ∧
    (∃ r, polyPy gamma degree (.mat m d a) (.mat n d b) = .ok (.inl r) ∧
      KernelMatrix (fun x y => gamma * (∑ l ∈ range d, x l * y l) ^ degree) n m a b r) ∧
    (∃ r, sigmoidPy gamma beta theta (.mat m d a) (.mat n d b) = .ok (.inl r) ∧
      KernelMatrix (fun x y => gamma * Real.tanh (beta * (∑ l ∈ range d, x l * y l) + theta)) n m a b r) := by
  refine ⟨⟨_, by simp only [linearPy, matmulPy, if_true]; rfl, _, rfl, fun i _ j _ => ?_⟩,
    ⟨_, by simp only [polyPy, matmulPy, if_true]; rfl, _, rfl, fun i _ j _ => ?_⟩,
    ⟨_, by simp only [sigmoidPy, matmulPy, if_true]; rfl, _, rfl, fun i _ j _ => ?_⟩⟩
  all_goals
    rw [show (∑ l ∈ range d, b i l * a j l) = ∑ l ∈ range d, a j l * b i l from sum_congr rfl fun l _ => mul_comm _ _]

/-- C164 is false for the Gaussian kernel: on two sets of `n` rows (n at least 2) it returns the `n` values of corresponding rows, the diagonal of the
kernel matrix, and never the matrix. -/
theorem C164_gaussian_diagonal (gamma : ℝ) (n d : Nat) (hn : n ≠ 1) (hd : d ≠ 1) (a b : ℕ → ℕ → ℝ) :
    ∃ r, rbfPy gamma (.mat n d a) (.mat n d b) = .ok r ∧
      entries r = (List.range n).map (fun i => Real.exp (gamma * -∑ l ∈ range d, (b i l - a i l) ^ 2)) ∧
      ∀ k, ¬KernelMatrix k n n a b r := by
  refine ⟨_, by simp only [rbfPy, asRow, broadcast, bdim, if_true, bidx, hn, hd, if_false]; rfl, rfl, ?_⟩
  rintro k ⟨e, he, _⟩
  cases he

/-- C164 is false for the Gaussian kernel on sets of different sizes (none of them a single row): it raises. -/
theorem C164_gaussian_sizes (gamma : ℝ) (n m d : Nat) (hnm : n ≠ m) (hn : n ≠ 1) (hm : m ≠ 1) (a b : ℕ → ℕ → ℝ) :
    rbfPy gamma (.mat m d a) (.mat n d b) = .error .valueError := by
  simp only [rbfPy, asRow, broadcast, bdim, hnm, hn, hm, if_false]

/-- C164, what is left for the Gaussian kernel: one row (a vector or a matrix of one row) against many gives the values of all pairs, as a vector. -/
theorem C164_gaussian_one_row_partial (gamma : ℝ) (n d : Nat) (a : ℕ → ℝ) (X : Arr ℝ) (hX : IsRow d a X) (b : ℕ → ℕ → ℝ) :
    ∃ r, rbfPy gamma X (.mat n d b) = .ok r ∧
      entries r = (List.range n).map (fun i => Real.exp (gamma * -∑ l ∈ range d, (b i l - a l) ^ 2)) :=
  rbfPy_row gamma n d a X hX b

/-- Two sets of two rows in the plane: the linear kernel returns four values, the Gaussian kernel two. -/
example : (∃ r, linearPy (.mat 2 2 fun i j => (i + j : ℕ)) (.mat 2 2 fun i _ => (i : ℕ)) = .ok (.inl r) ∧ (entries r).length = 4) ∧
    ∃ r, rbfPy 1 (.mat 2 2 fun i j => (i + j : ℕ)) (.mat 2 2 fun i _ => (i : ℕ)) = .ok r ∧ (entries r).length = 2 := by
  refine ⟨⟨_, by simp only [linearPy, matmulPy, if_true]; rfl, by simp [entries]⟩, ?_⟩
  obtain ⟨r, h1, h2, _⟩ := C164_gaussian_diagonal 1 2 2 (by decide) (by decide) (fun i j => ((i + j : ℕ) : ℝ)) (fun i _ => ((i : ℕ) : ℝ))
  exact ⟨r, h1, by rw [h2]; simp⟩

end CML.Eng
