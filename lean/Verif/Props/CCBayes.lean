import Verif.Model.CCOps
import Verif.Model.GMM
import Mathlib.Algebra.Order.Ring.Rat
import Mathlib.Algebra.Field.Rat
import Mathlib.Tactic.NormNum
import Mathlib.Tactic.Ring

set_option linter.unusedSectionVars false

/-! # Property C150 (estimates of the Bayes classifiers, and differences of tensors, with the C++ engine) -/

namespace CML.CC

/-- C150: as long as the counts and the number of categories add up to less than the range of the integer type, both engines estimate the same
conditional probability. -/
theorem C150_conditional_partial (bits a c num : Nat) (smoothing : Bool) (h : c + num < 2 ^ bits) :
    condProb bits a c num smoothing = Bayes.condProb a c num smoothing := by
  unfold condProb Bayes.condProb
  simp only [Nat.mod_eq_of_lt h]

/-- C150: beyond, the sum wraps around: where the Python engine estimates at most 1, the C++ engine may estimate more. -/
theorem C150_wraps (bits : Nat) (hb : 1 ≤ bits) :
    condProb bits 1 (2 ^ bits - 1) 2 true = some 2 ∧ ∃ p, Bayes.condProb 1 (2 ^ bits - 1) 2 true = some p ∧ p ≤ 1 := by
  have h2 : 2 ≤ 2 ^ bits := by
    calc 2 = 2 ^ 1 := by norm_num
      _ ≤ 2 ^ bits := Nat.pow_le_pow_right (by norm_num) hb
  have e : 2 ^ bits - 1 + 2 = 2 ^ bits + 1 := by omega
  have m : (2 ^ bits + 1) % 2 ^ bits = 1 := by
    rw [Nat.add_mod_left, Nat.mod_eq_of_lt (by omega)]
  constructor
  · simp only [condProb, e, m, if_true]
    norm_num [Bayes.ratio]
  · simp only [Bayes.condProb, e, if_true]
    rw [if_neg (by omega)]
    refine ⟨_, rfl, ?_⟩
    unfold Bayes.ratio
    rw [div_le_one (by positivity)]
    exact_mod_cast (by omega : 1 + 1 ≤ 2 ^ bits + 1)

/-- C150: the same for the joint priors of the one-dependent classifiers. -/
theorem C150_dependent_partial (bits a n values : Nat) (smoothing : Bool) (hn : 0 < n) (ha : a + 1 < 2 ^ bits) (h : n + 2 * values < 2 ^ bits) :
    depPrior bits a n values smoothing = some (Bayes.depPrior a n values smoothing) := by
  unfold depPrior Bayes.depPrior
  simp only [Nat.mod_eq_of_lt h, Nat.mod_eq_of_lt ha]
  cases smoothing
  · simp [hn.ne']
  · simp; omega

/-- C150: both engines compute the same density, with the same replacement of zero, in every precision. -/
theorem C150_density (fl : ℝ → ℝ) (sample mean var : ℝ) : density fl sample mean var = Bayes.density fl sample mean var := by
  unfold density Bayes.density
  rw [neg_div]

variable {K : Type*} [Field K] [LinearOrder K] [IsStrictOrderedRing K]

theorem anyAbove_iff (tol : K) (a b : List K) :
    anyAbove tol a b = true ↔ ∃ (k : Nat) (u v : K), a[k]? = some u ∧ b[k]? = some v ∧ tol < |u - v| := by
  induction a generalizing b with
  | nil => simp [anyAbove]
  | cons u a ih =>
    cases b with
    | nil => simp [anyAbove]
    | cons v b =>
      rw [anyAbove]
      by_cases h : |u - v| > tol
      · simp only [h, if_true, true_iff]
        exact ⟨0, u, v, rfl, rfl, h⟩
      · rw [if_neg h, ih]
        constructor
        · rintro ⟨k, u', v', h1, h2, h3⟩
          exact ⟨k + 1, u', v', by simpa using h1, by simpa using h2, h3⟩
        · rintro ⟨k, u', v', h1, h2, h3⟩
          cases k with
          | zero =>
            simp at h1 h2
            subst h1 h2
            exact absurd h3 h
          | succ k => exact ⟨k, u', v', by simpa using h1, by simpa using h2, h3⟩

/-- C150: `compare_differences` of two tensors with the C++ engine answers, for every component and every row of its matrix, whether some entry of the
row moved by more than the threshold. -/
theorem C150_differences (tol : K) (x0 x1 : List (List (List K))) (i j : Nat) (m0 m1 : List (List K)) (r0 r1 : List K)
    (h0 : x0[i]? = some m0) (h1 : x1[i]? = some m1) (g0 : m0[j]? = some r0) (g1 : m1[j]? = some r1) :
    ∃ row b, (compareTensors tol x0 x1)[i]? = some row ∧ row[j]? = some b ∧
      (b = true ↔ ∃ (k : Nat) (u v : K), r0[k]? = some u ∧ r1[k]? = some v ∧ tol < |u - v|) := by
  refine ⟨List.zipWith (anyAbove tol) m0 m1, anyAbove tol r0 r1, ?_, ?_, anyAbove_iff tol r0 r1⟩
  · simp [compareTensors, List.getElem?_zipWith, h0, h1]
  · simp [List.getElem?_zipWith, g0, g1]

example : compareTensors (1 / 2 : ℚ) [[[1, 0], [0, 1]], [[2, 0], [0, 2]]] [[[1, 0], [0, 1]], [[2, 0], [0, 3]]] = [[false, false], [false, true]] := by
  decide +kernel

end CML.CC
