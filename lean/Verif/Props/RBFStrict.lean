import Mathlib.Tactic.FinCases
import Mathlib.Algebra.BigOperators.Field
import Mathlib.LinearAlgebra.Matrix.ToLinearEquiv
import Verif.Props.Kernels
import Verif.Props.SVMOpt
import Verif.Model.SVCKernel
import Mathlib.LinearAlgebra.Vandermonde
import Mathlib.Algebra.Polynomial.Roots
import Mathlib.Topology.Algebra.InfiniteSum.Order

set_option linter.unusedSectionVars false

/-! # Property C274: the RBF kernel separates distinct rows -/

namespace CML.Kern
open Finset

variable {d n : Nat}

/-- For distinct rows there is a direction along which all of them differ. -/
theorem exists_direction (x : Fin n → Fin d → ℝ) (hx : Function.Injective x) : ∃ v : Fin d → ℝ, Function.Injective fun i => dot v (x i) := by
  let p : Fin n → Fin n → Polynomial ℝ := fun i j => ∑ l : Fin d, Polynomial.monomial (l : ℕ) (x i l - x j l)
  have hp : ∀ i j, i ≠ j → p i j ≠ 0 := by
    intro i j hij h0
    apply hij
    apply hx
    funext l
    have := congrArg (fun q => Polynomial.coeff q (l : ℕ)) h0
    simp only [p, Polynomial.finset_sum_coeff, Polynomial.coeff_monomial, Polynomial.coeff_zero] at this
    rw [sum_eq_single l] at this
    · simp only [if_true] at this; linarith
    · intro b _ hb
      exact if_neg fun h => hb (Fin.ext h)
    · simp
  let q : Polynomial ℝ := ∏ i, ∏ j, if i = j then 1 else p i j
  have hq : q ≠ 0 := by
    refine prod_ne_zero_iff.2 fun i _ => prod_ne_zero_iff.2 fun j _ => ?_
    split
    · exact one_ne_zero
    · rename_i h; exact hp i j h
  obtain ⟨T, hT⟩ : ∃ T, Polynomial.eval T q ≠ 0 := by
    by_contra hcon
    push Not at hcon
    exact hq (Polynomial.funext fun t => by rw [hcon t, Polynomial.eval_zero])
  refine ⟨fun l => T ^ (l : ℕ), fun i j hij => ?_⟩
  by_contra hne
  have hpe : Polynomial.eval T (p i j) ≠ 0 := by
    intro h0
    apply hT
    simp only [q, Polynomial.eval_prod]
    refine prod_eq_zero (mem_univ i) (prod_eq_zero (mem_univ j) ?_)
    rw [if_neg hne, h0]
  apply hpe
  simp only [p, Polynomial.eval_finset_sum, Polynomial.eval_monomial]
  simp only [dot] at hij
  rw [← sub_eq_zero, ← sum_sub_distrib] at hij
  rw [← hij]
  exact sum_congr rfl fun l _ => by ring

/-- The sum of squares behind the powers of the inner product. -/
theorem pow_sq (k : Nat) (x : Fin n → Fin d → ℝ) (c : Fin n → ℝ) :
    ∑ i, ∑ j, c i * c j * dot (x i) (x j) ^ k = ∑ f : Fin k → Fin d, (∑ i, c i * ∏ l, x i (f l)) ^ 2 := by
  have h : ∀ i j, c i * c j * dot (x i) (x j) ^ k = ∑ f : Fin k → Fin d, (c i * ∏ l, x i (f l)) * (c j * ∏ l, x j (f l)) := by
    intro i j
    rw [dot, ← Fin.prod_const, Finset.prod_univ_sum, Finset.mul_sum]
    simp only [Fintype.piFinset_univ]
    refine Finset.sum_congr rfl fun f _ => ?_
    rw [Finset.prod_mul_distrib]
    ring
  simp only [h]
  calc _ = ∑ i, ∑ f : Fin k → Fin d, ∑ j, (c i * ∏ l, x i (f l)) * (c j * ∏ l, x j (f l)) := Finset.sum_congr rfl fun i _ => Finset.sum_comm
    _ = ∑ f : Fin k → Fin d, ∑ i, ∑ j, (c i * ∏ l, x i (f l)) * (c j * ∏ l, x j (f l)) := Finset.sum_comm
    _ = _ := Finset.sum_congr rfl fun f _ => by rw [sq, Finset.sum_mul_sum]

/-- C274: for distinct rows and `γ > 0` the Gram matrix of the RBF kernel is positive definite. -/
theorem C274_positive_definite (g : ℝ) (hg : 0 < g) (x : Fin n → Fin d → ℝ) (hx : Function.Injective x) (c : Fin n → ℝ) (hc : c ≠ 0) :
    0 < ∑ i, ∑ j, c i * c j * rbf g (x i) (x j) := by
  refine lt_of_le_of_ne ((C60_psd (d := d) g hg.le 0).2.2 n x c) fun h0 => hc ?_
  set c' : Fin n → ℝ := fun i => c i * Real.exp (-g * dot (x i) (x i)) with hc'
  have e : ∑ i, ∑ j, c i * c j * rbf g (x i) (x j) = ∑ i, ∑ j, c' i * c' j * Real.exp (2 * g * dot (x i) (x j)) :=
    sum_congr rfl fun i _ => sum_congr rfl fun j _ => by rw [rbf_eq, hc']; ring
  have hs : HasSum (fun k : Nat => ∑ i, ∑ j, c' i * c' j * ((2 * g * dot (x i) (x j)) ^ k / (k.factorial : ℝ))) (∑ i, ∑ j, c' i * c' j * Real.exp (2 * g * dot (x i) (x j))) := by
    refine hasSum_sum fun i _ => hasSum_sum fun j _ => HasSum.mul_left _ ?_
    rw [Real.exp_eq_exp_ℝ]
    exact NormedSpace.expSeries_div_hasSum_exp _
  have hterm : ∀ k : Nat, ∑ i, ∑ j, c' i * c' j * ((2 * g * dot (x i) (x j)) ^ k / (k.factorial : ℝ)) =
      (2 * g) ^ k / (k.factorial : ℝ) * ∑ f : Fin k → Fin d, (∑ i, c' i * ∏ l, x i (f l)) ^ 2 := by
    intro k
    rw [← pow_sq, mul_sum]
    refine sum_congr rfl fun i _ => ?_
    rw [mul_sum]
    exact sum_congr rfl fun j _ => by rw [mul_pow]; ring
  rw [← e, ← h0] at hs
  have hnn : ∀ k : Nat, 0 ≤ ∑ i, ∑ j, c' i * c' j * ((2 * g * dot (x i) (x j)) ^ k / (k.factorial : ℝ)) := by
    intro k
    rw [hterm]
    exact mul_nonneg (by positivity) (sum_nonneg fun f _ => sq_nonneg _)
  have hz := (hasSum_zero_iff_of_nonneg hnn).1 hs
  have hmom : ∀ (k : Nat) (f : Fin k → Fin d), ∑ i, c' i * ∏ l, x i (f l) = 0 := by
    intro k f
    have := congrFun hz k
    rw [hterm] at this
    have h2 : (2 * g) ^ k / (k.factorial : ℝ) ≠ 0 := by positivity
    have h3 := (mul_eq_zero.1 this).resolve_left h2
    exact pow_eq_zero_iff (two_ne_zero) |>.1 ((sum_eq_zero_iff_of_nonneg fun f _ => sq_nonneg _).1 h3 f (mem_univ f))
  obtain ⟨v, hv⟩ := exists_direction x hx
  have hpow : ∀ k : Nat, ∑ i, c' i * dot v (x i) ^ k = 0 := by
    intro k
    have : ∀ i, c' i * dot v (x i) ^ k = ∑ f : Fin k → Fin d, (∏ l, v (f l)) * (c' i * ∏ l, x i (f l)) := by
      intro i
      rw [dot, ← Fin.prod_const, Finset.prod_univ_sum, Finset.mul_sum]
      simp only [Fintype.piFinset_univ]
      refine Finset.sum_congr rfl fun f _ => ?_
      rw [Finset.prod_mul_distrib]
      ring
    simp only [this]
    rw [sum_comm]
    refine sum_eq_zero fun f _ => ?_
    rw [← mul_sum, hmom, mul_zero]
  have hvan : Matrix.vecMul c' (Matrix.vandermonde fun i => dot v (x i)) = 0 := by
    funext k
    simp only [Matrix.vecMul, dotProduct, Matrix.vandermonde_apply, Pi.zero_apply]
    exact hpow k
  have hdet : (Matrix.vandermonde fun i => dot v (x i)).det ≠ 0 := Matrix.det_vandermonde_ne_zero_iff.2 hv
  have hc0 : c' = 0 := Matrix.eq_zero_of_vecMul_eq_zero hdet hvan
  funext i
  have := congrFun hc0 i
  simp only [hc', Pi.zero_apply, mul_eq_zero, Real.exp_ne_zero, or_false] at this
  exact this

/-- C274: hence every table of values on distinct rows is reached by a combination of the kernel functions of the rows: an RBF classifier can represent every
labelling of distinct samples. -/
theorem C274_interpolation (g : ℝ) (hg : 0 < g) (x : Fin n → Fin d → ℝ) (hx : Function.Injective x) (y : Fin n → ℝ) :
    ∃ c : Fin n → ℝ, ∀ i, ∑ j, c j * rbf g (x i) (x j) = y i := by
  let G : Matrix (Fin n) (Fin n) ℝ := Matrix.of fun i j => rbf g (x i) (x j)
  have hdet : G.det ≠ 0 := by
    intro h0
    obtain ⟨c, hc, hz⟩ := Matrix.exists_mulVec_eq_zero_iff.2 h0
    have := C274_positive_definite g hg x hx c hc
    refine absurd ?_ this.ne'
    refine sum_eq_zero fun i _ => ?_
    have hi := congrFun hz i
    simp only [Matrix.mulVec, dotProduct, G, Matrix.of_apply, Pi.zero_apply] at hi
    calc ∑ j, c i * c j * rbf g (x i) (x j) = c i * ∑ j, rbf g (x i) (x j) * c j := by rw [mul_sum]; exact sum_congr rfl fun j _ => by ring
      _ = 0 := by rw [hi, mul_zero]
  refine ⟨Matrix.mulVec G⁻¹ y, fun i => ?_⟩
  have := congrFun (show Matrix.mulVec G (Matrix.mulVec G⁻¹ y) = y by
    rw [Matrix.mulVec_mulVec, Matrix.mul_nonsing_inv _ (isUnit_iff_ne_zero.2 hdet), Matrix.one_mulVec]) i
  rw [← this]
  simp only [Matrix.mulVec, dotProduct, G, Matrix.of_apply]
  exact sum_congr rfl fun j _ => mul_comm _ _

end CML.Kern

namespace CML.SVC
open SMO Finset

variable {n d : Nat}

theorem rbfList_ofFn (g : ℝ) (u v : Fin d → ℝ) : rbfList g (List.ofFn u) (List.ofFn v) = Kern.rbf g u v := by
  unfold rbfList Kern.rbf
  congr 3
  rw [← List.sum_ofFn]
  congr 1
  apply List.ext_getElem
  · simp
  · intro i h1 h2
    simp

/-- C274: on distinct rows the training problem of the RBF classifier has at most one optimum: two optimal lists of multipliers are equal, so that the classifier that
training is looking for is unique. -/
theorem C274_unique_optimum (g C tol : ℝ) (hg : 0 < g) (x : Fin n → Fin d → ℝ) (hx : Function.Injective x) (y : Fin n → ℝ) (hy : ∀ i, y i = 1 ∨ y i = -1) (a b : Fin n → ℝ) :
    let p := problem (rbfList g) C tol (fun i => List.ofFn (x i)) y
    DualFeasible p a → DualFeasible p b → (∀ c, DualFeasible p c → dualObjective p c ≤ dualObjective p a) → (∀ c, DualFeasible p c → dualObjective p c ≤ dualObjective p b) →
      a = b := by
  intro p ha hb oa ob
  by_contra hne
  have hgram : ∀ k l, p.gram k l = Kern.rbf g (x k) (x l) := fun k l => rbfList_ofFn g (x k) (x l)
  have hq : 0 < ∑ k, ∑ l, ((a k - b k) * y k) * ((a l - b l) * y l) * p.gram k l := by
    simp only [hgram]
    refine Kern.C274_positive_definite g hg x hx (fun k => (a k - b k) * y k) fun h0 => hne (funext fun k => ?_)
    have := congrFun h0 k
    simp only [Pi.zero_apply] at this
    rcases hy k with h | h <;> rw [h] at this <;> linarith
  have hm : DualFeasible p fun i => (a i + b i) / 2 := by
    refine ⟨fun i => ⟨by linarith [(ha.1 i).1, (hb.1 i).1], by linarith [(ha.1 i).2, (hb.1 i).2]⟩, ?_⟩
    have : ∑ i, (a i + b i) / 2 * p.y i = (∑ i, a i * p.y i + ∑ i, b i * p.y i) / 2 := by
      rw [← sum_add_distrib, sum_div]
      exact sum_congr rfl fun i _ => by ring
    rw [this, ha.2, hb.2]; norm_num
  have hval : dualObjective p (fun i => (a i + b i) / 2) = (dualObjective p a + dualObjective p b) / 2 +
      (1 / 8) * ∑ k, ∑ l, ((a k - b k) * y k) * ((a l - b l) * y l) * p.gram k l := by
    have hyy : p.y = y := rfl
    unfold dualObjective
    rw [hyy]
    have e1 : ∑ i, (a i + b i) / 2 = (∑ i, a i + ∑ i, b i) / 2 := by rw [← sum_add_distrib, sum_div]
    have e2 : ∑ k, ∑ l, (a k + b k) / 2 * ((a l + b l) / 2) * y k * y l * p.gram k l =
        (∑ k, ∑ l, a k * a l * y k * y l * p.gram k l) / 2 + (∑ k, ∑ l, b k * b l * y k * y l * p.gram k l) / 2 -
        (1 / 4) * ∑ k, ∑ l, ((a k - b k) * y k) * ((a l - b l) * y l) * p.gram k l := by
      simp only [sum_div, mul_sum, ← sum_add_distrib, ← sum_sub_distrib]
      exact sum_congr rfl fun k _ => sum_congr rfl fun l _ => by ring
    rw [e1, e2]
    ring
  have h1 := oa _ hm
  have h2 := ob _ hm
  rw [hval] at h1 h2
  linarith

/-- Distinct rows: the hypotheses are met. -/
example : Function.Injective (![![0, 0], ![0, 1], ![1, 0]] : Fin 3 → Fin 2 → ℝ) := by
  intro i j h
  fin_cases i <;> fin_cases j <;> first | rfl | (exfalso; have h0 := congrFun h 0; have h1 := congrFun h 1; simp at h0 h1)

end CML.SVC
