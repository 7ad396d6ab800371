import Verif.Model.CCOps
import Verif.Props.LDA

set_option linter.unusedSectionVars false

/-! # Property C147 (linear discriminant analysis with the C++ engine) -/

namespace CML.CC
open Matrix LDA

variable {K : Type*} [Field K] [LinearOrder K] [IsStrictOrderedRing K] {d : Nat}

theorem getD_ofFn (f : Fin d → K) (a : Fin d) : (List.ofFn f).getD a 0 = f a := by
  rw [List.getD_eq_getElem?_getD]
  simp

theorem subRow_ofFn (f g : Fin d → K) : subRow (List.ofFn f) (List.ofFn g) = List.ofFn fun i => f i - g i := by
  unfold subRow
  apply List.ext_getElem (by simp)
  intro i h1 h2
  simp

theorem classScatter_toMat (X : List (Fin d → K)) (mu : Fin d → K) (hX : X ≠ []) :
    ∃ S, classScatter (toMat X) (toMat [mu]) = .ok (some S) ∧ ∀ a b : Fin d, S a b = LDA.classScatter X mu a b := by
  have hb : broadcastSub (toMat X) (toMat [mu]) = .ok (some ⟨d, X.map fun r => List.ofFn fun i => r i - mu i⟩) := by
    match X, hX with
    | [r], _ => simp [broadcastSub, toMat, subRow_ofFn]
    | r :: s :: X, _ => simp [broadcastSub, toMat, subRow_ofFn]
  refine ⟨_, by rw [classScatter, hb], fun a b => ?_⟩
  rw [List.map_map]
  unfold LDA.classScatter
  congr 1
  apply List.map_congr_left
  intro r _
  simp only [Function.comp_apply, getD_ofFn]

/-- C147: for two classes with at least one row each the scatter matrix of the C++ engine is that of the Python engine. -/
theorem C147_scatter (X0 X1 : List (Fin d → K)) (mu0 mu1 : Fin d → K) (h0 : X0 ≠ []) (h1 : X1 ≠ []) :
    ∃ S, scatter (toMat X0) (toMat X1) (toMat [mu0]) (toMat [mu1]) = .ok (some S) ∧
      ∀ a b : Fin d, S a b = LDA.scatter X0 X1 mu0 mu1 a b := by
  obtain ⟨S0, e0, f0⟩ := classScatter_toMat X0 mu0 h0
  obtain ⟨S1, e1, f1⟩ := classScatter_toMat X1 mu1 h1
  refine ⟨_, by rw [scatter, e0, e1], fun a b => ?_⟩
  rw [f0, f1]
  rfl

/-- C147: with a class without rows the C++ engine leaves defined behaviour, where the Python engine returns a model (C82). -/
theorem C147_empty_class (svd : Matrix (Fin d) (Fin d) K → SVD K d) (x : List (Fin d → K)) (y : List Int) (hl : x.length = y.length)
    (h : rowsOf x y 0 = [] ∨ rowsOf x y 1 = []) : fitLDA svd x y = .ok none := by
  have e : ∀ mu : Fin d → K, classScatter (toMat ([] : List (Fin d → K))) (toMat [mu]) = .ok none := by
    intro mu; simp [classScatter, broadcastSub, toMat]
  rw [fitLDA, if_neg (by simpa using hl)]
  rcases h with h | h
  · simp only [h, scatter, e]
    by_cases h1 : rowsOf x y 1 = []
    · simp only [h1, e]
    · obtain ⟨S1, e1, _⟩ := classScatter_toMat (rowsOf x y 1) ((colMean (rowsOf x y 1)).getD 0) h1
      simp only [e1]
  · simp only [h, scatter, e]
    by_cases h1 : rowsOf x y 0 = []
    · simp only [h1, e]
    · obtain ⟨S1, e1, _⟩ := classScatter_toMat (rowsOf x y 0) ((colMean (rowsOf x y 0)).getD 0) h1
      simp only [e1]

/-- C147: with both classes present `fit` with the C++ engine stores the same means as with the Python engine and, as projection vector, what
`GetW_V2` makes of the same scatter matrix. -/
theorem C147_fit (svd : Matrix (Fin d) (Fin d) K → SVD K d) (x : List (Fin d → K)) (y : List Int) (hl : x.length = y.length)
    (h0 : rowsOf x y 0 ≠ []) (h1 : rowsOf x y 1 ≠ []) :
    ∃ mu0 mu1, IsCentroid (rowsOf x y 0) mu0 ∧ IsCentroid (rowsOf x y 1) mu1 ∧
      fitLDA svd x y =
        .ok (some ⟨some (getWCC svd (LDA.scatter (rowsOf x y 0) (rowsOf x y 1) mu0 mu1) mu0 mu1), some mu0, some mu1⟩) := by
  have hs : ∀ X : List (Fin d → K), X ≠ [] → ∃ v, colMean X = some v := by
    intro X hX
    exact ⟨_, by rw [colMean, if_neg (by simpa using hX)]⟩
  obtain ⟨v0, e0⟩ := hs _ h0
  obtain ⟨v1, e1⟩ := hs _ h1
  refine ⟨v0, v1, C44_means _ _ e0, C44_means _ _ e1, ?_⟩
  rw [fitLDA, if_neg (by simpa using hl)]
  obtain ⟨S, es, fs⟩ := C147_scatter (rowsOf x y 0) (rowsOf x y 1) v0 v1 h0 h1
  simp only [e0, e1, Option.getD_some, es]
  have : (fun a b : Fin d => S a b) = LDA.scatter (rowsOf x y 0) (rowsOf x y 1) v0 v1 := by
    funext a b; exact fs a b
  rw [this]

theorem orth_norm (V : Matrix (Fin d) (Fin d) K) (h : Vᵀ * V = 1) (u : Fin d → K) : (V *ᵥ u) ⬝ᵥ (V *ᵥ u) = u ⬝ᵥ u := by
  rw [dotProduct_mulVec, vecMul_mulVec, h, vecMul_one]

/-- C147: the vector of the C++ engine has the length of the scatter matrix TIMES the difference of the means, in any number of features and for any
decomposition. -/
theorem C147_length (svd : Matrix (Fin d) (Fin d) K → SVD K d) (S : Matrix (Fin d) (Fin d) K) (mu0 mu1 : Fin d → K)
    (h : IsSVD S (svd S)) :
    getWCC svd S mu0 mu1 ⬝ᵥ getWCC svd S mu0 mu1 = (Sᵀ *ᵥ (mu0 - mu1)) ⬝ᵥ (Sᵀ *ᵥ (mu0 - mu1)) := by
  have hV : (svd S).Vtᵀ * (svd S).Vt = 1 := mul_eq_one_comm.1 h.orthV
  have hV' : ((svd S).Vtᵀ)ᵀ * (svd S).Vtᵀ = 1 := by rw [transpose_transpose]; exact h.orthV
  have e : Sᵀ = (svd S).Vtᵀ * (diagonal (svd S).Sigma * (svd S).Uᵀ) := by
    conv_lhs => rw [← h.prod]
    rw [transpose_mul, transpose_mul, diagonal_transpose]
  rw [e, ← mulVec_mulVec, orth_norm _ hV', getWCC, Matrix.mul_assoc, ← mulVec_mulVec, orth_norm _ hV]

/-- C147 is false of the C++ engine in any number of features: whenever the (symmetric) scatter matrix stretches every vector, as it does when the
features are spread more than one unit, the vector does not solve the equation it is meant to solve, whatever decomposition is returned. -/
theorem C147_violated (svd : Matrix (Fin d) (Fin d) K → SVD K d) (S : Matrix (Fin d) (Fin d) K) (mu0 mu1 : Fin d → K)
    (h : IsSVD S (svd S)) (hsym : Sᵀ = S) (hS : ∀ v : Fin d → K, v ≠ 0 → v ⬝ᵥ v < (S *ᵥ v) ⬝ᵥ (S *ᵥ v)) (hmu : mu0 ≠ mu1) :
    S *ᵥ getWCC svd S mu0 mu1 ≠ mu0 - mu1 := by
  intro hw
  have hd : mu0 - mu1 ≠ 0 := sub_ne_zero.2 hmu
  have hl := C147_length svd S mu0 mu1 h
  rw [hsym] at hl
  have hw0 : getWCC svd S mu0 mu1 ≠ 0 := by
    intro h0; rw [h0, mulVec_zero] at hw; exact hd hw.symm
  have h1 := hS _ hw0
  have h2 := hS _ hd
  rw [hw] at h1
  linarith

/-- The same when the scatter matrix shrinks every vector. -/
theorem C147_violated_small (svd : Matrix (Fin d) (Fin d) K → SVD K d) (S : Matrix (Fin d) (Fin d) K) (mu0 mu1 : Fin d → K)
    (h : IsSVD S (svd S)) (hsym : Sᵀ = S) (hS : ∀ v : Fin d → K, v ≠ 0 → (S *ᵥ v) ⬝ᵥ (S *ᵥ v) < v ⬝ᵥ v) (hmu : mu0 ≠ mu1) :
    S *ᵥ getWCC svd S mu0 mu1 ≠ mu0 - mu1 := by
  intro hw
  have hd : mu0 - mu1 ≠ 0 := sub_ne_zero.2 hmu
  have hl := C147_length svd S mu0 mu1 h
  rw [hsym] at hl
  have hw0 : getWCC svd S mu0 mu1 ≠ 0 := by
    intro h0; rw [h0, mulVec_zero] at hw; exact hd hw.symm
  have h1 := hS _ hw0
  have h2 := hS _ hd
  rw [hw] at h1
  linarith

/-- A scatter matrix that meets the hypotheses of `C147_violated`, with a decomposition. -/
example : IsSVD (!![(3 : ℚ), 0; 0, 2]) ⟨1, ![3, 2], 1⟩ ∧ (!![(3 : ℚ), 0; 0, 2])ᵀ = !![(3 : ℚ), 0; 0, 2] ∧
    ∀ v : Fin 2 → ℚ, v ≠ 0 → v ⬝ᵥ v < (!![(3 : ℚ), 0; 0, 2] *ᵥ v) ⬝ᵥ (!![(3 : ℚ), 0; 0, 2] *ᵥ v) := by
  refine ⟨⟨by simp, by simp, ?_, ?_, ?_⟩, by decide +kernel, fun v hv => ?_⟩
  · intro i; fin_cases i <;> norm_num
  · intro i j h; fin_cases i <;> fin_cases j <;> first | (exfalso; revert h; decide) | norm_num
  · ext i j; fin_cases i <;> fin_cases j <;> simp
  · have : v 0 ≠ 0 ∨ v 1 ≠ 0 := by
      by_contra hc
      push Not at hc
      exact hv (funext fun i => by fin_cases i; exacts [hc.1, hc.2])
    simp [dotProduct, mulVec, Fin.sum_univ_two]
    rcases this with h | h
    · nlinarith [mul_self_pos.2 h, mul_self_nonneg (v 1)]
    · nlinarith [mul_self_pos.2 h, mul_self_nonneg (v 0)]

/-- For two uncorrelated features of which the first varies more, every decomposition keeps the axes. -/
theorem svd_keep {a b : K} (hb0 : 0 < b) (hb : b < a) (r : SVD K 2) (h : IsSVD (!![a, 0; 0, b]) r) :
    r.U 0 1 = 0 ∧ r.U 1 0 = 0 := by
  have hV : r.Vt * r.Vtᵀ = 1 := h.orthV
  have hSS : (!![a, 0; 0, b]) * (!![a, 0; 0, b])ᵀ * r.U = r.U * Matrix.diagonal fun i => r.Sigma i * r.Sigma i := by
    rw [← h.prod, transpose_mul, transpose_mul, diagonal_transpose]
    calc r.U * diagonal r.Sigma * r.Vt * (r.Vtᵀ * (diagonal r.Sigma * r.Uᵀ)) * r.U
        = r.U * diagonal r.Sigma * (r.Vt * r.Vtᵀ) * diagonal r.Sigma * (r.Uᵀ * r.U) := by simp only [Matrix.mul_assoc]
      _ = r.U * (diagonal r.Sigma * diagonal r.Sigma) := by rw [hV, h.orthU]; simp only [Matrix.mul_one, Matrix.mul_assoc]
      _ = _ := by rw [diagonal_mul_diagonal]
  have hsq : (!![a, 0; 0, b]) * (!![a, 0; 0, b])ᵀ = !![a * a, 0; 0, b * b] := by
    ext i j; fin_cases i <;> fin_cases j <;> simp [Matrix.mul_apply, Fin.sum_univ_two]
  rw [hsq] at hSS
  have e : ∀ i j, (!![a * a, 0; 0, b * b] * r.U) i j = (r.U * Matrix.diagonal fun i => r.Sigma i * r.Sigma i) i j :=
    fun i j => by rw [hSS]
  have h00 := e 0 0
  have h01 := e 0 1
  have h10 := e 1 0
  have h11 := e 1 1
  simp [Matrix.mul_apply, Fin.sum_univ_two, Matrix.diagonal] at h00 h01 h10 h11
  have o : ∀ i j, (r.Uᵀ * r.U) i j = (1 : Matrix (Fin 2) (Fin 2) K) i j := fun i j => by rw [h.orthU]
  have o00 := o 0 0
  have o11 := o 1 1
  have o01 := o 0 1
  simp [Matrix.mul_apply, Fin.sum_univ_two] at o00 o11 o01
  have hs := h.sorted 0 1 (by decide)
  have n1 := h.nonneg 1
  have hba : b * b < a * a := by nlinarith
  have hσ : r.Sigma 1 * r.Sigma 1 ≤ r.Sigma 0 * r.Sigma 0 := by nlinarith
  have u10 : r.U 1 0 = 0 := by
    by_contra hne
    have s0 : r.Sigma 0 * r.Sigma 0 = b * b := by
      apply mul_left_cancel₀ hne; linarith
    have u00 : r.U 0 0 = 0 := by
      by_contra h1
      have : r.Sigma 0 * r.Sigma 0 = a * a := by
        apply mul_left_cancel₀ h1; linarith
      linarith
    have u11 : r.U 1 1 = 0 := by
      rw [u00, zero_mul, zero_add] at o01
      exact (mul_eq_zero.1 o01).resolve_left hne
    have u01 : r.U 0 1 ≠ 0 := by
      intro h1
      rw [u11, h1] at o11
      simp at o11
    have : r.Sigma 1 * r.Sigma 1 = a * a := by
      apply mul_left_cancel₀ u01; linarith
    linarith
  refine ⟨?_, u10⟩
  have u00 : r.U 0 0 ≠ 0 := by
    intro h1
    rw [u10, h1] at o00
    simp at o00
  rw [u10, zero_mul, add_zero] at o01
  exact (mul_eq_zero.1 o01).resolve_left u00

/-- C147: for two uncorrelated features the vector of the C++ engine is, up to its sign, the scatter matrix times the difference of the means: the
feature that varies more gets the larger weight. -/
theorem C147_uncorrelated {a b : K} (ha : 0 < a) (hb : 0 < b) (hab : a ≠ b) (svd : Matrix (Fin 2) (Fin 2) K → SVD K 2)
    (h : IsSVD (!![a, 0; 0, b]) (svd !![a, 0; 0, b])) (mu0 mu1 : Fin 2 → K) :
    ∃ c : K, c * c = 1 ∧ getWCC svd (!![a, 0; 0, b]) mu0 mu1 = c • ((!![a, 0; 0, b]) *ᵥ (mu0 - mu1)) := by
  set r := svd !![a, 0; 0, b] with hr
  have o : ∀ i j, (r.Uᵀ * r.U) i j = (1 : Matrix (Fin 2) (Fin 2) K) i j := fun i j => by rw [h.orthU]
  have v : ∀ i j, (r.Vt * r.Vtᵀ) i j = (1 : Matrix (Fin 2) (Fin 2) K) i j := fun i j => by rw [h.orthV]
  have p : ∀ i j, (r.U * diagonal r.Sigma * r.Vt) i j = (!![a, 0; 0, b]) i j := fun i j => by rw [h.prod]
  have o00 := o 0 0
  have o11 := o 1 1
  have v00 := v 0 0
  have v11 := v 1 1
  have p00 := p 0 0
  have p01 := p 0 1
  have p10 := p 1 0
  have p11 := p 1 1
  have n0 := h.nonneg 0
  have n1 := h.nonneg 1
  simp [Matrix.mul_apply, Fin.sum_univ_two, Matrix.diagonal] at o00 o11 v00 v11 p00 p01 p10 p11
  have main : ∃ c : K, c * c = 1 ∧ r.Vt * diagonal r.Sigma * r.Uᵀ = c • !![a, 0; 0, b] := by
    rcases lt_or_gt_of_ne hab with hlt | hlt
    · obtain ⟨u0, u1⟩ := svd_swap ha hlt r h
      simp only [u0, u1, zero_mul, mul_zero, zero_add, add_zero] at o00 o11 p00 p01 p10 p11
      have s1 : r.Sigma 1 ≠ 0 := by rintro h0; rw [h0] at p00; simp at p00; exact ha.ne p00
      have s0 : r.Sigma 0 ≠ 0 := by rintro h0; rw [h0] at p11; simp at p11; exact hb.ne p11
      have w11 : r.Vt 1 1 = 0 := by
        rcases mul_eq_zero.1 p01 with h1 | h1
        · rcases mul_eq_zero.1 h1 with h2 | h2
          · rw [h2] at o11; simp at o11
          · exact absurd h2 s1
        · exact h1
      have w00 : r.Vt 0 0 = 0 := by
        rcases mul_eq_zero.1 p10 with h1 | h1
        · rcases mul_eq_zero.1 h1 with h2 | h2
          · rw [h2] at o00; simp at o00
          · exact absurd h2 s0
        · exact h1
      simp only [w00, w11, zero_mul, mul_zero, zero_add, add_zero] at v00 v11
      refine ⟨r.U 0 1 * r.U 1 0, by linear_combination r.U 0 1 * r.U 0 1 * o00 + o11, ?_⟩
      have t1 : r.Sigma 1 = r.U 0 1 * a * r.Vt 1 0 := by
        linear_combination r.U 0 1 * r.Vt 1 0 * p00 - r.Sigma 1 * r.Vt 1 0 * r.Vt 1 0 * o11 - r.Sigma 1 * v11
      have t0 : r.Sigma 0 = r.U 1 0 * b * r.Vt 0 1 := by
        linear_combination r.U 1 0 * r.Vt 0 1 * p11 - r.Sigma 0 * r.Vt 0 1 * r.Vt 0 1 * o00 - r.Sigma 0 * v00
      have q1 : (r.U 0 1 * r.Vt 1 0) * (r.U 0 1 * r.Vt 1 0) = 1 := by
        linear_combination r.Vt 1 0 * r.Vt 1 0 * o11 + v11
      have q0 : (r.U 1 0 * r.Vt 0 1) * (r.U 1 0 * r.Vt 0 1) = 1 := by
        linear_combination r.Vt 0 1 * r.Vt 0 1 * o00 + v00
      have g1 : r.U 0 1 * r.Vt 1 0 = 1 := by
        have : (r.U 0 1 * r.Vt 1 0 - 1) * (r.U 0 1 * r.Vt 1 0 + 1) = 0 := by linear_combination q1
        rcases mul_eq_zero.1 this with h | h
        · exact sub_eq_zero.1 h
        · exfalso
          have : r.U 0 1 * r.Vt 1 0 = -1 := by linear_combination h
          nlinarith
      have g0 : r.U 1 0 * r.Vt 0 1 = 1 := by
        have : (r.U 1 0 * r.Vt 0 1 - 1) * (r.U 1 0 * r.Vt 0 1 + 1) = 0 := by linear_combination q0
        rcases mul_eq_zero.1 this with h | h
        · exact sub_eq_zero.1 h
        · exfalso
          have : r.U 1 0 * r.Vt 0 1 = -1 := by linear_combination h
          nlinarith
      have f1 : r.Sigma 1 = a := by linear_combination t1 + a * g1
      have f0 : r.Sigma 0 = b := by linear_combination t0 + b * g0
      have k1 : r.Vt 1 0 = r.U 0 1 := by linear_combination r.U 0 1 * g1 - r.Vt 1 0 * o11
      have k0 : r.Vt 0 1 = r.U 1 0 := by linear_combination r.U 1 0 * g0 - r.Vt 0 1 * o00
      ext i j
      fin_cases i <;> fin_cases j <;>
        simp [Matrix.mul_apply, Fin.sum_univ_two, Matrix.diagonal, u0, u1, w00, w11, f0, f1, k0, k1] <;> ring
    · obtain ⟨u0, u1⟩ := svd_keep hb hlt r h
      simp only [u0, u1, zero_mul, mul_zero, zero_add, add_zero] at o00 o11 p00 p01 p10 p11
      have s1 : r.Sigma 1 ≠ 0 := by rintro h0; rw [h0] at p11; simp at p11; exact hb.ne p11
      have s0 : r.Sigma 0 ≠ 0 := by rintro h0; rw [h0] at p00; simp at p00; exact ha.ne p00
      have w01 : r.Vt 0 1 = 0 := by
        rcases mul_eq_zero.1 p01 with h1 | h1
        · rcases mul_eq_zero.1 h1 with h2 | h2
          · rw [h2] at o00; simp at o00
          · exact absurd h2 s0
        · exact h1
      have w10 : r.Vt 1 0 = 0 := by
        rcases mul_eq_zero.1 p10 with h1 | h1
        · rcases mul_eq_zero.1 h1 with h2 | h2
          · rw [h2] at o11; simp at o11
          · exact absurd h2 s1
        · exact h1
      simp only [w01, w10, zero_mul, mul_zero, zero_add, add_zero] at v00 v11
      refine ⟨1, by ring, ?_⟩
      rw [one_smul]
      ext i j
      fin_cases i <;> fin_cases j <;>
        simp [Matrix.mul_apply, Fin.sum_univ_two, Matrix.diagonal, u0, u1, w01, w10]
      · linear_combination p00
      · linear_combination p11
  obtain ⟨c, hc, hm⟩ := main
  refine ⟨c, hc, ?_⟩
  rw [getWCC, ← hr, hm, smul_mulVec]

/-- C147: hence it is not even on the line of the vector asked for, unless the classes differ in one of the two features only. -/
theorem C147_wrong_line {a b : K} (ha : 0 < a) (hb : 0 < b) (hab : a ≠ b) (svd : Matrix (Fin 2) (Fin 2) K → SVD K 2)
    (h : IsSVD (!![a, 0; 0, b]) (svd !![a, 0; 0, b])) (mu0 mu1 : Fin 2 → K) (h0 : mu0 0 ≠ mu1 0) (h1 : mu0 1 ≠ mu1 1) (t : K) :
    (!![a, 0; 0, b]) *ᵥ (t • getWCC svd (!![a, 0; 0, b]) mu0 mu1) ≠ mu0 - mu1 := by
  obtain ⟨c, hc, hw⟩ := C147_uncorrelated ha hb hab svd h mu0 mu1
  intro he
  rw [hw] at he
  have e0 := congrFun he 0
  have e1 := congrFun he 1
  simp [mulVec, dotProduct, Fin.sum_univ_two] at e0 e1
  have f0 : a * (t * (c * a)) = 1 := by
    apply mul_right_cancel₀ (sub_ne_zero.2 h0); linear_combination e0
  have f1 : b * (t * (c * b)) = 1 := by
    apply mul_right_cancel₀ (sub_ne_zero.2 h1); linear_combination e1
  have htc : t * c ≠ 0 := by
    intro h; rw [show a * (t * (c * a)) = t * c * (a * a) by ring, h, zero_mul] at f0; exact zero_ne_one f0
  have : a * a = b * b := by
    apply mul_left_cancel₀ htc; linear_combination f0 - f1
  have : (a - b) * (a + b) = 0 := by linear_combination this
  rcases mul_eq_zero.1 this with h | h
  · exact hab (sub_eq_zero.1 h)
  · linarith

/-- C147, the part that holds: with a single feature the predictions are those of the textbook vector. -/
theorem C147_one_feature_partial (svd : Matrix (Fin 1) (Fin 1) K → SVD K 1) (S : Matrix (Fin 1) (Fin 1) K) (mu0 mu1 w : Fin 1 → K)
    (h : IsSVD S (svd S)) (hw : getW S mu0 mu1 = .ok w) (x : List (Fin 1 → K)) :
    predict ⟨some (getWCC svd S mu0 mu1), some mu0, some mu1⟩ x = predict ⟨some w, some mu0, some mu1⟩ x := by
  have hdet : S.det ≠ 0 := by
    intro h; rw [getW, if_pos h] at hw; simp at hw
  obtain ⟨w', hw', hs⟩ := (C45_get_w_solves S mu0 mu1).1 hdet
  rw [hw] at hw'
  injection hw' with hw'
  subst hw'
  have hp := congrFun (congrFun h.prod 0) 0
  simp [Matrix.mul_apply] at hp
  have hs00 : S 0 0 ≠ 0 := by rwa [det_unique] at hdet
  have e : getWCC svd S mu0 mu1 = (S 0 0 * S 0 0) • w := by
    have hs0 := congrFun hs 0
    simp [mulVec, dotProduct] at hs0
    funext i
    rw [Subsingleton.elim i 0]
    simp [getWCC, mulVec, dotProduct, Matrix.mul_apply]
    linear_combination (mu0 0 - mu1 0) * hp - S 0 0 * hs0
  rw [e, C46_scale_invariant _ _ _ _ (mul_ne_zero hs00 hs00)]

/-- The data set of `C147_misclassified`. -/
def wideData : List (Fin 2 → ℚ) := [![10, 1], ![-10, 1], ![0, 0], ![0, 2], ![11, -3], ![-9, -3], ![1, -4], ![1, -2]]

/-- C147 is false of the predictions: the two classes of this data set are separated by the second feature, and the textbook vector classifies all
eight rows correctly; the model trained with the C++ engine puts the first row into class 1, and the sixth into class 0, for every decomposition. -/
theorem C147_misclassified (svd : Matrix (Fin 2) (Fin 2) ℚ → SVD ℚ 2) (h : IsSVD (!![400, 0; 0, 4]) (svd !![400, 0; 0, 4])) :
    (∃ m, LDA.fit getW wideData [0, 0, 0, 0, 1, 1, 1, 1] = .ok m ∧ predict m wideData = [0, 0, 0, 0, 1, 1, 1, 1]) ∧
    ∃ m, fitLDA svd wideData [0, 0, 0, 0, 1, 1, 1, 1] = .ok (some m) ∧
      predict m [![10, 1], ![-9, -3]] = [1, 0] := by
  have e0 : colMean (rowsOf wideData [0, 0, 0, 0, 1, 1, 1, 1] 0) = some ![0, 1] := by decide +kernel
  have e1 : colMean (rowsOf wideData [0, 0, 0, 0, 1, 1, 1, 1] 1) = some ![1, -3] := by decide +kernel
  have es : LDA.scatter (rowsOf wideData [0, 0, 0, 0, 1, 1, 1, 1] 0) (rowsOf wideData [0, 0, 0, 0, 1, 1, 1, 1] 1) ![0, 1] ![1, -3] =
      !![400, 0; 0, 4] := by decide +kernel
  constructor
  · have hdet : (!![(400 : ℚ), 0; 0, 4]).det ≠ 0 := by rw [det_fin_two]; norm_num
    obtain ⟨w, hw, hs⟩ := (C45_get_w_solves (!![(400 : ℚ), 0; 0, 4]) ![0, 1] ![1, -3]).1 hdet
    have hw2 : w = ![-1 / 400, 1] := by
      have s0 := congrFun hs 0
      have s1 := congrFun hs 1
      simp [mulVec, dotProduct, Fin.sum_univ_two] at s0 s1
      funext i
      fin_cases i
      · simp; linarith
      · simp; linarith
    subst hw2
    refine ⟨⟨some ![-1 / 400, 1], some ![0, 1], some ![1, -3]⟩, ?_, ?_⟩
    · rw [LDA.fit, if_neg (by decide)]
      simp only [e0, e1, Option.getD_some, es, hw, Option.isSome_some, Bool.and_self, if_true]
    · decide +kernel
  · obtain ⟨mu0, mu1, c0, c1, hf⟩ := C147_fit svd wideData [0, 0, 0, 0, 1, 1, 1, 1] (by decide) (by decide +kernel) (by decide +kernel)
    have m0 : mu0 = ![0, 1] := by
      have := c0.2
      have hr : rowsOf wideData [0, 0, 0, 0, 1, 1, 1, 1] 0 = [![10, 1], ![-10, 1], ![0, 0], ![0, 2]] := by decide +kernel
      rw [hr] at this
      have s0 := congrFun this 0
      have s1 := congrFun this 1
      simp [deviations, vecHead, vecTail] at s0 s1
      funext i
      fin_cases i
      · simp; linarith
      · simp; linarith
    have m1 : mu1 = ![1, -3] := by
      have := c1.2
      have hr : rowsOf wideData [0, 0, 0, 0, 1, 1, 1, 1] 1 = [![11, -3], ![-9, -3], ![1, -4], ![1, -2]] := by decide +kernel
      rw [hr] at this
      have s0 := congrFun this 0
      have s1 := congrFun this 1
      simp [deviations, vecHead, vecTail] at s0 s1
      funext i
      fin_cases i
      · simp; linarith
      · simp; linarith
    subst m0 m1
    rw [es] at hf
    obtain ⟨c, hc, hw⟩ := C147_uncorrelated (by norm_num) (by norm_num) (by norm_num) svd h ![0, 1] ![1, -3]
    refine ⟨_, hf, ?_⟩
    have hc0 : c ≠ 0 := by rintro rfl; simp at hc
    rw [hw, C46_scale_invariant _ _ _ _ hc0]
    decide +kernel

example : IsSVD (!![(400 : ℚ), 0; 0, 4]) ⟨1, ![400, 4], 1⟩ := by
  refine ⟨by simp, by simp, ?_, ?_, by decide +kernel⟩
  · intro i; fin_cases i <;> norm_num
  · intro i j h; fin_cases i <;> fin_cases j <;> first | (exfalso; revert h; decide) | norm_num

/-- C147: which vector comes out depends on the signs chosen by the decomposition: with this valid one, the projected means of two different
classes coincide and every row is put into class 0. -/
theorem C147_means_coincide :
    IsSVD (!![(288 / 25 : ℚ), 84 / 25; 84 / 25, 337 / 25]) ⟨!![3 / 5, -4 / 5; 4 / 5, 3 / 5], ![16, 9], !![3 / 5, 4 / 5; -4 / 5, 3 / 5]⟩ ∧
    ∀ mu x : Fin 2 → ℚ, predict ⟨some (getWCC (fun _ => ⟨!![3 / 5, -4 / 5; 4 / 5, 3 / 5], ![16, 9], !![3 / 5, 4 / 5; -4 / 5, 3 / 5]⟩)
      (!![288 / 25, 84 / 25; 84 / 25, 337 / 25]) (mu + ![1, 0]) mu), some (mu + ![1, 0]), some mu⟩ [x] = [0] := by
  refine ⟨⟨by decide +kernel, by decide +kernel, ?_, ?_, by decide +kernel⟩, fun mu x => ?_⟩
  · intro i; fin_cases i <;> norm_num
  · intro i j h; fin_cases i <;> fin_cases j <;> first | (exfalso; revert h; decide) | norm_num
  · simp only [getWCC, add_sub_cancel_left]
    have : (!![(3 / 5 : ℚ), 4 / 5; -4 / 5, 3 / 5] * diagonal ![16, 9] * (!![3 / 5, -4 / 5; 4 / 5, 3 / 5])ᵀ) *ᵥ ![1, 0] = ![0, -12] := by
      decide +kernel
    rw [this]
    simp [predict, predictRow, dotProduct, Fin.sum_univ_two]

end CML.CC
