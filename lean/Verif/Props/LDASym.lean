import Verif.Props.LDA
import Verif.Lemmas.Sym
import Mathlib.Algebra.BigOperators.Field

set_option linter.unusedSectionVars false

/-! # Properties C192, C193: linear discriminant analysis and changes of coordinates, the order of the samples, the names of the classes -/

namespace CML.LDA
open Finset Matrix

variable {K : Type} [Field K] [LinearOrder K] [IsStrictOrderedRing K] {d : Nat}

variable {A : Matrix (Fin d) (Fin d) K} {t : Fin d → K}

theorem rowsOf_map (φ : (Fin d → K) → (Fin d → K)) (x : List (Fin d → K)) (y : List Int) (c : Int) : rowsOf (x.map φ) y c = (rowsOf x y c).map φ := by
  unfold rowsOf
  induction x generalizing y with
  | nil => simp
  | cons r x ih =>
    cases y with
    | nil => simp
    | cons b y =>
      simp only [List.map_cons, List.zip_cons_cons, List.filter_cons]
      by_cases h : (b == c) = true
      · rw [if_pos h, if_pos h]; simp [ih]
      · rw [if_neg h, if_neg h]; exact ih y

theorem colMean_move (X : List (Fin d → K)) : colMean (X.map (move A t)) = (colMean X).map (move A t) := by
  unfold colMean
  simp only [List.length_map]
  by_cases h : X.length = 0
  · rw [if_pos h, if_pos h]; rfl
  · rw [if_neg h, if_neg h, Option.map_some]
    congr 1
    funext j
    have hn : (X.length : K) ≠ 0 := by exact_mod_cast h
    have key : ((X.map (move A t)).map fun r => r j).sum = ∑ k, A j k * (X.map fun r => r k).sum + X.length * t j := by
      clear h hn
      induction X with
      | nil => simp
      | cons r X ih =>
        simp only [List.map_cons, List.sum_cons, ih, List.length_cons, move, Pi.add_apply, mulVec, dotProduct, mul_add, Finset.sum_add_distrib]
        push_cast; ring
    rw [key]
    simp only [move, Pi.add_apply, mulVec, dotProduct]
    rw [add_div, mul_div_cancel_left₀ _ hn, Finset.sum_div]
    congr 1
    exact Finset.sum_congr rfl fun k _ => by ring

theorem outer_mulVec (v : Fin d → K) : outer (A *ᵥ v) = A * outer v * Aᵀ := by
  ext a b
  simp only [outer, mulVec, dotProduct, Matrix.mul_apply, transpose_apply, Finset.sum_mul, Finset.mul_sum]
  refine Finset.sum_congr rfl fun k _ => Finset.sum_congr rfl fun l _ => by ring

theorem classScatter_move (X : List (Fin d → K)) (mu : Fin d → K) : classScatter (X.map (move A t)) (move A t mu) = A * classScatter X mu * Aᵀ := by
  rw [classScatter_eq, classScatter_eq]
  induction X with
  | nil => simp [deviations]
  | cons r X ih =>
    simp only [deviations, List.map_cons, List.sum_cons] at ih ⊢
    rw [ih, show move A t r - move A t mu = A *ᵥ (r - mu) by simp [move, mulVec_sub], outer_mulVec, mul_add, add_mul]

theorem classScatter_mean (X : List (Fin d → K)) : classScatter (X.map (move A t)) ((colMean (X.map (move A t))).getD 0) = A * classScatter X ((colMean X).getD 0) * Aᵀ := by
  rw [colMean_move]
  cases h : colMean X with
  | none =>
    have : X = [] := by
      unfold colMean at h
      split at h
      · rename_i h0; exact List.length_eq_zero_iff.1 h0
      · simp at h
    subst this
    have : ∀ mu : Fin d → K, classScatter [] mu = 0 := fun mu => by ext a b; simp [classScatter]
    simp [this]
  | some mu => exact classScatter_move X mu

theorem predict_move {w w' mu0 mu1 : Fin d → K} (hw : ∀ r, w' ⬝ᵥ (A *ᵥ r) = w ⬝ᵥ r) (r : Fin d → K) :
    predictRow w' (move A t mu0) (move A t mu1) (move A t r) = predictRow w mu0 mu1 r := by
  have h : ∀ r, w' ⬝ᵥ move A t r = w ⬝ᵥ r + w' ⬝ᵥ t := fun r => by rw [move, dotProduct_add, hw]
  simp only [predictRow, dotProduct_comm _ w', dotProduct_comm _ w, h, add_sub_add_right_eq_sub]

/-- **C192.** With `get_w` (the exact formula) linear discriminant analysis does not depend on the coordinates: after any invertible affine change of the features `fit` raises in the same cases
and the trained model gives every row the label it had. -/
theorem C192_get_w (hA : A.det ≠ 0) (x : List (Fin d → K)) (y : List Int) :
    (∃ e, fit getW x y = .error e ∧ fit getW (x.map (move A t)) y = .error e) ∨
    ∃ M M', fit getW x y = .ok M ∧ fit getW (x.map (move A t)) y = .ok M' ∧ ∀ rows, predict M' (rows.map (move A t)) = predict M rows := by
  simp only [fit, List.length_map, rowsOf_map]
  by_cases hl : x.length ≠ y.length
  · rw [if_pos hl, if_pos hl]; exact .inl ⟨_, rfl, rfl⟩
  rw [if_neg hl, if_neg hl]
  have hS : scatter ((rowsOf x y 0).map (move A t)) ((rowsOf x y 1).map (move A t)) ((colMean ((rowsOf x y 0).map (move A t))).getD 0) ((colMean ((rowsOf x y 1).map (move A t))).getD 0) =
      A * scatter (rowsOf x y 0) (rowsOf x y 1) ((colMean (rowsOf x y 0)).getD 0) ((colMean (rowsOf x y 1)).getD 0) * Aᵀ := by
    rw [scatter, scatter, classScatter_mean, classScatter_mean, mul_add, add_mul]
  rw [hS]
  generalize scatter (rowsOf x y 0) (rowsOf x y 1) ((colMean (rowsOf x y 0)).getD 0) ((colMean (rowsOf x y 1)).getD 0) = S
  have hdet : (A * S * Aᵀ).det = 0 ↔ S.det = 0 := by rw [det_mul, det_mul, det_transpose]; simp [hA]
  simp only [getW, hdet, colMean_move]
  by_cases h0 : S.det = 0
  · rw [if_pos h0, if_pos h0]; exact .inl ⟨_, rfl, rfl⟩
  rw [if_neg h0, if_neg h0]
  refine .inr ⟨_, _, rfl, rfl, fun rows => ?_⟩
  cases hm0 : colMean (rowsOf x y 0) with
  | none => simp [predict, Function.comp_def]
  | some mu0 =>
    cases hm1 : colMean (rowsOf x y 1) with
    | none => simp [predict, Function.comp_def]
    | some mu1 =>
      simp only [predict, Option.map_some, Option.isSome_some, Bool.and_self, if_true, Option.getD_some, List.map_map]
      refine List.map_congr_left fun r _ => predict_move (fun v => ?_) r
      have hu : IsUnit A.det := isUnit_iff_ne_zero.2 hA
      have hAt : IsUnit Aᵀ.det := by rw [det_transpose]; exact hu
      rw [show move A t mu0 - move A t mu1 = A *ᵥ (mu0 - mu1) by simp [move, mulVec_sub], dotProduct_mulVec, ← mulVec_transpose, mulVec_mulVec, mulVec_mulVec,
        Matrix.mul_inv_rev, Matrix.mul_inv_rev, show Aᵀ * (Aᵀ⁻¹ * (S⁻¹ * A⁻¹)) * A = S⁻¹ by
          rw [← Matrix.mul_assoc, mul_nonsing_inv _ hAt, Matrix.one_mul, Matrix.mul_assoc, nonsing_inv_mul _ hu, Matrix.mul_one]]

/-- A model in coordinates with another origin. -/
theorem fit_shift (gw : Matrix (Fin d) (Fin d) K → (Fin d → K) → (Fin d → K) → Except PyErr (Fin d → K)) (hg : ∀ S mu0 mu1, gw S (mu0 + t) (mu1 + t) = gw S mu0 mu1)
    (x : List (Fin d → K)) (y : List Int) (h0 : rowsOf x y 0 ≠ []) (h1 : rowsOf x y 1 ≠ []) :
    fit gw (x.map (· + t)) y = (fit gw x y).map fun M => { M with mu0 := M.mu0.map (· + t), mu1 := M.mu1.map (· + t) } := by
  have hmv : (fun r : Fin d → K => r + t) = move 1 t := by funext r; simp [move]
  rw [hmv]
  simp only [fit, List.length_map, rowsOf_map]
  by_cases hl : x.length ≠ y.length
  · rw [if_pos hl, if_pos hl]; rfl
  rw [if_neg hl, if_neg hl]
  have hsome : ∀ X : List (Fin d → K), X ≠ [] → ∃ mu, colMean X = some mu := fun X hX => by
    unfold colMean; rw [if_neg (fun h => hX (List.length_eq_zero_iff.1 h))]; exact ⟨_, rfl⟩
  obtain ⟨mu0, e0⟩ := hsome _ h0
  obtain ⟨mu1, e1⟩ := hsome _ h1
  simp only [colMean_move, e0, e1, Option.map_some, Option.getD_some, scatter, classScatter_move, Matrix.one_mul, transpose_one, Matrix.mul_one]
  rw [← hmv, hg]
  cases gw (classScatter (rowsOf x y 0) mu0 + classScatter (rowsOf x y 1) mu1) mu0 mu1 <;> rfl

/-- **C192.** What remains true of the shipped backend: its answers do not depend on the origin of the features. -/
theorem C192_origin_partial (svd : Matrix (Fin d) (Fin d) K → SVD K d) (t : Fin d → K) (x : List (Fin d → K)) (y : List Int) (h0 : rowsOf x y 0 ≠ []) (h1 : rowsOf x y 1 ≠ []) :
    (∃ e, fit (getWV2 svd) x y = .error e ∧ fit (getWV2 svd) (x.map (· + t)) y = .error e) ∨
    ∃ M M', fit (getWV2 svd) x y = .ok M ∧ fit (getWV2 svd) (x.map (· + t)) y = .ok M' ∧ ∀ rows, predict M' (rows.map (· + t)) = predict M rows := by
  rw [fit_shift (getWV2 svd) (fun S mu0 mu1 => by rw [getWV2, getWV2, add_sub_add_right_eq_sub]) x y h0 h1]
  cases fit (getWV2 svd) x y with
  | error e => exact .inl ⟨e, rfl, rfl⟩
  | ok M =>
    refine .inr ⟨_, _, rfl, rfl, fun rows => ?_⟩
    simp only [predict, List.map_map]
    refine List.map_congr_left fun r _ => ?_
    cases M.w with
    | none => rfl
    | some w =>
      cases M.mu0 with
      | none => rfl
      | some mu0 =>
        cases M.mu1 with
        | none => rfl
        | some mu1 =>
          have := predict_move (A := 1) (t := t) (w := w) (w' := w) (mu0 := mu0) (mu1 := mu1) (fun r => by rw [one_mulVec]) r
          simpa [move] using this

/-- The decomposition with the two axes exchanged. -/
theorem svd_exchange {a b : K} {r : SVD K 2} (h : IsSVD (!![b, 0; 0, a]) r) : IsSVD (!![a, 0; 0, b]) ⟨!![0, 1; 1, 0] * r.U, r.Sigma, r.Vt * !![0, 1; 1, 0]⟩ := by
  have hP : (!![0, 1; 1, 0] : Matrix (Fin 2) (Fin 2) K) * !![0, 1; 1, 0] = 1 := by
    ext i j; fin_cases i <;> fin_cases j <;> simp
  have hPt : (!![0, 1; 1, 0] : Matrix (Fin 2) (Fin 2) K)ᵀ = !![0, 1; 1, 0] := by
    ext i j; fin_cases i <;> fin_cases j <;> simp
  refine ⟨?_, ?_, h.nonneg, h.sorted, ?_⟩
  · rw [transpose_mul, hPt, show r.Uᵀ * !![0, 1; 1, 0] * (!![0, 1; 1, 0] * r.U) = r.Uᵀ * (!![0, 1; 1, 0] * !![0, 1; 1, 0]) * r.U by simp only [Matrix.mul_assoc], hP,
      Matrix.mul_one, h.orthU]
  · rw [transpose_mul, hPt, show r.Vt * !![0, 1; 1, 0] * (!![0, 1; 1, 0] * r.Vtᵀ) = r.Vt * (!![0, 1; 1, 0] * !![0, 1; 1, 0]) * r.Vtᵀ by simp only [Matrix.mul_assoc], hP,
      Matrix.mul_one, h.orthV]
  · show !![0, 1; 1, 0] * r.U * diagonal r.Sigma * (r.Vt * !![0, 1; 1, 0]) = _
    rw [show !![0, 1; 1, 0] * r.U * diagonal r.Sigma * (r.Vt * !![0, 1; 1, 0]) = !![0, 1; 1, 0] * (r.U * diagonal r.Sigma * r.Vt) * !![0, 1; 1, 0] by simp only [Matrix.mul_assoc], h.prod]
    ext i j; fin_cases i <;> fin_cases j <;> simp [Matrix.mul_apply, Fin.sum_univ_two]

/-- The decomposition of the transposed matrix. -/
theorem svd_transpose {S : Matrix (Fin d) (Fin d) K} {r : SVD K d} (h : IsSVD S r) : IsSVD Sᵀ ⟨r.Vtᵀ, r.Sigma, r.Uᵀ⟩ := by
  refine ⟨?_, ?_, h.nonneg, h.sorted, ?_⟩
  · simpa using h.orthV
  · simpa using h.orthU
  · rw [← h.prod]; simp [Matrix.mul_assoc]

theorem svd_straight {a b : K} (ha : 0 < a) (hb : a < b) (r : SVD K 2) (h : IsSVD (!![b, 0; 0, a]) r) : r.U 0 1 = 0 ∧ r.U 1 0 = 0 := by
  obtain ⟨h1, h2⟩ := svd_swap ha hb _ (svd_exchange h)
  simp [Matrix.mul_apply, Fin.sum_univ_two] at h1 h2
  exact ⟨h2, h1⟩

/-- **C192** is false of the shipped backend: exchanging the two features of this data set changes the answers, whatever decomposition LAPACK returns.  Before the exchange the mean of class 1 is
labelled 0, after it 1. -/
theorem C192_violated (svd : Matrix (Fin 2) (Fin 2) ℚ → SVD ℚ 2) (h : IsSVD (!![2, 0; 0, 8]) (svd !![2, 0; 0, 8])) (h' : IsSVD (!![8, 0; 0, 2]) (svd !![8, 0; 0, 2]))
    (m m' : Trained ℚ 2) (hm : fit (getWV2 svd) [![1, 0], ![-1, 0], ![0, 12], ![0, 8]] [0, 0, 1, 1] = .ok m)
    (hm' : fit (getWV2 svd) [![0, 1], ![0, -1], ![12, 0], ![8, 0]] [0, 0, 1, 1] = .ok m') :
    predict m [![0, 10]] = [0] ∧ predict m' [![10, 0]] = [1] := by
  constructor
  · have := (C81_violated svd h m hm).2.2
    simp only [predict, List.map_cons, List.map_nil, List.cons.injEq, and_true] at this ⊢
    exact this.2
  · have e0 : colMean (rowsOf [![(0 : ℚ), 1], ![0, -1], ![12, 0], ![8, 0]] [0, 0, 1, 1] 0) = some ![0, 0] := by decide +kernel
    have e1 : colMean (rowsOf [![(0 : ℚ), 1], ![0, -1], ![12, 0], ![8, 0]] [0, 0, 1, 1] 1) = some ![10, 0] := by decide +kernel
    have es : scatter (rowsOf [![(0 : ℚ), 1], ![0, -1], ![12, 0], ![8, 0]] [0, 0, 1, 1] 0)
        (rowsOf [![0, 1], ![0, -1], ![12, 0], ![8, 0]] [0, 0, 1, 1] 1) ![0, 0] ![10, 0] = !![8, 0; 0, 2] := by decide +kernel
    rw [fit, if_neg (by simp)] at hm'
    simp only [e0, e1, Option.getD_some, es, Option.isSome_some, Bool.and_self, if_true] at hm'
    obtain ⟨u1, u2⟩ := svd_straight (by norm_num) (by norm_num) _ h'
    have ht := svd_transpose h'
    rw [show (!![(8 : ℚ), 0; 0, 2])ᵀ = !![8, 0; 0, 2] by ext i j; fin_cases i <;> fin_cases j <;> simp] at ht
    obtain ⟨v1, v2⟩ := svd_straight (by norm_num) (by norm_num) _ ht
    have hdet : ∀ i, (svd !![8, 0; 0, 2]).Sigma i ≠ 0 := by
      intro i hi
      have := (C45_v2_singular svd !![8, 0; 0, 2] 0 0 h').2 (by rw [det_fin_two]; norm_num)
      rw [getWV2, if_pos ⟨i, hi⟩] at this
      simp at this
    obtain ⟨w, hw, hs⟩ := C45_v2_partial svd !![8, 0; 0, 2] ![0, 0] ![10, 0] h' (fun i j hij => by
        fin_cases i <;> fin_cases j <;> first | exact absurd rfl hij | exact u1 | exact u2) (fun i j hij => by
        fin_cases i <;> fin_cases j <;> first | exact absurd rfl hij | exact v1 | exact v2) hdet
    rw [hw] at hm'
    injection hm' with hm'
    have w0 := congrFun hs 0
    have w1 := congrFun hs 1
    simp [mulVec, dotProduct, Fin.sum_univ_two] at w0 w1
    have : w = ![-(10 / 8), 0] := by
      funext i; fin_cases i
      · show w 0 = -(10 / 8); linarith
      · exact w1
    subst this
    rw [← hm']
    decide +kernel

/-- The hypotheses of `C192_violated` can be met by one function. -/
example : ∃ svd : Matrix (Fin 2) (Fin 2) ℚ → SVD ℚ 2, IsSVD (!![2, 0; 0, 8]) (svd !![2, 0; 0, 8]) ∧ IsSVD (!![8, 0; 0, 2]) (svd !![8, 0; 0, 2]) := by
  refine ⟨fun S => if S 0 0 = 2 then ⟨!![0, 1; 1, 0], ![8, 2], !![0, 1; 1, 0]⟩ else ⟨1, ![8, 2], 1⟩, ?_, ?_⟩
  · simp only [Matrix.of_apply, Matrix.cons_val', Matrix.cons_val_zero, if_true]
    refine ⟨by decide +kernel, by decide +kernel, ?_, ?_, by decide +kernel⟩
    · intro i; fin_cases i <;> norm_num
    · intro i j h; fin_cases i <;> fin_cases j <;> first | (exfalso; revert h; decide) | norm_num
  · show IsSVD _ (if (!![(8 : ℚ), 0; 0, 2]) 0 0 = 2 then _ else _)
    rw [if_neg (by decide +kernel)]
    refine ⟨by decide +kernel, by decide +kernel, ?_, ?_, by decide +kernel⟩
    · intro i; fin_cases i <;> norm_num
    · intro i j h; fin_cases i <;> fin_cases j <;> first | (exfalso; revert h; decide) | norm_num

/-! ## C193: the order of the samples and the names of the classes -/

theorem colMean_perm {X X' : List (Fin d → K)} (h : X.Perm X') : colMean X = colMean X' := by
  unfold colMean
  simp only [h.length_eq, (h.map _).sum_eq]

theorem classScatter_perm {X X' : List (Fin d → K)} (h : X.Perm X') (mu : Fin d → K) : classScatter X mu = classScatter X' mu := by
  ext a b; exact (h.map _).sum_eq

/-- **C193.** The trained model does not depend on the order of the samples, with every backend. -/
theorem C193_order (gw : Matrix (Fin d) (Fin d) K → (Fin d → K) → (Fin d → K) → Except PyErr (Fin d → K)) (x x' : List (Fin d → K)) (y y' : List Int) (hl : x.length = y.length)
    (hl' : x'.length = y'.length) (h : (x.zip y).Perm (x'.zip y')) : fit gw x y = fit gw x' y' := by
  have hr : ∀ c, (rowsOf x y c).Perm (rowsOf x' y' c) := fun c => (h.filter _).map _
  simp only [fit, hl, hl', colMean_perm (hr 0), colMean_perm (hr 1), scatter, classScatter_perm (hr 0), classScatter_perm (hr 1), ne_eq, not_true_eq_false, if_false]

theorem rowsOf_other (x : List (Fin d → K)) (y : List Int) (c : Int) : rowsOf x (y.map other) c = rowsOf x y (other c) := by
  unfold rowsOf
  induction x generalizing y with
  | nil => simp
  | cons r x ih =>
    cases y with
    | nil => simp
    | cons b y =>
      simp only [List.map_cons, List.zip_cons_cons, List.filter_cons]
      have : (other b == c) = (b == other c) := by
        rw [Bool.eq_iff_iff]; simp only [beq_iff_eq, other]; omega
      rw [this]
      by_cases h : (b == other c) = true
      · rw [if_pos h, if_pos h]; simp [ih]
      · rw [if_neg h, if_neg h]; exact ih y

/-- **C193.** Exchanging the classes exchanges the answers, except for rows exactly in the middle, which always get class 0.  `gw` is any backend that is odd in the difference of the means, as `get_w`
and `get_w_v2` are. -/
theorem C193_classes (gw : Matrix (Fin d) (Fin d) K → (Fin d → K) → (Fin d → K) → Except PyErr (Fin d → K))
    (hg : ∀ S mu0 mu1, gw S mu1 mu0 = (gw S mu0 mu1).map fun w => -w) (x : List (Fin d → K)) (y : List Int) (h0 : rowsOf x y 0 ≠ []) (h1 : rowsOf x y 1 ≠ []) :
    (∃ e, fit gw x y = .error e ∧ fit gw x (y.map other) = .error e) ∨
    ∃ w mu0 mu1, fit gw x y = .ok ⟨some w, some mu0, some mu1⟩ ∧ fit gw x (y.map other) = .ok ⟨some (-w), some mu1, some mu0⟩ ∧
      ∀ r, (projDist w r mu0 ≠ projDist w r mu1 → predictRow (-w) mu1 mu0 r = other (predictRow w mu0 mu1 r)) ∧
        (projDist w r mu0 = projDist w r mu1 → predictRow (-w) mu1 mu0 r = 0 ∧ predictRow w mu0 mu1 r = 0) := by
  have hsome : ∀ X : List (Fin d → K), X ≠ [] → ∃ mu, colMean X = some mu := fun X hX => by
    unfold colMean; rw [if_neg (fun h => hX (List.length_eq_zero_iff.1 h))]; exact ⟨_, rfl⟩
  obtain ⟨mu0, e0⟩ := hsome _ h0
  obtain ⟨mu1, e1⟩ := hsome _ h1
  simp only [fit, List.length_map, rowsOf_other]
  by_cases hl : x.length ≠ y.length
  · rw [if_pos hl, if_pos hl]; exact .inl ⟨_, rfl, rfl⟩
  rw [if_neg hl, if_neg hl, show other 0 = 1 from rfl, show other 1 = 0 from rfl, e0, e1]
  simp only [Option.getD_some, scatter]
  rw [add_comm (classScatter (rowsOf x y 1) mu1), hg (classScatter (rowsOf x y 0) mu0 + classScatter (rowsOf x y 1) mu1) mu0 mu1]
  cases gw (classScatter (rowsOf x y 0) mu0 + classScatter (rowsOf x y 1) mu1) mu0 mu1 with
  | error e => exact .inl ⟨e, rfl, rfl⟩
  | ok w =>
    refine .inr ⟨w, mu0, mu1, rfl, rfl, fun r => ?_⟩
    have hn : ∀ u v : K, |-u - -v| = |u - v| := fun u v => by rw [← abs_neg]; congr 1; ring
    simp only [predictRow, projDist, neg_dotProduct, dotProduct_neg, hn, dotProduct_comm r w]
    constructor
    · intro hne
      rcases lt_or_gt_of_ne hne with hlt | hgt
      · rw [if_pos hlt, if_neg (not_lt.2 hlt.le)]; rfl
      · rw [if_neg (not_lt.2 hgt.le), if_pos hgt]; rfl
    · intro heq
      rw [heq]; simp

/-- Both Python functions are odd. -/
theorem C193_backends (svd : Matrix (Fin d) (Fin d) K → SVD K d) :
    (∀ S mu0 mu1, getW (K := K) (d := d) S mu1 mu0 = (getW S mu0 mu1).map fun w => -w) ∧ ∀ S mu0 mu1, getWV2 svd S mu1 mu0 = (getWV2 svd S mu0 mu1).map fun w => -w := by
  constructor
  · intro S mu0 mu1
    unfold getW
    by_cases h : S.det = 0
    · rw [if_pos h, if_pos h]; rfl
    · rw [if_neg h, if_neg h]; simp only [Except.map, ← mulVec_neg, neg_sub]
  · intro S mu0 mu1
    unfold getWV2
    by_cases h : ∃ i, (svd S).Sigma i = 0
    · rw [if_pos h, if_pos h]; rfl
    · rw [if_neg h, if_neg h]; simp only [Except.map, ← mulVec_neg, neg_sub]

/-- Two classes of two samples. -/
example : rowsOf [![(0 : ℚ), 1], ![0, -1], ![5, 0], ![3, 0]] [0, 0, 1, 1] 0 ≠ [] ∧ rowsOf [![(0 : ℚ), 1], ![0, -1], ![5, 0], ![3, 0]] [0, 0, 1, 1] 1 ≠ [] := by decide +kernel

end CML.LDA
