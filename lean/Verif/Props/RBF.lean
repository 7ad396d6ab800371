import Verif.Spec.RBF
import Verif.Lemmas.Network
import Mathlib.Analysis.SpecialFunctions.ExpDeriv
import Mathlib.Analysis.Calculus.Deriv.Pow
import Mathlib.Tactic.NormNum
import Mathlib.Tactic.Positivity
import Mathlib.Tactic.LinearCombination

set_option linter.unusedSectionVars false

/-! # Properties C53, C91–C93 of the RBF network -/

namespace CML.RBF
open Finset CML.Net

theorem init_shaped (h : Nat) (r s : ℕ → ℕ → ℝ) : Shaped h (init h r s) := ⟨⟨rfl, rfl⟩, ⟨rfl, rfl⟩, ⟨rfl, rfl⟩, ⟨rfl, rfl⟩⟩

/-- The closed form of `forward` for two features. -/
theorem forward_eq {h : Nat} {P : Params} (hP : Shaped h P) (x : Mat) (hx : x.cols = 2) :
    ∃ yp cache, forward x P = .ok (yp, cache) ∧ yp.rows = x.rows ∧ yp.cols = 1 ∧
      (∀ i, yp.e i 0 = output h 2 (P.w.e 0) (P.beta.e 0) (P.b.e 0 0) P.c.e (x.e i)) ∧
      cache.rho.rows = x.rows ∧ cache.rho.cols = h ∧ cache.xci.rows = x.rows ∧ cache.xci.cols = h ∧ cache.w = P.w ∧
      (∀ i, ∀ u < h, cache.xci.e i u = ∑ l ∈ range 2, (x.e i l - P.c.e u l) ^ 2 ∧
        cache.rho.e i u = Real.exp (-P.beta.e 0 u * ∑ l ∈ range 2, (x.e i l - P.c.e u l) ^ 2)) := by
  obtain ⟨⟨w1, w2⟩, ⟨b1, b2⟩, ⟨c1, c2⟩, ⟨e1, e2⟩⟩ := hP
  have hd : ∃ d : ℕ → ℕ → ℝ, (if P.c.rows = 0 then some fun _ _ => (0 : ℝ) else sqDist x P.c) = some d ∧
      ∀ i, ∀ u < h, d i u = ∑ l ∈ range 2, (x.e i l - P.c.e u l) ^ 2 := by
    by_cases hc : P.c.rows = 0
    · exact ⟨_, by rw [if_pos hc], fun i u hu => by omega⟩
    · refine ⟨_, by rw [if_neg hc, sqDist, if_pos (by rw [hx, c2])], fun i u _ => by rw [hx]⟩
  obtain ⟨d, hd1, hd2⟩ := hd
  refine ⟨⟨x.rows, 1, fun i j => (∑ l ∈ range h, P.w.e j l * Real.exp (-P.beta.e 0 l * d i l)) + P.b.e 0 j⟩,
    ⟨⟨x.rows, P.c.rows, fun i u => Real.exp (-P.beta.e 0 u * d i u)⟩, ⟨x.rows, P.c.rows, d⟩, P.w⟩, ?_, rfl, rfl, ?_, rfl, c1, rfl, c1, rfl, ?_⟩
  · rw [c1] at hd1
    unfold forward
    simp only [c1, hd1]
    simp only [matmulT, c1, w1, w2, if_true, addBias, b1, b2, ne_eq, not_true_eq_false, if_false]
  · intro i
    simp only [output]
    congr 1
    refine Finset.sum_congr rfl fun u hu => ?_
    rw [hd2 i u (Finset.mem_range.1 hu)]
  · intro i u hu
    exact ⟨hd2 i u hu, by simp only [hd2 i u hu]⟩

/-- The gradients of the code in closed form, for labels of shape `(n, 1)`. -/
theorem backward_eq {h : Nat} {P : Params} (hP : Shaped h P) (x y : Mat) (hx : x.cols = 2) (hyr : y.rows = x.rows) (hyc : y.cols = 1) :
    ∃ yp cache g, forward x P = .ok (yp, cache) ∧ backward yp (.mat y) cache = .ok g ∧
      g.dw.rows = 1 ∧ g.dw.cols = h ∧ g.db.rows = 1 ∧ g.db.cols = 1 ∧ g.dbeta.rows = 1 ∧ g.dbeta.cols = h ∧
      (∀ u < h, g.dw.e 0 u = (∑ i ∈ range x.rows, (output h 2 (P.w.e 0) (P.beta.e 0) (P.b.e 0 0) P.c.e (x.e i) - y.e i 0) *
          Real.exp (-P.beta.e 0 u * ∑ l ∈ range 2, (x.e i l - P.c.e u l) ^ 2)) / (x.rows : ℝ)) ∧
      g.db.e 0 0 = (∑ i ∈ range x.rows, (output h 2 (P.w.e 0) (P.beta.e 0) (P.b.e 0 0) P.c.e (x.e i) - y.e i 0)) / (x.rows : ℝ) ∧
      (∀ u < h, g.dbeta.e 0 u = (∑ i ∈ range x.rows, output h 2 (P.w.e 0) (P.beta.e 0) (P.b.e 0 0) P.c.e (x.e i) * P.w.e 0 u *
          Real.exp (-P.beta.e 0 u * ∑ l ∈ range 2, (x.e i l - P.c.e u l) ^ 2) * (-∑ l ∈ range 2, (x.e i l - P.c.e u l) ^ 2)) / (x.rows : ℝ)) := by
  obtain ⟨yp, cache, h1, h2, h3, h4, h5, h6, h7, h8, h9, h10⟩ := forward_eq hP x hx
  obtain ⟨⟨w1, w2⟩, ⟨b1, b2⟩, ⟨c1, c2⟩, ⟨e1, e2⟩⟩ := hP
  refine ⟨yp, cache, ⟨⟨1, h, fun i j => (∑ l ∈ range x.rows, (yp.e l i - y.e l i) * cache.rho.e l j) / (x.rows : ℝ)⟩,
    ⟨1, 1, fun _ j => (∑ l ∈ range x.rows, (yp.e l j - y.e l j)) / (x.rows : ℝ)⟩,
    ⟨1, h, fun _ u => (∑ l ∈ range x.rows, (∑ q ∈ range 1, yp.e l q * P.w.e q u) * cache.rho.e l u * (-cache.xci.e l u)) / (x.rows : ℝ)⟩⟩,
    h1, ?_, rfl, rfl, rfl, rfl, rfl, rfl, ?_, ?_, ?_⟩
  · simp [backward, error, zipWith, hyr, hyc, h2, h3, tMatmul, matmul, h5, h6, h9, w1, w2, Labels.len]
  · intro u hu
    dsimp only
    congr 1
    exact Finset.sum_congr rfl fun i _ => by rw [h4, (h10 i u hu).2]
  · dsimp only
    congr 1
    exact Finset.sum_congr rfl fun i _ => by rw [h4]
  · intro u hu
    dsimp only
    congr 1
    exact Finset.sum_congr rfl fun i _ => by rw [Finset.sum_range_one, h4, (h10 i u hu).1, (h10 i u hu).2]

theorem half_sq {f : ℝ → ℝ} {f' t : ℝ} (y : ℝ) (h : HasDerivAt f f' t) : HasDerivAt (fun s => (f s - y) ^ 2 / 2) ((f t - y) * f') t := by
  have := ((h.sub_const y).fun_pow 2).div_const 2
  refine this.congr_deriv ?_
  simp
  ring

/-- C53, the part that holds: `dw` and `db` are the partial derivatives of half of the mean squared error with respect to every
output weight and the bias, at all parameters and data. -/
theorem C53_w_b_partial {h : Nat} {P : Params} (hP : Shaped h P) (x y : Mat) (hx : x.cols = 2) (hyr : y.rows = x.rows) (hyc : y.cols = 1) :
    ∃ yp cache g, forward x P = .ok (yp, cache) ∧ backward yp (.mat y) cache = .ok g ∧
      (∀ u < h, HasDerivAt (fun t => halfMSE x.rows h 2 (Function.update (P.w.e 0) u t) (P.beta.e 0) (P.b.e 0 0) P.c.e x.e (fun i => y.e i 0))
        (g.dw.e 0 u) (P.w.e 0 u)) ∧
      HasDerivAt (fun t => halfMSE x.rows h 2 (P.w.e 0) (P.beta.e 0) t P.c.e x.e (fun i => y.e i 0)) (g.db.e 0 0) (P.b.e 0 0) := by
  obtain ⟨yp, cache, g, h1, h2, -, -, -, -, -, -, h3, h4, -⟩ := backward_eq hP x y hx hyr hyc
  refine ⟨yp, cache, g, h1, h2, ?_, ?_⟩
  · intro u hu
    rw [h3 u hu]
    refine HasDerivAt.div_const (HasDerivAt.fun_sum fun i _ => ?_) _
    have : HasDerivAt (fun t => output h 2 (Function.update (P.w.e 0) u t) (P.beta.e 0) (P.b.e 0 0) P.c.e (x.e i))
        (Real.exp (-P.beta.e 0 u * ∑ l ∈ range 2, (x.e i l - P.c.e u l) ^ 2)) (P.w.e 0 u) := by
      unfold output
      refine HasDerivAt.add_const _ ?_
      have hs : HasDerivAt (fun t => ∑ v ∈ range h, Function.update (P.w.e 0) u t v * Real.exp (-P.beta.e 0 v * ∑ l ∈ range 2, (x.e i l - P.c.e v l) ^ 2))
          (∑ v ∈ range h, if v = u then Real.exp (-P.beta.e 0 u * ∑ l ∈ range 2, (x.e i l - P.c.e u l) ^ 2) else 0) (P.w.e 0 u) := by
        refine HasDerivAt.fun_sum fun v _ => ?_
        by_cases hv : v = u
        · subst hv
          simp only [Function.update_self, if_true]
          simpa using (hasDerivAt_id (P.w.e 0 v)).mul_const (Real.exp (-P.beta.e 0 v * ∑ l ∈ range 2, (x.e i l - P.c.e v l) ^ 2))
        · simp only [Function.update_of_ne hv, if_neg hv]
          exact hasDerivAt_const _ _
      refine hs.congr_deriv ?_
      rw [Finset.sum_ite_eq' (range h) u, if_pos (Finset.mem_range.2 hu)]
    have := half_sq (y.e i 0) this
    simpa only [Function.update_eq_self] using this
  · rw [h4]
    refine HasDerivAt.div_const (HasDerivAt.fun_sum fun i _ => ?_) _
    have : HasDerivAt (fun t => output h 2 (P.w.e 0) (P.beta.e 0) t P.c.e (x.e i)) 1 (P.b.e 0 0) := by
      unfold output
      exact (hasDerivAt_id _).const_add _
    simpa only [mul_one] using half_sq (y.e i 0) this

theorem beta_deriv {h : Nat} {P : Params} (x : Mat) (y : ℕ → ℝ) (u : Nat) (hu : u < h) :
    HasDerivAt (fun t => halfMSE x.rows h 2 (P.w.e 0) (Function.update (P.beta.e 0) u t) (P.b.e 0 0) P.c.e x.e y)
      ((∑ i ∈ range x.rows, (output h 2 (P.w.e 0) (P.beta.e 0) (P.b.e 0 0) P.c.e (x.e i) - y i) * (P.w.e 0 u *
          (Real.exp (-P.beta.e 0 u * ∑ l ∈ range 2, (x.e i l - P.c.e u l) ^ 2) * (-∑ l ∈ range 2, (x.e i l - P.c.e u l) ^ 2)))) / (x.rows : ℝ))
      (P.beta.e 0 u) := by
  refine HasDerivAt.div_const (HasDerivAt.fun_sum fun i _ => ?_) _
  have : HasDerivAt (fun t => output h 2 (P.w.e 0) (Function.update (P.beta.e 0) u t) (P.b.e 0 0) P.c.e (x.e i))
      (P.w.e 0 u * (Real.exp (-P.beta.e 0 u * ∑ l ∈ range 2, (x.e i l - P.c.e u l) ^ 2) * (-∑ l ∈ range 2, (x.e i l - P.c.e u l) ^ 2))) (P.beta.e 0 u) := by
    unfold output
    refine HasDerivAt.add_const _ ?_
    have hs : HasDerivAt (fun t => ∑ v ∈ range h, P.w.e 0 v * Real.exp (-Function.update (P.beta.e 0) u t v * ∑ l ∈ range 2, (x.e i l - P.c.e v l) ^ 2))
        (∑ v ∈ range h, if v = u then P.w.e 0 u * (Real.exp (-P.beta.e 0 u * ∑ l ∈ range 2, (x.e i l - P.c.e u l) ^ 2) *
          (-∑ l ∈ range 2, (x.e i l - P.c.e u l) ^ 2)) else 0) (P.beta.e 0 u) := by
      refine HasDerivAt.fun_sum fun v _ => ?_
      by_cases hv : v = u
      · subst hv
        simp only [Function.update_self, if_true]
        refine HasDerivAt.const_mul _ ?_
        refine HasDerivAt.exp ?_
        have := ((hasDerivAt_id (P.beta.e 0 v)).neg).mul_const (∑ l ∈ range 2, (x.e i l - P.c.e v l) ^ 2)
        simpa using this
      · simp only [Function.update_of_ne hv, if_neg hv]
        exact hasDerivAt_const _ _
    refine hs.congr_deriv ?_
    rw [Finset.sum_ite_eq' (range h) u, if_pos (Finset.mem_range.2 hu)]
  have := half_sq (y i) this
  simpa only [Function.update_eq_self] using this

/-- C53 fails for `dbeta`: what the code computes is the derivative of half of the mean squared *prediction*, that is of the loss
with all labels replaced by 0.  This holds for all parameters and data. -/
theorem C53_beta_ignores_labels {h : Nat} {P : Params} (hP : Shaped h P) (x y : Mat) (hx : x.cols = 2) (hyr : y.rows = x.rows) (hyc : y.cols = 1) :
    ∃ yp cache g, forward x P = .ok (yp, cache) ∧ backward yp (.mat y) cache = .ok g ∧
      ∀ u < h, HasDerivAt (fun t => halfMSE x.rows h 2 (P.w.e 0) (Function.update (P.beta.e 0) u t) (P.b.e 0 0) P.c.e x.e (fun _ => 0))
        (g.dbeta.e 0 u) (P.beta.e 0 u) := by
  obtain ⟨yp, cache, g, h1, h2, -, -, -, -, -, -, -, -, h3⟩ := backward_eq hP x y hx hyr hyc
  refine ⟨yp, cache, g, h1, h2, fun u hu => ?_⟩
  rw [h3 u hu]
  refine (beta_deriv x (fun _ => 0) u hu).congr_deriv ?_
  congr 1
  exact Finset.sum_congr rfl fun i _ => by rw [sub_zero]; ring

/-- As soon as all labels are positive (class 1 in every row), the weight of the unit is not zero and some sample is not at its
centre, the code's `dbeta` is not the derivative of the loss. -/
theorem C53_beta_wrong {h : Nat} {P : Params} (hP : Shaped h P) (x y : Mat) (hx : x.cols = 2) (hyr : y.rows = x.rows) (hyc : y.cols = 1)
    (hy : ∀ i < x.rows, 0 < y.e i 0) (u : Nat) (hu : u < h) (hw : P.w.e 0 u ≠ 0) (i : Nat) (hi : i < x.rows)
    (hc : ∃ l < 2, x.e i l ≠ P.c.e u l) :
    ∃ yp cache g, forward x P = .ok (yp, cache) ∧ backward yp (.mat y) cache = .ok g ∧
      ¬ HasDerivAt (fun t => halfMSE x.rows h 2 (P.w.e 0) (Function.update (P.beta.e 0) u t) (P.b.e 0 0) P.c.e x.e (fun i => y.e i 0))
        (g.dbeta.e 0 u) (P.beta.e 0 u) := by
  obtain ⟨yp, cache, g, h1, h2, -, -, -, -, -, -, -, -, h3⟩ := backward_eq hP x y hx hyr hyc
  refine ⟨yp, cache, g, h1, h2, fun hd => ?_⟩
  have he := hd.unique (beta_deriv x (fun i => y.e i 0) u hu)
  rw [h3 u hu] at he
  have hn : (0 : ℝ) < x.rows := by exact_mod_cast (by omega : 0 < x.rows)
  rw [div_left_inj' hn.ne', ← sub_eq_zero, ← Finset.sum_sub_distrib] at he
  have hpos : 0 < ∑ j ∈ range x.rows, y.e j 0 * (Real.exp (-P.beta.e 0 u * ∑ l ∈ range 2, (x.e j l - P.c.e u l) ^ 2) * ∑ l ∈ range 2, (x.e j l - P.c.e u l) ^ 2) := by
    have hnn : ∀ j, 0 ≤ ∑ l ∈ range 2, (x.e j l - P.c.e u l) ^ 2 := fun j => Finset.sum_nonneg fun l _ => sq_nonneg _
    refine Finset.sum_pos' (fun j hj => mul_nonneg (hy j (Finset.mem_range.1 hj)).le (mul_nonneg (Real.exp_pos _).le (hnn j))) ⟨i, Finset.mem_range.2 hi, ?_⟩
    refine mul_pos (hy i hi) (mul_pos (Real.exp_pos _) ?_)
    obtain ⟨l, hl, hne⟩ := hc
    exact Finset.sum_pos' (fun _ _ => sq_nonneg _) ⟨l, Finset.mem_range.2 hl, by have := sub_ne_zero.2 hne; positivity⟩
  have : P.w.e 0 u * ∑ j ∈ range x.rows, y.e j 0 * (Real.exp (-P.beta.e 0 u * ∑ l ∈ range 2, (x.e j l - P.c.e u l) ^ 2) * ∑ l ∈ range 2, (x.e j l - P.c.e u l) ^ 2) = 0 := by
    rw [Finset.mul_sum, ← neg_eq_zero, ← Finset.sum_neg_distrib, ← he]
    exact Finset.sum_congr rfl fun j _ => by ring
  rcases mul_eq_zero.1 this with h | h
  · exact hw h
  · exact hpos.ne' h

/-- The hypotheses of the two theorems above are met. -/
example : ∃ (P : Params) (x y : Mat), Shaped 1 P ∧ x.cols = 2 ∧ y.rows = x.rows ∧ y.cols = 1 ∧ (∀ i < x.rows, 0 < y.e i 0) ∧
    P.w.e 0 0 ≠ 0 ∧ 0 < x.rows ∧ ∃ l < 2, x.e 0 l ≠ P.c.e 0 l :=
  ⟨⟨⟨1, 1, fun _ _ => 1⟩, ⟨1, 1, fun _ _ => 0⟩, ⟨1, 2, fun _ _ => 0⟩, ⟨1, 1, fun _ _ => 1⟩⟩, ⟨1, 2, fun _ _ => 1⟩, ⟨1, 1, fun _ _ => 1⟩,
    ⟨⟨rfl, rfl⟩, ⟨rfl, rfl⟩, ⟨rfl, rfl⟩, ⟨rfl, rfl⟩⟩, rfl, rfl, rfl, fun _ _ => one_pos, one_ne_zero, one_pos, 0, by norm_num, one_ne_zero⟩

/-! ## C91 label vectors -/

/-- Labels given as a one-dimensional array of two or more entries — the shape of labels in the rest of the library — make the first
epoch raise `ValueError`, whatever the data and the parameters. -/
theorem C91_label_vector_refused (lr : ℝ) {h : Nat} {P : Params} (hP : Shaped h P) (x : Mat) (hx : x.cols = 2) (f : ℕ → ℝ) (n : Nat) (hn : 2 ≤ n)
    (epochs : Nat) : run lr x (.vec n f) (epochs + 1) P = .error .valueError := by
  obtain ⟨yp, cache, h1, h2, h3, h4, h5, h6, h7, h8, h9, h10⟩ := forward_eq hP x hx
  obtain ⟨⟨w1, w2⟩, ⟨b1, b2⟩, ⟨c1, c2⟩, ⟨e1, e2⟩⟩ := hP
  have hs : step lr x (.vec n f) P = .error .valueError := by
    unfold step
    simp only [h1, backward, error, h3, if_neg (show ¬ 1 = n by omega), if_neg (show ¬ n = 1 by omega), if_true, tMatmul, h2, h5, matmul, h9, w1]
    simp only [update, subInPlace, w1, if_neg (show ¬ ((n = 1 ∨ n = 1) ∧ (cache.rho.cols = P.w.cols ∨ cache.rho.cols = 1)) by omega)]
  rw [run, hs]

/-- With labels of shape `(n, 1)` and two features, training for any number of epochs never raises, keeps all shapes and never
changes the centres. -/
theorem C91_column_labels_partial (lr : ℝ) {h : Nat} (x y : Mat) (hx : x.cols = 2) (hyr : y.rows = x.rows) (hyc : y.cols = 1) (epochs : Nat) :
    ∀ P, Shaped h P → ∃ P', run lr x (.mat y) epochs P = .ok P' ∧ Shaped h P' ∧ P'.c = P.c := by
  induction epochs with
  | zero => intro P hP; exact ⟨P, rfl, hP, rfl⟩
  | succ n ih =>
    intro P hP
    obtain ⟨yp, cache, g, h1, h2, a1, a2, a3, a4, a5, a6, -⟩ := backward_eq hP x y hx hyr hyc
    obtain ⟨⟨w1, w2⟩, ⟨b1, b2⟩, ⟨c1, c2⟩, ⟨e1, e2⟩⟩ := hP
    have hs : ∃ P', step lr x (.mat y) P = .ok P' ∧ Shaped h P' ∧ P'.c = P.c := by
      unfold step
      simp only [h1, h2, update]
      rw [subInPlace, if_pos (by rw [a1, a2, w1, w2]; simp)]
      simp only []
      rw [subInPlace, if_pos (by rw [a3, a4, b1, b2]; simp)]
      simp only []
      rw [subInPlace, if_pos (by rw [a5, a6, e1, e2]; simp)]
      exact ⟨_, rfl, ⟨⟨w1, w2⟩, ⟨b1, b2⟩, ⟨c1, c2⟩, ⟨e1, e2⟩⟩, rfl⟩
    obtain ⟨P', hP1, hP2, hP3⟩ := hs
    obtain ⟨P'', q1, q2, q3⟩ := ih P' hP2
    exact ⟨P'', by rw [run, hP1]; exact q1, q2, q3.trans hP3⟩

/-! ## C92 the number of features -/

/-- The RBF network works on two features only: with three or more (or none) the first epoch raises `ValueError`, whatever the
data, the labels and the hidden units. -/
theorem C92_two_features_only (lr : ℝ) {h : Nat} (hh : 0 < h) {P : Params} (hP : Shaped h P) (x : Mat) (hx : x.cols ≠ 2) (hx1 : x.cols ≠ 1) (y : Labels)
    (epochs : Nat) : forward x P = .error .valueError ∧ run lr x y (epochs + 1) P = .error .valueError := by
  obtain ⟨⟨w1, w2⟩, ⟨b1, b2⟩, ⟨c1, c2⟩, ⟨e1, e2⟩⟩ := hP
  have hf : forward x P = .error .valueError := by
    unfold forward sqDist
    simp only [c1, c2, if_neg hh.ne', if_neg hx, if_neg hx1, show ¬ (2 : Nat) = 1 by omega, if_false]
  refine ⟨hf, ?_⟩
  rw [run, step, hf]

/-- What does hold: for two features every batch is accepted and the prediction is the textbook function of the row. -/
theorem C92_forward_partial {h : Nat} {P : Params} (hP : Shaped h P) (x : Mat) (hx : x.cols = 2) :
    ∃ yp cache, forward x P = .ok (yp, cache) ∧ yp.rows = x.rows ∧ yp.cols = 1 ∧
      ∀ i, yp.e i 0 = output h 2 (P.w.e 0) (P.beta.e 0) (P.b.e 0 0) P.c.e (x.e i) := by
  obtain ⟨yp, cache, h1, h2, h3, h4, -⟩ := forward_eq hP x hx
  exact ⟨yp, cache, h1, h2, h3, h4⟩

/-! ## C93 the first epoch -/

/-- After `fit` has initialised the parameters, the untrained network predicts 0 for every row, and the first epoch changes neither
the widths `beta` nor the centres; the bias moves to the learning rate times the mean label. -/
theorem C93_first_epoch (lr : ℝ) (h : Nat) (r s : ℕ → ℕ → ℝ) (x y : Mat) (hx : x.cols = 2) (hyr : y.rows = x.rows) (hyc : y.cols = 1) :
    (∃ yp c, forward x (init h r s) = .ok (yp, c) ∧ ∀ i, yp.e i 0 = 0) ∧
    ∃ P', step lr x (.mat y) (init h r s) = .ok P' ∧ P'.c = (init h r s).c ∧ (∀ u < h, P'.beta.e 0 u = (init h r s).beta.e 0 u) ∧
      P'.b.e 0 0 = lr * ((∑ i ∈ range x.rows, y.e i 0) / (x.rows : ℝ)) := by
  have h0 : ∀ z, output h 2 ((init h r s).w.e 0) ((init h r s).beta.e 0) ((init h r s).b.e 0 0) (init h r s).c.e z = 0 := by
    intro z
    unfold output
    simp [init]
  constructor
  · obtain ⟨yp, c, h1, -, -, h4, -⟩ := forward_eq (init_shaped h r s) x hx
    exact ⟨yp, c, h1, fun i => by rw [h4, h0]⟩
  · obtain ⟨yp, cache, g, h1, h2, a1, a2, a3, a4, a5, a6, -, hb, hbeta⟩ := backward_eq (init_shaped h r s) x y hx hyr hyc
    obtain ⟨⟨w1, w2⟩, ⟨b1, b2⟩, ⟨c1, c2⟩, ⟨e1, e2⟩⟩ := init_shaped h r s
    unfold step
    simp only [h1, h2, update]
    rw [subInPlace, if_pos (by rw [a1, a2, w1, w2]; simp)]
    simp only []
    rw [subInPlace, if_pos (by rw [a3, a4, b1, b2]; simp)]
    simp only []
    rw [subInPlace, if_pos (by rw [a5, a6, e1, e2]; simp)]
    refine ⟨_, rfl, rfl, ?_, ?_⟩
    · intro u hu
      simp only [a5, a6, e1, e2, if_true]
      rw [hbeta u hu]
      simp only [h0, zero_mul, Finset.sum_const_zero, zero_div, mul_zero, sub_zero]
    · simp only [a3, a4, b1, b2, if_true]
      rw [hb]
      simp only [h0, zero_sub, Finset.sum_neg_distrib]
      simp only [init]
      ring

/-- C92: data with one feature are not refused but silently broadcast: the prediction is that for the row with the feature duplicated. -/
theorem C92_one_feature {h : Nat} {P : Params} (hP : Shaped h P) (x : Mat) (hx : x.cols = 1) :
    ∃ yp cache, forward x P = .ok (yp, cache) ∧ yp.rows = x.rows ∧ yp.cols = 1 ∧
      ∀ i, yp.e i 0 = output h 2 (P.w.e 0) (P.beta.e 0) (P.b.e 0 0) P.c.e (fun _ => x.e i 0) := by
  obtain ⟨yp, cache, h1, h2, h3, h4⟩ := C92_forward_partial hP ⟨x.rows, 2, fun i _ => x.e i 0⟩ rfl
  have hd : (if P.c.rows = 0 then some (fun _ _ => (0 : ℝ)) else sqDist x P.c) =
      if P.c.rows = 0 then some (fun _ _ => (0 : ℝ)) else sqDist ⟨x.rows, 2, fun i _ => x.e i 0⟩ P.c := by
    split
    · rfl
    · simp [sqDist, hx, hP.2.2.1.2]
  refine ⟨yp, cache, ?_, h2, h3, h4⟩
  rw [← h1]
  unfold forward
  rw [hd]

/-- C92: likewise centres with a single column (which only a weights file can bring in) are broadcast against every feature. -/
theorem C92_one_column_centres (P : Params) (h : Nat) (hh : 0 < h) (hw : P.w.rows = 1 ∧ P.w.cols = h) (hb : P.b.rows = 1 ∧ P.b.cols = 1)
    (hc : P.c.rows = h ∧ P.c.cols = 1) (x : Mat) (hx : x.cols ≠ 1) :
    ∃ yp cache, forward x P = .ok (yp, cache) ∧ yp.rows = x.rows ∧ yp.cols = 1 ∧
      ∀ i, yp.e i 0 = output h x.cols (P.w.e 0) (P.beta.e 0) (P.b.e 0 0) (fun u _ => P.c.e u 0) (x.e i) := by
  obtain ⟨w1, w2⟩ := hw
  obtain ⟨b1, b2⟩ := hb
  obtain ⟨c1, c2⟩ := hc
  have hne : ¬ h = 0 := by omega
  refine ⟨⟨x.rows, 1, fun i j => (∑ l ∈ range h, P.w.e j l * Real.exp (-P.beta.e 0 l * ∑ k ∈ range x.cols, (x.e i k - P.c.e l 0) ^ 2)) + P.b.e 0 j⟩,
    ⟨⟨x.rows, h, fun i u => Real.exp (-P.beta.e 0 u * ∑ k ∈ range x.cols, (x.e i k - P.c.e u 0) ^ 2)⟩,
      ⟨x.rows, h, fun i u => ∑ k ∈ range x.cols, (x.e i k - P.c.e u 0) ^ 2⟩, P.w⟩, ?_, rfl, rfl, ?_⟩
  · unfold forward
    simp only [c1, if_neg hne, sqDist, c2, if_neg hx, if_true]
    simp only [matmulT, w1, w2, if_true, addBias, b1, b2, ne_eq, not_true_eq_false, if_false]
  · intro i
    simp only [output]

end CML.RBF
