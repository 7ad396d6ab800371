import Verif.Spec.Plots
import Mathlib.Tactic.Ring
import Mathlib.Tactic.Linarith
import Mathlib.Tactic.FieldSimp
import Mathlib.Tactic.NormNum
import Mathlib.Tactic.Positivity
import Mathlib.Data.Fin.VecNotation
import Mathlib.Algebra.BigOperators.Fin
import Mathlib.Algebra.BigOperators.Field

/-! # The figures of the linear models (C153, C154) -/

set_option linter.unusedSectionVars false

namespace CML.Plots
open Finset Matrix

variable {d : Nat}

theorem plotLDA_ok {trained loaded : Bool} {m : LDA.Trained ℝ d} {x : List (Fin d → ℝ)} {y : List Int} {f : LDAFigure}
    (hf : plotLDA trained loaded m x y = .ok f) : ∃ h : 2 ≤ d, f = ldaFigure h m x y := by
  unfold plotLDA at hf
  split_ifs at hf
  rename_i h3
  injection hf with hf
  exact ⟨h3, hf.symm⟩

theorem plotLR_ok {trained loaded : Bool} {beta : Fin (d + 1) → ℝ} {x : List (Fin 2 → ℝ)} {y : List Int} {f : LRFigure}
    (hf : plotLR trained loaded beta x y = .ok f) : ∃ h : 2 ≤ d, f = lrFigure h beta rfl x y := by
  unfold plotLR at hf
  split_ifs at hf
  rename_i h3
  injection hf with hf
  exact ⟨h3, hf.symm⟩

/-! ## C153: linear discriminant analysis -/

/-- C153: without training or loaded weights nothing is drawn: `ValueError`. -/
theorem C153_untrained (m : LDA.Trained ℝ d) (x : List (Fin d → ℝ)) (y : List Int) : plotLDA false false m x y = .error .valueError := rfl

/-- C153: a figure is drawn exactly if there are as many labels as samples and at least two features; otherwise `IndexError`. -/
theorem C153_drawn (trained loaded : Bool) (h : trained = true ∨ loaded = true) (m : LDA.Trained ℝ d) (x : List (Fin d → ℝ)) (y : List Int) :
    ((∃ f, plotLDA trained loaded m x y = .ok f) ↔ x.length = y.length ∧ 2 ≤ d) ∧
    (¬(x.length = y.length ∧ 2 ≤ d) → plotLDA trained loaded m x y = .error .indexError) := by
  have h0 : ¬(trained = false ∧ loaded = false) := by rcases h with h | h <;> simp [h]
  unfold plotLDA
  rw [if_neg h0]
  by_cases h1 : x.length = y.length
  · by_cases h2 : 2 ≤ d
    · simp [h1, h2]
    · simp [h1, h2]
  · simp [h1]

theorem mem_rowsOf {d : Nat} (x : List (Fin d → ℝ)) (y : List Int) (c : Int) (r : Fin d → ℝ) :
    r ∈ LDA.rowsOf x y c ↔ ∃ i : Nat, x[i]? = some r ∧ y[i]? = some c := by
  unfold LDA.rowsOf
  constructor
  · intro h
    obtain ⟨⟨a, b⟩, h1, h2⟩ := List.mem_map.1 h
    obtain ⟨h3, h4⟩ := List.mem_filter.1 h1
    simp only [beq_iff_eq] at h2 h4
    subst h2; subst h4
    obtain ⟨i, hi⟩ := List.mem_iff_getElem?.1 h3
    exact ⟨i, List.getElem?_zip_eq_some.1 hi⟩
  · rintro ⟨i, h1, h2⟩
    refine List.mem_map.2 ⟨(r, c), List.mem_filter.2 ⟨List.mem_iff_getElem?.2 ⟨i, List.getElem?_zip_eq_some.2 ⟨h1, h2⟩⟩, by simp⟩, rfl⟩

/-- C153: the markers of the two classes are the samples with label 0 and with label 1; other labels are left out. -/
theorem C153_samples (trained loaded : Bool) (m : LDA.Trained ℝ d) (x : List (Fin d → ℝ)) (y : List Int) (f : LDAFigure)
    (hf : plotLDA trained loaded m x y = .ok f) (h : 2 ≤ d) :
    (∀ p, p ∈ f.samples0 ↔ ∃ (i : Nat) (r : Fin d → ℝ), x[i]? = some r ∧ y[i]? = some 0 ∧ p = (r ⟨0, by omega⟩, r ⟨1, by omega⟩)) ∧
    (∀ p, p ∈ f.samples1 ↔ ∃ (i : Nat) (r : Fin d → ℝ), x[i]? = some r ∧ y[i]? = some 1 ∧ p = (r ⟨0, by omega⟩, r ⟨1, by omega⟩)) := by
  obtain ⟨h2, rfl⟩ := plotLDA_ok hf
  constructor
  all_goals
    intro p
    simp only [ldaFigure, List.mem_map, mem_rowsOf, shown]
    constructor
    · rintro ⟨r, ⟨i, h1, h2⟩, rfl⟩; exact ⟨i, r, h1, h2, rfl⟩
    · rintro ⟨i, r, h1, h2, rfl⟩; exact ⟨r, ⟨i, h1, h2⟩, rfl⟩

theorem unit_spec (w : Fin d → ℝ) (hw : w ≠ 0) :
    ∃ u, unitVector (some w) = some u ∧ ∀ r : Fin d → ℝ, project u r = fun j => (r ⬝ᵥ w) / (w ⬝ᵥ w) * w j := by
  have hpos : 0 < w ⬝ᵥ w := by
    have h0 : 0 ≤ w ⬝ᵥ w := Finset.sum_nonneg fun i _ => mul_self_nonneg _
    refine lt_of_le_of_ne h0 fun h => hw ?_
    have := (Finset.sum_eq_zero_iff_of_nonneg (fun i _ => mul_self_nonneg (w i))).1 h.symm
    funext i
    exact mul_self_eq_zero.1 (this i (mem_univ i))
  have hs : Real.sqrt (w ⬝ᵥ w) ≠ 0 := (Real.sqrt_pos.2 hpos).ne'
  refine ⟨_, by simp only [unitVector]; rw [if_neg hs], fun r => ?_⟩
  funext j
  unfold project dotProduct
  rw [Finset.sum_div, Finset.sum_mul]
  refine Finset.sum_congr rfl fun k _ => ?_
  have hq : (∑ i, w i * w i) = w ⬝ᵥ w := rfl
  rw [hq]
  have hq2 := Real.sq_sqrt hpos.le
  set q := Real.sqrt (w ⬝ᵥ w)
  rw [← hq2]
  field_simp

theorem vec2_ne (w : Fin 2 → ℝ) (hw : w ≠ 0) : 0 < w 0 ^ 2 + w 1 ^ 2 := by
  by_contra h
  apply hw
  have h0 : w 0 = 0 := by nlinarith [sq_nonneg (w 0), sq_nonneg (w 1)]
  have h1 : w 1 = 0 := by nlinarith [sq_nonneg (w 0), sq_nonneg (w 1)]
  funext i
  fin_cases i
  · exact h0
  · exact h1

theorem projected2 (w : Fin 2 → ℝ) (hw : w ≠ 0) (r : Fin 2 → ℝ) :
    projectedPoint (le_refl 2) (some w) r =
      some ((r 0 * w 0 + r 1 * w 1) / (w 0 ^ 2 + w 1 ^ 2) * w 0, (r 0 * w 0 + r 1 * w 1) / (w 0 ^ 2 + w 1 ^ 2) * w 1) := by
  obtain ⟨u, hu, hp⟩ := unit_spec w hw
  simp only [projectedPoint, hu, Option.map_some, hp, shown, dotProduct, Fin.sum_univ_two, pow_two]
  rfl

/-- C153: with two features every sample is joined by a segment to the foot of its perpendicular on the line spanned by the projection vector. -/
theorem C153_projections (w : Fin 2 → ℝ) (hw : w ≠ 0) (mu0 mu1 : Option (Fin 2 → ℝ)) (trained loaded : Bool) (x : List (Fin 2 → ℝ)) (y : List Int)
    (f : LDAFigure) (hf : plotLDA trained loaded ⟨some w, mu0, mu1⟩ x y = .ok f) :
    (∀ (i : Nat) (r : Fin 2 → ℝ), x[i]? = some r → y[i]? = some 0 ∨ y[i]? = some 1 →
      ∃ q, ((r 0, r 1), some q) ∈ f.segments ∧ IsFoot (w 0, w 1) (r 0, r 1) q ∧
        (y[i]? = some 0 → some q ∈ f.projected0) ∧ (y[i]? = some 1 → some q ∈ f.projected1)) ∧
    (∀ s ∈ f.segments, ∃ (i : Nat) (r : Fin 2 → ℝ) (q : ℝ × ℝ), x[i]? = some r ∧ (y[i]? = some 0 ∨ y[i]? = some 1) ∧ s = ((r 0, r 1), some q) ∧
      IsFoot (w 0, w 1) (r 0, r 1) q) := by
  have hn := vec2_ne w hw
  have hfoot : ∀ r : Fin 2 → ℝ, ∃ q, projectedPoint (le_refl 2) (some w) r = some q ∧ IsFoot (w 0, w 1) (r 0, r 1) q := by
    intro r
    refine ⟨_, projected2 w hw r, ⟨_, rfl⟩, ?_⟩
    simp only [dot2]
    field_simp
    ring
  obtain ⟨h2, rfl⟩ := plotLDA_ok hf
  constructor
  · intro i r hr hy
    obtain ⟨q, hq, hF⟩ := hfoot r
    refine ⟨q, ?_, hF, ?_, ?_⟩
    · refine List.mem_map.2 ⟨r, ?_, by rw [hq]; rfl⟩
      rw [List.mem_append, mem_rowsOf, mem_rowsOf]
      rcases hy with hy | hy
      · exact .inl ⟨i, hr, hy⟩
      · exact .inr ⟨i, hr, hy⟩
    · intro hy; exact List.mem_map.2 ⟨r, (mem_rowsOf ..).2 ⟨i, hr, hy⟩, hq⟩
    · intro hy; exact List.mem_map.2 ⟨r, (mem_rowsOf ..).2 ⟨i, hr, hy⟩, hq⟩
  · intro s hs
    obtain ⟨r, hr, rfl⟩ := List.mem_map.1 hs
    obtain ⟨q, hq, hF⟩ := hfoot r
    rw [List.mem_append, mem_rowsOf, mem_rowsOf] at hr
    rcases hr with ⟨i, h1, h2⟩ | ⟨i, h1, h2⟩
    · exact ⟨i, r, q, h1, .inl h2, by rw [hq]; rfl, hF⟩
    · exact ⟨i, r, q, h1, .inr h2, by rw [hq]; rfl, hF⟩

/-- C153: the drawn centres are the feet of the class means; a sample is predicted as class 1 exactly if its drawn projection is strictly nearer
to the drawn centre of class 1 than to that of class 0. -/
theorem C153_decision (w mu0 mu1 : Fin 2 → ℝ) (hw : w ≠ 0) (trained loaded : Bool) (x : List (Fin 2 → ℝ)) (y : List Int)
    (f : LDAFigure) (hf : plotLDA trained loaded ⟨some w, some mu0, some mu1⟩ x y = .ok f) :
    ∃ c0 c1, f.center0 = some c0 ∧ f.center1 = some c1 ∧ IsFoot (w 0, w 1) (mu0 0, mu0 1) c0 ∧ IsFoot (w 0, w 1) (mu1 0, mu1 1) c1 ∧
      ∀ (r : Fin 2 → ℝ) (q : ℝ × ℝ), IsFoot (w 0, w 1) (r 0, r 1) q →
        (LDA.predict ⟨some w, some mu0, some mu1⟩ [r] = [1] ↔ sqDist2 q c1 < sqDist2 q c0) := by
  have hn := vec2_ne w hw
  have hfoot : ∀ r : Fin 2 → ℝ, IsFoot (w 0, w 1) (r 0, r 1)
      ((r 0 * w 0 + r 1 * w 1) / (w 0 ^ 2 + w 1 ^ 2) * w 0, (r 0 * w 0 + r 1 * w 1) / (w 0 ^ 2 + w 1 ^ 2) * w 1) := by
    intro r
    refine ⟨⟨_, rfl⟩, ?_⟩
    simp only [dot2]
    field_simp
    ring
  obtain ⟨h2, rfl⟩ := plotLDA_ok hf
  refine ⟨_, _, projected2 w hw mu0, projected2 w hw mu1, hfoot mu0, hfoot mu1, ?_⟩
  rintro r q ⟨⟨s, rfl⟩, hq⟩
  simp only [dot2] at hq
  have hs : r 0 * w 0 + r 1 * w 1 = s * (w 0 ^ 2 + w 1 ^ 2) := by linarith
  simp only [LDA.predict, List.map_cons, List.map_nil, LDA.predictRow, dotProduct, Fin.sum_univ_two, sqDist2]
  rw [hs]
  set N := w 0 ^ 2 + w 1 ^ 2 with hN
  obtain ⟨a0, h0⟩ : ∃ a0, w 0 * mu0 0 + w 1 * mu0 1 = a0 * N := ⟨(w 0 * mu0 0 + w 1 * mu0 1) / N, by field_simp⟩
  obtain ⟨a1, h1⟩ : ∃ a1, w 0 * mu1 0 + w 1 * mu1 1 = a1 * N := ⟨(w 0 * mu1 0 + w 1 * mu1 1) / N, by field_simp⟩
  have e0 : (mu0 0 * w 0 + mu0 1 * w 1) / N = a0 := by
    rw [show mu0 0 * w 0 + mu0 1 * w 1 = a0 * N by linarith]; field_simp
  have e1 : (mu1 0 * w 0 + mu1 1 * w 1) / N = a1 := by
    rw [show mu1 0 * w 0 + mu1 1 * w 1 = a1 * N by linarith]; field_simp
  rw [h0, h1, e0, e1]
  have k : (|s * N - a0 * N| > |s * N - a1 * N|) ↔ (s - a1) ^ 2 < (s - a0) ^ 2 := by
    rw [gt_iff_lt, ← sub_mul, ← sub_mul, abs_mul, abs_mul, mul_lt_mul_iff_left₀ (abs_pos.2 hn.ne'), ← sq_lt_sq]
  have k2 : ∀ a, (s * w 0 - a * w 0) ^ 2 + (s * w 1 - a * w 1) ^ 2 = (s - a) ^ 2 * N := by intro a; rw [hN]; ring
  rw [k2, k2, mul_lt_mul_iff_left₀ hn, ← k]
  split <;> simp_all

/-- C153 (part): if the first component of the projection vector is not 0 the orange line consists of 50 points on the line that carries the
projections, from abscissa 0 to abscissa 1. -/
theorem C153_line_partial (w : Fin 2 → ℝ) (hw : w 0 ≠ 0) (mu0 mu1 : Option (Fin 2 → ℝ)) (trained loaded : Bool) (x : List (Fin 2 → ℝ)) (y : List Int)
    (f : LDAFigure) (hf : plotLDA trained loaded ⟨some w, mu0, mu1⟩ x y = .ok f) :
    f.line.length = 50 ∧ ∀ k : Nat, k < 50 → ∃ p, f.line[k]? = some (some p) ∧ p.1 = (k : ℝ) / 49 ∧ OnLine (w 0, w 1) p := by
  obtain ⟨h2, rfl⟩ := plotLDA_ok hf
  refine ⟨by simp [ldaFigure, lrFigure, linspace], fun k hk => ?_⟩
  have e : linspaceAt 0 1 50 k = (k : ℝ) / 49 := by unfold linspaceAt; push_cast; ring
  refine ⟨((k : ℝ) / 49, w 1 / w 0 * ((k : ℝ) / 49)), ?_, rfl, (k : ℝ) / 49 / w 0, ?_⟩
  · simp only [ldaFigure, lrFigure, linspace, List.getElem?_map, List.getElem?_range hk, Option.map_some, e]
    simp only [linePoint]
    rw [if_neg (show (shown h2 w).1 ≠ 0 from hw)]
    rfl
  · simp only [Prod.mk.injEq]
    constructor <;> field_simp

/-- C153 fails for a vertical projection vector, as it results when the classes differ in the second feature only: no point of the line is drawn,
although the projections are. -/
theorem C153_vertical (w : Fin 2 → ℝ) (hw : w 0 = 0) (mu0 mu1 : Option (Fin 2 → ℝ)) (trained loaded : Bool) (x : List (Fin 2 → ℝ)) (y : List Int)
    (f : LDAFigure) (hf : plotLDA trained loaded ⟨some w, mu0, mu1⟩ x y = .ok f) : ∀ p ∈ f.line, p = none := by
  obtain ⟨h2, rfl⟩ := plotLDA_ok hf
  intro p hp
  obtain ⟨t, _, rfl⟩ := List.mem_map.1 hp
  simp only [linePoint]
  rw [if_pos (show (shown h2 w).1 = 0 from hw)]

/-- C153 fails for components of opposite sign: of the line only the origin is inside of the axes, and a projection is inside only if it is the
origin. -/
theorem C153_invisible (w : Fin 2 → ℝ) (hw : w 0 * w 1 < 0) (mu0 mu1 : Option (Fin 2 → ℝ)) (trained loaded : Bool) (x : List (Fin 2 → ℝ)) (y : List Int)
    (f : LDAFigure) (hf : plotLDA trained loaded ⟨some w, mu0, mu1⟩ x y = .ok f) :
    (∀ p, some p ∈ f.line → Visible p → p = (0, 0)) ∧
    (∀ p, some p ∈ f.projected0 ∨ some p ∈ f.projected1 → Visible p → p = (0, 0)) := by
  have h0 : w 0 ≠ 0 := by rintro h; rw [h] at hw; simp at hw
  have key : ∀ p, OnLine (w 0, w 1) p → Visible p → p = (0, 0) := by
    rintro p ⟨s, rfl⟩ ⟨h1, -, h3, -⟩
    simp only at h1 h3
    have : s ^ 2 * (w 0 * w 1) ≥ 0 := by nlinarith [mul_nonneg h1 h3]
    have hs : s = 0 := by
      by_contra hs
      have : 0 < s ^ 2 := by positivity
      nlinarith
    simp [hs]
  have hne : w ≠ 0 := by rintro rfl; simp at h0
  constructor
  · intro p hp
    obtain ⟨hl, hk⟩ := C153_line_partial w h0 mu0 mu1 trained loaded x y f hf
    obtain ⟨k, hk1, hk2⟩ := List.mem_iff_getElem.1 hp
    obtain ⟨q, hq1, -, hq2⟩ := hk k (by omega)
    rw [List.getElem?_eq_getElem hk1, hk2] at hq1
    simp only [Option.some.injEq] at hq1
    subst hq1
    exact key p hq2
  · intro p hp
    apply key
    obtain ⟨h2, rfl⟩ := plotLDA_ok hf
    rcases hp with hp | hp
    all_goals
      obtain ⟨r, _, hr⟩ := List.mem_map.1 hp
      dsimp only at hr
      rw [projected2 w hne] at hr
      simp only [Option.some.injEq] at hr
      exact ⟨_, hr.symm⟩

/-- C153 fails silently for more than two features: the projection is made in the whole space and its first two coordinates are drawn, so that the
segments are not perpendicular to the line. Here the sample (1, 0, 0) with the projection vector (1, 0, 1). -/
theorem C153_three_features :
    ∃ f : LDAFigure, plotLDA true false ⟨some ![1, 0, 1], none, none⟩ [![1, 0, 0]] [0] = .ok f ∧
      f.segments = [((1, 0), some (1 / 2, 0))] ∧ ¬ IsFoot (1, 0) (1, 0) (1 / 2, 0) := by
  have hne : (![1, 0, 1] : Fin 3 → ℝ) ≠ 0 := fun h => by have := congrFun h 0; simp at this
  obtain ⟨u, hu, hp⟩ := unit_spec ![1, 0, 1] hne
  refine ⟨_, by simp only [plotLDA]; rw [if_neg (by simp), if_neg (by simp), dif_pos (by norm_num)], ?_, ?_⟩
  · have hr : LDA.rowsOf ([![1, 0, 0]] : List (Fin 3 → ℝ)) [0] 0 = [![1, 0, 0]] := rfl
    have hr1 : LDA.rowsOf ([![1, 0, 0]] : List (Fin 3 → ℝ)) [0] 1 = [] := rfl
    simp only [ldaFigure, hr, hr1, List.append_nil, List.map_cons, List.map_nil, projectedPoint, hu, Option.map_some, hp, shown]
    have e : (1 + (![1, 0, 0] : Fin 3 → ℝ) 2 * (![1, 0, 1] : Fin 3 → ℝ) 2) / (1 + (![1, 0, 1] : Fin 3 → ℝ) 2 * (![1, 0, 1] : Fin 3 → ℝ) 2) = 1 / 2 := by
      have a : (![1, 0, 0] : Fin 3 → ℝ) 2 = 0 := rfl
      have b : (![1, 0, 1] : Fin 3 → ℝ) 2 = 1 := rfl
      rw [a, b]; norm_num
    norm_num [dotProduct, Fin.sum_univ_three]
    exact e
  · rintro ⟨-, h⟩
    norm_num [dot2] at h

/-- A concrete figure: projection vector (1, 1), one sample of each class. -/
example : ∃ f, plotLDA true false ⟨some ![1, 1], some ![0, 0], some ![1, 1]⟩ [![0, 0], ![1, 1]] [0, 1] = .ok f :=
  (C153_drawn true false (.inl rfl) _ _ _).1.2 ⟨rfl, le_refl 2⟩

/-! ## C154: logistic regression -/

/-- C154: refusals: without weights, or for samples that do not have two features, `ValueError`; for labels of another length `IndexError`. -/
theorem C154_refused (beta : Fin (d + 1) → ℝ) {c : Nat} (x : List (Fin c → ℝ)) (y : List Int) (trained loaded : Bool) :
    plotLR false false beta x y = .error .valueError ∧
    (c ≠ 2 → plotLR trained loaded beta x y = .error .valueError) ∧
    (trained = true ∨ loaded = true → c = 2 → x.length ≠ y.length → plotLR trained loaded beta x y = .error .indexError) := by
  refine ⟨rfl, fun h => ?_, fun h hc hl => ?_⟩
  · unfold plotLR; rw [dif_neg h]; split <;> rfl
  · have h0 : ¬(trained = false ∧ loaded = false) := by rcases h with h | h <;> simp [h]
    unfold plotLR
    rw [if_neg h0, dif_pos hc, if_pos hl]

theorem probability_half (b0 b1 b2 : ℝ) (p : ℝ × ℝ) : probability b0 b1 b2 p = 1 / 2 ↔ b0 * p.1 + b1 * p.2 + b2 = 0 := by
  have hpos := Real.exp_pos (-(b0 * p.1 + b1 * p.2 + b2))
  unfold probability
  rw [div_eq_div_iff (by positivity) (by norm_num)]
  constructor
  · intro h
    have : Real.exp (-(b0 * p.1 + b1 * p.2 + b2)) = 1 := by linarith
    rw [Real.exp_eq_one_iff] at this
    linarith
  · intro h
    rw [h]; norm_num

theorem probability_gt (b0 b1 b2 : ℝ) (p : ℝ × ℝ) : 1 / 2 < probability b0 b1 b2 p ↔ 0 < b0 * p.1 + b1 * p.2 + b2 := by
  have hpos := Real.exp_pos (-(b0 * p.1 + b1 * p.2 + b2))
  unfold probability
  rw [div_lt_div_iff₀ (by norm_num) (by positivity)]
  constructor
  · intro h
    have : Real.exp (-(b0 * p.1 + b1 * p.2 + b2)) < 1 := by linarith
    rw [Real.exp_lt_one_iff] at this
    linarith
  · intro h
    have : Real.exp (-(b0 * p.1 + b1 * p.2 + b2)) < 1 := Real.exp_lt_one_iff.2 (by linarith)
    linarith

theorem probability_forward (beta : Fin 3 → ℝ) (p : ℝ × ℝ) :
    LogReg.forward (fun _ : Fin 1 => ![p.1, p.2]) beta 0 = probability (beta 0) (beta 1) (beta 2) p := by
  have e : LogReg.scores (fun _ : Fin 1 => ![p.1, p.2]) beta 0 = beta 0 * p.1 + beta 1 * p.2 + beta 2 := by
    simp only [LogReg.scores, LogReg.hat]
    rw [Fin.sum_univ_three (f := fun j => (Fin.snoc (α := fun _ => ℝ) ![p.1, p.2] 1 : Fin 3 → ℝ) j * beta j)]
    have h0 : (Fin.snoc (α := fun _ => ℝ) ![p.1, p.2] 1 : Fin 3 → ℝ) 0 = p.1 := rfl
    have h1 : (Fin.snoc (α := fun _ => ℝ) ![p.1, p.2] 1 : Fin 3 → ℝ) 1 = p.2 := rfl
    have h2 : (Fin.snoc (α := fun _ => ℝ) ![p.1, p.2] 1 : Fin 3 → ℝ) 2 = 1 := rfl
    rw [h0, h1, h2]; ring
  rw [LogReg.forward, e]; rfl

/-- C154 (part): for a model trained on two features, with a weight of the second feature that is not 0, the line drawn is the decision
boundary: over each of the 50 abscissas `k / 49` the predicted probability is 1/2 at the drawn point and nowhere else; above it lies the side of
class 1 if the weight is positive. -/
theorem C154_boundary_partial (beta : Fin 3 → ℝ) (hb : beta 1 ≠ 0) (trained loaded : Bool) (x : List (Fin 2 → ℝ)) (y : List Int) (f : LRFigure)
    (hf : plotLR trained loaded beta x y = .ok f) :
    f.line.length = 50 ∧ ∀ k : Nat, k < 50 → ∃ p, f.line[k]? = some (some p) ∧ p.1 = (k : ℝ) / 49 ∧
      ∀ q : ℝ × ℝ, q.1 = p.1 →
        (LogReg.forward (fun _ : Fin 1 => ![q.1, q.2]) beta 0 = 1 / 2 ↔ q = p) ∧
        (0 < beta 1 → (1 / 2 < LogReg.forward (fun _ : Fin 1 => ![q.1, q.2]) beta 0 ↔ p.2 < q.2)) ∧
        (beta 1 < 0 → (1 / 2 < LogReg.forward (fun _ : Fin 1 => ![q.1, q.2]) beta 0 ↔ q.2 < p.2)) := by
  obtain ⟨h2, rfl⟩ := plotLR_ok hf
  refine ⟨by simp [ldaFigure, lrFigure, linspace], fun k hk => ?_⟩
  have e : linspaceAt 0 1 50 k = (k : ℝ) / 49 := by unfold linspaceAt; push_cast; ring
  refine ⟨((k : ℝ) / 49, -(beta 0 * ((k : ℝ) / 49) + beta 2) / beta 1), ?_, rfl, ?_⟩
  · simp only [ldaFigure, lrFigure, linspace, List.getElem?_map, List.getElem?_range hk, Option.map_some, e]
    simp only [boundaryPoint]
    rw [if_neg]
    · rfl
    · exact hb
  · rintro ⟨q1, q2⟩ hq
    simp only at hq
    subst hq
    rw [probability_forward beta ((k : ℝ) / 49, q2), probability_half, probability_gt]
    dsimp only
    set t := (k : ℝ) / 49
    refine ⟨?_, fun hp => ?_, fun hp => ?_⟩
    · rw [Prod.mk.injEq, eq_div_iff hb]
      constructor
      · intro h; exact ⟨rfl, by linarith⟩
      · rintro ⟨-, h⟩; linarith
    · rw [div_lt_iff₀ hp]
      constructor <;> intro h <;> linarith
    · rw [lt_div_iff_of_neg hp]
      constructor <;> intro h <;> linarith

/-- C154 fails if the weight of the second feature is 0, where the boundary is a vertical line: nothing is drawn. -/
theorem C154_vertical (beta : Fin 3 → ℝ) (hb : beta 1 = 0) (trained loaded : Bool) (x : List (Fin 2 → ℝ)) (y : List Int) (f : LRFigure)
    (hf : plotLR trained loaded beta x y = .ok f) : ∀ p ∈ f.line, p = none := by
  obtain ⟨h2, rfl⟩ := plotLR_ok hf
  intro p hp
  obtain ⟨t, _, rfl⟩ := List.mem_map.1 hp
  simp only [boundaryPoint]
  rw [if_pos]
  exact hb

/-- C154 fails for a model that was trained on three (or more) features: two of their columns are accepted for drawing, and the weight of the third
feature is taken as the intercept. The line does not change with the intercept of the model at all. -/
theorem C154_more_features (beta beta' : Fin (d + 3 + 1) → ℝ) (h : ∀ j : Fin (d + 3 + 1), j.1 < d + 3 → beta j = beta' j)
    (x : List (Fin 2 → ℝ)) (y : List Int) (hl : x.length = y.length) :
    ∃ f, plotLR true false beta x y = .ok f ∧ plotLR true false beta' x y = .ok f := by
  refine ⟨_, by unfold plotLR; rw [if_neg (by simp), dif_pos rfl, if_neg (by simp [hl]), dif_pos (by omega)], ?_⟩
  unfold plotLR
  rw [if_neg (by simp), dif_pos rfl, if_neg (by simp [hl]), dif_pos (by omega)]
  simp only [lrFigure]
  rw [h ⟨0, by omega⟩ (by simp), h ⟨1, by omega⟩ (by simp), h ⟨2, by omega⟩ (by simp)]

/-- C154: with one feature `beta[2]` raises `IndexError`. -/
theorem C154_one_feature (beta : Fin 2 → ℝ) (x : List (Fin 2 → ℝ)) (y : List Int) : plotLR true false beta x y = .error .indexError := by
  unfold plotLR
  rw [if_neg (by simp), dif_pos rfl]
  split
  · rfl
  · rw [dif_neg (by norm_num)]

/-- C154: the markers of the two classes are the samples with label 0 and with label 1. -/
theorem C154_samples (trained loaded : Bool) (beta : Fin (d + 1) → ℝ) (x : List (Fin 2 → ℝ)) (y : List Int) (f : LRFigure)
    (hf : plotLR trained loaded beta x y = .ok f) :
    (∀ p, p ∈ f.samples0 ↔ ∃ (i : Nat) (r : Fin 2 → ℝ), x[i]? = some r ∧ y[i]? = some 0 ∧ p = (r 0, r 1)) ∧
    (∀ p, p ∈ f.samples1 ↔ ∃ (i : Nat) (r : Fin 2 → ℝ), x[i]? = some r ∧ y[i]? = some 1 ∧ p = (r 0, r 1)) := by
  obtain ⟨h2, rfl⟩ := plotLR_ok hf
  constructor
  all_goals
    intro p
    simp only [lrFigure, List.mem_map, mem_rowsOf, shown]
    constructor
    · rintro ⟨r, ⟨i, h1, h2⟩, rfl⟩; exact ⟨i, r, h1, h2, rfl⟩
    · rintro ⟨i, r, h1, h2, rfl⟩; exact ⟨r, ⟨i, h1, h2⟩, rfl⟩

/-- A concrete figure. -/
example : ∃ f, plotLR true false (![1, 2, -1] : Fin 3 → ℝ) [![0, 0], ![1, 1]] [0, 1] = .ok f :=
  ⟨_, by unfold plotLR; rw [if_neg (by simp), dif_pos rfl, if_neg (by simp), dif_pos (le_refl 2)]⟩

end CML.Plots
