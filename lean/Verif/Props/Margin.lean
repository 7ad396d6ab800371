import Verif.Spec.Margin
import Verif.Props.Convex
import Verif.Props.RBFStrict
import Verif.Props.LogReg
import Verif.Props.SVMErr
import Mathlib.Analysis.InnerProductSpace.PiL2
import Mathlib.Analysis.Calculus.MeanValue
import Mathlib.Analysis.SpecialFunctions.ExpDeriv

set_option linter.unusedSectionVars false

/-! # Property C334: a clear answer does not change when the sample is disturbed a little -/

namespace CML
open Finset

variable {d n : Nat}

lemma rowDist_eq (u v : Fin d → ℝ) : rowDist u v = dist (WithLp.toLp 2 u : EuclideanSpace ℝ (Fin d)) (WithLp.toLp 2 v) := by
  rw [EuclideanSpace.dist_eq]
  simp only [rowDist, Real.dist_eq, sq_abs]

lemma rowDist_nonneg (u v : Fin d → ℝ) : 0 ≤ rowDist u v := Real.sqrt_nonneg _

lemma rowDist_comm (u v : Fin d → ℝ) : rowDist u v = rowDist v u := by rw [rowDist_eq, rowDist_eq, dist_comm]

lemma rowDist_triangle (u v w : Fin d → ℝ) : rowDist u w ≤ rowDist u v + rowDist v w := by
  simp only [rowDist_eq]; exact dist_triangle _ _ _

lemma abs_dot_le (w u v : Fin d → ℝ) : |∑ k, u k * w k - ∑ k, v k * w k| ≤ rowNorm w * rowDist u v := by
  rw [← Finset.sum_sub_distrib]
  have h := Finset.sum_mul_sq_le_sq_mul_sq Finset.univ w (fun k => u k - v k)
  unfold rowNorm rowDist
  rw [← Real.sqrt_mul (Finset.sum_nonneg fun _ _ => sq_nonneg _)]
  refine Real.le_sqrt_of_sq_le ?_
  rw [sq_abs]
  refine le_of_eq_of_le ?_ h
  congr 1
  exact Finset.sum_congr rfl fun k _ => by ring

namespace KMeans

/-- **C334** (k-means). If the centroid of the answer is nearer than every other one by more than twice the disturbance, the answer is the same. -/
theorem C334_kmeans {root : ℝ → ℝ} (hr : RootOK root) (cs : List (Fin d → ℝ)) (x x' : Fin d → ℝ) (c : Nat) (v : Fin d → ℝ) (hc : cs[c]? = some v)
    (hclear : ∀ i u, cs[i]? = some u → i ≠ c → rowDist x v + 2 * rowDist x x' < rowDist x u) :
    predict root (cs.map some) [x] = some [c] ∧ predict root (cs.map some) [x'] = some [c] := by
  have key : ∀ z : Fin d → ℝ, rowDist x z ≤ rowDist x x' → predict root (cs.map some) [z] = some [c] := by
    intro z hz
    rw [predict_one]
    have hne : cs.map (fun v => root (sqDist z v)) ≠ [] := by
      intro h
      rw [List.map_eq_nil_iff] at h
      subst h; simp at hc
    obtain ⟨i, hi⟩ := argmin?_isSome hne
    rw [hi]
    obtain ⟨a, ha, ha1, ha2⟩ := argmin?_spec hi
    obtain ⟨u, hu, rfl⟩ : ∃ u, cs[i]? = some u ∧ root (sqDist z u) = a := by simpa using ha
    by_contra hic
    have hic : i ≠ c := fun h => hic (by rw [h])
    have h1 := hclear i u hu hic
    have h2 := rowDist_triangle x z u
    have h3 := rowDist_triangle z x v
    rw [rowDist_comm z x] at h3
    have h4 : rowDist z v < rowDist z u := by linarith
    have h5 : sqDist z v < sqDist z u := by
      have e : ∀ u v : Fin d → ℝ, sqDist u v = ∑ k, (u k - v k) ^ 2 := fun u v => Finset.sum_congr rfl fun k _ => by ring
      rw [e, e]
      exact (Real.sqrt_lt_sqrt_iff (Finset.sum_nonneg fun _ _ => sq_nonneg _)).1 h4
    have h6 := (hr _ _ (Finset.sum_nonneg fun _ _ => mul_self_nonneg _) (Finset.sum_nonneg fun _ _ => mul_self_nonneg _)).2 h5
    have h7 := ha1 (root (sqDist z v)) (List.mem_map.2 ⟨v, List.mem_of_getElem? hc, rfl⟩)
    exact absurd h6 (not_lt.2 h7)
  refine ⟨key x ?_, key x' le_rfl⟩
  have : rowDist x x = 0 := by simp [rowDist]
  rw [this]; exact rowDist_nonneg _ _

end KMeans

namespace LogReg

lemma scores_one (beta : Fin (d + 1) → ℝ) (x : Fin d → ℝ) :
    scores (fun _ : Fin 1 => x) beta 0 = ∑ j : Fin d, x j * beta j.castSucc + beta (Fin.last d) := by
  simp only [scores, hat, Fin.sum_univ_castSucc, Fin.snoc_castSucc, Fin.snoc_last, one_mul]

/-- The sigmoid rises at most with the slope one quarter. -/
lemma sigmoid_lip (a b : ℝ) : |sigmoid a - sigmoid b| ≤ |a - b| / 4 := by
  have hd : ∀ t : ℝ, HasDerivAt sigmoid (sigmoid t * (1 - sigmoid t)) t := by
    intro t
    have e := Real.exp_pos (-t)
    have h1 : HasDerivAt (fun t : ℝ => 1 + Real.exp (-t)) (-Real.exp (-t)) t := by
      have := ((hasDerivAt_neg t).exp).const_add 1
      simpa using this
    have h2 := h1.inv (by positivity)
    have e2 : sigmoid = fun t : ℝ => (1 + Real.exp (-t))⁻¹ := by funext t; simp [sigmoid]
    rw [e2]
    refine h2.congr_deriv ?_
    have hne : (1 + Real.exp (-t)) ≠ 0 := by positivity
    field_simp
    ring
  have hb : ∀ t : ℝ, ‖sigmoid t * (1 - sigmoid t)‖ ≤ 1 / 4 := by
    intro t
    have e := Real.exp_pos (-t)
    have s0 : 0 < sigmoid t := by unfold sigmoid; positivity
    have s1 : sigmoid t < 1 := by unfold sigmoid; rw [div_lt_one (by positivity)]; linarith
    rw [Real.norm_of_nonneg (mul_nonneg s0.le (by linarith))]
    nlinarith [sq_nonneg (sigmoid t - 1 / 2)]
  have := Convex.norm_image_sub_le_of_norm_hasDerivWithin_le (f := sigmoid) (s := Set.univ) (C := 1 / 4) (fun t _ => (hd t).hasDerivWithinAt) (fun t _ => hb t)
    convex_univ (Set.mem_univ b) (Set.mem_univ a)
  simp only [Real.norm_eq_abs] at this
  linarith

/-- **C334** (logistic regression). The probability changes by at most a quarter of `‖w‖` times the disturbance, where `w` are the weights without the intercept; it stays on its side of one half if
the disturbance is smaller than the distance `|score| / ‖w‖` of the row from the boundary; and no larger radius has this property. -/
theorem C334_logistic (beta : Fin (d + 1) → ℝ) (x : Fin d → ℝ) :
    let w : Fin d → ℝ := fun j => beta j.castSucc
    let p : (Fin d → ℝ) → ℝ := fun x => forward (fun _ : Fin 1 => x) beta 0
    let s : ℝ := ∑ j : Fin d, x j * beta j.castSucc + beta (Fin.last d)
    (∀ x', |p x - p x'| ≤ rowNorm w * rowDist x x' / 4) ∧
    (∀ x', rowNorm w * rowDist x x' < |s| → (1 / 2 < p x' ↔ 1 / 2 < p x) ∧ p x' ≠ 1 / 2) ∧
    (0 < rowNorm w → ∃ x', rowNorm w * rowDist x x' = |s| ∧ p x' = 1 / 2) := by
  intro w p s
  have hs : ∀ x', scores (fun _ : Fin 1 => x') beta 0 = ∑ j : Fin d, x' j * w j + beta (Fin.last d) := fun x' => scores_one beta x'
  have hdot : ∀ x', |scores (fun _ : Fin 1 => x) beta 0 - scores (fun _ : Fin 1 => x') beta 0| ≤ rowNorm w * rowDist x x' := by
    intro x'
    rw [hs, hs]
    have := abs_dot_le w x x'
    rwa [show ∀ a b c : ℝ, a + c - (b + c) = a - b from fun a b c => by ring]
  have hhalf : ∀ t : ℝ, (1 / 2 < sigmoid t ↔ 0 < t) ∧ (sigmoid t = 1 / 2 ↔ t = 0) := by
    intro t
    have e := Real.exp_pos (-t)
    unfold sigmoid
    constructor
    · rw [lt_div_iff₀ (by positivity)]
      constructor
      · intro h
        by_contra hc
        have := Real.one_le_exp (show 0 ≤ -t by linarith)
        linarith
      · intro h
        have : Real.exp (-t) < 1 := by rw [Real.exp_lt_one_iff]; linarith
        linarith
    · rw [div_eq_iff (by positivity)]
      constructor
      · intro h
        have : Real.exp (-t) = 1 := by linarith
        have := (Real.exp_eq_one_iff _).1 this
        linarith
      · rintro rfl; norm_num
  have es : s = scores (fun _ : Fin 1 => x) beta 0 := (hs x).symm
  refine ⟨fun x' => ?_, fun x' h => ?_, fun hw => ?_⟩
  · refine (sigmoid_lip _ _).trans ?_
    have := hdot x'
    linarith
  · have h1 := lt_of_le_of_lt (hdot x') h
    rw [es] at h1
    have hp : ∀ z, p z = sigmoid (scores (fun _ : Fin 1 => z) beta 0) := fun z => rfl
    rw [hp, hp, (hhalf _).1, (hhalf _).1]
    generalize scores (fun _ : Fin 1 => x) beta 0 = a at *
    generalize scores (fun _ : Fin 1 => x') beta 0 = b at *
    have h2 := abs_lt.1 h1
    rcases lt_trichotomy a 0 with ha | ha | ha
    · rw [abs_of_neg ha] at h2
      exact ⟨⟨fun _ => by linarith, fun _ => by linarith⟩, fun h => by have := (hhalf _).2.1 h; linarith⟩
    · subst ha; simp at h1; exact absurd h1 (not_lt.2 (abs_nonneg _))
    · rw [abs_of_pos ha] at h2
      exact ⟨⟨fun _ => by linarith, fun _ => by linarith⟩, fun h => by have := (hhalf _).2.1 h; linarith⟩
  · set q := ∑ k, w k ^ 2 with hq
    have hw0 : rowNorm w = √q := rfl
    have hq0 : 0 < q := by rw [hw0] at hw; exact Real.sqrt_pos.1 hw
    refine ⟨fun j => x j - s / q * w j, ?_, ?_⟩
    · have e : rowDist x (fun j => x j - s / q * w j) = |s| / √q := by
        unfold rowDist
        have : ∀ k, (x k - (x k - s / q * w k)) ^ 2 = (s / q) ^ 2 * w k ^ 2 := fun k => by ring
        simp only [this]
        rw [← Finset.mul_sum, Real.sqrt_mul (sq_nonneg _), Real.sqrt_sq_eq_abs, abs_div, abs_of_pos hq0]
        have := Real.mul_self_sqrt hq0.le
        have h0 := Real.sqrt_pos.2 hq0
        rw [← hq]
        field_simp
        rw [sq, this]
      rw [e, hw0]
      have h0 := Real.sqrt_pos.2 hq0
      field_simp
    · refine (hhalf _).2.2 ?_
      rw [hs]
      have e1 : ∑ j, (x j - s / q * w j) * w j = ∑ j, x j * w j - s := by
        have : ∀ j, (x j - s / q * w j) * w j = x j * w j - s / q * w j ^ 2 := fun j => by ring
        simp only [this]
        rw [Finset.sum_sub_distrib, ← Finset.mul_sum, ← hq]
        field_simp
      rw [e1]
      have : s = ∑ j, x j * w j + beta (Fin.last d) := rfl
      linarith

end LogReg

namespace LDA
open Matrix

/-- **C334** (linear discriminant analysis). The answer is the same if the disturbance times `‖w‖` is smaller than the distance of the projected row from the middle of the projected means. -/
theorem C334_lda (w mu0 mu1 x x' : Fin d → ℝ)
    (hclear : rowNorm w * rowDist x x' < |∑ j, (x j - (mu0 j + mu1 j) / 2) * w j|) :
    predict { w := some w, mu0 := some mu0, mu1 := some mu1 } [x'] = predict { w := some w, mu0 := some mu0, mu1 := some mu1 } [x] := by
  simp only [predict, List.map_cons, List.map_nil, predictRow_one]
  have h1 := lt_of_le_of_lt (abs_dot_le w x x') hclear
  have e : ∑ j, (x j - (mu0 j + mu1 j) / 2) * w j = x ⬝ᵥ w - (w ⬝ᵥ mu0 + w ⬝ᵥ mu1) / 2 := by
    simp only [dotProduct, ← Finset.sum_add_distrib, Finset.sum_div, ← Finset.sum_sub_distrib]
    exact Finset.sum_congr rfl fun j _ => by ring
  rw [e] at h1
  change |x ⬝ᵥ w - x' ⬝ᵥ w| < _ at h1
  generalize x ⬝ᵥ w = a at *
  generalize x' ⬝ᵥ w = b at *
  generalize w ⬝ᵥ mu0 = c0 at *
  generalize w ⬝ᵥ mu1 = c1 at *
  have h2 := abs_lt.1 h1
  have key : ((b - c1) ^ 2 - (b - c0) ^ 2 < 0) ↔ ((a - c1) ^ 2 - (a - c0) ^ 2 < 0) := by
    have f : ∀ t, (t - c1) ^ 2 - (t - c0) ^ 2 = -2 * ((c1 - c0) * (t - (c0 + c1) / 2)) := fun t => by ring
    rw [f, f]
    have hne : a - (c0 + c1) / 2 ≠ 0 := fun h => by rw [h] at h1; simp at h1; exact absurd h1 (not_lt.2 (abs_nonneg _))
    have pos : ∀ t, (-2 * ((c1 - c0) * t) < 0) ↔ 0 < (c1 - c0) * t := fun t => ⟨fun h => by linarith, fun h => by linarith⟩
    rw [pos, pos]
    rcases lt_or_gt_of_ne hne with ha | ha
    · rw [abs_of_neg ha] at h2
      have hb : b - (c0 + c1) / 2 < 0 := by linarith
      rw [mul_pos_iff, mul_pos_iff]
      constructor <;> rintro (⟨p, q⟩ | ⟨p, q⟩) <;> first | (exact Or.inr ⟨p, by assumption⟩) | (exfalso; linarith)
    · rw [abs_of_pos ha] at h2
      have hb : 0 < b - (c0 + c1) / 2 := by linarith
      rw [mul_pos_iff, mul_pos_iff]
      constructor <;> rintro (⟨p, q⟩ | ⟨p, q⟩) <;> first | (exact Or.inl ⟨p, by assumption⟩) | (exfalso; linarith)
  simp only [key]

end LDA

namespace SVC

/-- The Gaussian falls at most with the slope `√(2γ/e)`. -/
lemma gauss_lip {g : ℝ} (hg : 0 < g) (a b : ℝ) : |Real.exp (-g * a ^ 2) - Real.exp (-g * b ^ 2)| ≤ √(2 * g / Real.exp 1) * |a - b| := by
  have hd : ∀ t : ℝ, HasDerivAt (fun t : ℝ => Real.exp (-g * t ^ 2)) (Real.exp (-g * t ^ 2) * (-g * (2 * t))) t := by
    intro t
    have := ((hasDerivAt_pow 2 t).const_mul (-g)).exp
    simpa using this
  have hb : ∀ t : ℝ, ‖Real.exp (-g * t ^ 2) * (-g * (2 * t))‖ ≤ √(2 * g / Real.exp 1) := by
    intro t
    refine Real.le_sqrt_of_sq_le ?_
    rw [Real.norm_eq_abs, sq_abs, le_div_iff₀ (Real.exp_pos 1), mul_pow, ← Real.exp_nat_mul, mul_right_comm, ← Real.exp_add]
    have h1 : 2 * g * t ^ 2 ≤ Real.exp (2 * g * t ^ 2 - 1) := by
      have := Real.add_one_le_exp (2 * g * t ^ 2 - 1)
      linarith
    have h2 : Real.exp ((2 : ℕ) * (-g * t ^ 2) + 1) * Real.exp (2 * g * t ^ 2 - 1) = 1 := by
      rw [← Real.exp_add]; simp; ring
    have h3 := Real.exp_pos ((2 : ℕ) * (-g * t ^ 2) + 1)
    calc Real.exp ((2 : ℕ) * (-g * t ^ 2) + 1) * (-g * (2 * t)) ^ 2 = Real.exp ((2 : ℕ) * (-g * t ^ 2) + 1) * (2 * g * t ^ 2) * (2 * g) := by ring
      _ ≤ Real.exp ((2 : ℕ) * (-g * t ^ 2) + 1) * Real.exp (2 * g * t ^ 2 - 1) * (2 * g) := by gcongr
      _ = 2 * g := by rw [h2]; ring
  have := Convex.norm_image_sub_le_of_norm_hasDerivWithin_le (f := fun t : ℝ => Real.exp (-g * t ^ 2)) (s := Set.univ) (fun t _ => (hd t).hasDerivWithinAt)
    (fun t _ => hb t) convex_univ (Set.mem_univ b) (Set.mem_univ a)
  simpa only [Real.norm_eq_abs] using this

lemma rbf_lip {g : ℝ} (hg : 0 < g) (u u' v : Fin d → ℝ) : |Kern.rbf g v u - Kern.rbf g v u'| ≤ √(2 * g / Real.exp 1) * rowDist u u' := by
  have e : ∀ u : Fin d → ℝ, Kern.rbf g v u = Real.exp (-g * rowDist u v ^ 2) := by
    intro u
    unfold Kern.rbf rowDist
    rw [Real.sq_sqrt (Finset.sum_nonneg fun _ _ => sq_nonneg _)]
    congr 1; ring
  rw [e, e]
  refine (gauss_lip hg _ _).trans ?_
  refine mul_le_mul_of_nonneg_left ?_ (Real.sqrt_nonneg _)
  rw [abs_le]
  have h1 := rowDist_triangle u u' v
  have h2 := rowDist_triangle u' u v
  rw [rowDist_comm u' u] at h2
  constructor <;> linarith

/-- **C334** (support vector classifier, RBF kernel). The trained classifier answers by the sign of a function that changes by at most `n C √(2γ/e)` times the disturbance; so the answer is the same
if this is smaller than the value of the function. -/
theorem C334_svc_rbf {N : Type} (make : N → ℝ → List ℝ → List ℝ → ℝ) (perms : Nat → List (Fin n)) (o o' : Obj ℝ N) (x : Fin n → Fin d → ℝ) (y : Fin n → ℝ)
    (hy : ∀ i, y i = 1 ∨ y i = -1) (hC : 0 ≤ o.C) (epochs : Int) (h : Fit make perms o (fun i => List.ofFn (x i)) y d epochs o')
    (hrbf : ∀ g, o.gamma.value (List.ofFn fun i => List.ofFn (x i)) d = some g → 0 < g ∧ getKernel make g o.kernel = rbfList g) :
    ∃ (g : ℝ) (alphas : Fin n → ℝ) (b : ℝ), 0 < g ∧ (∀ i, 0 ≤ alphas i ∧ alphas i ≤ o.C) ∧
      let f : (Fin d → ℝ) → ℝ := fun r => ∑ i, alphas i * y i * Real.exp (-g * rowDist r (x i) ^ 2) + b
      (∀ r, o'.predict [List.ofFn r] = .ok [if f r < 0 then -1 else 1]) ∧
      (∀ r r', |f r - f r'| ≤ (∑ i, alphas i) * √(2 * g / Real.exp 1) * rowDist r r') ∧
      (∀ r r', n * o.C * √(2 * g / Real.exp 1) * rowDist r r' < |f r| → o'.predict [List.ofFn r'] = o'.predict [List.ofFn r]) := by
  obtain ⟨g, alphas, b, hg, hf1, hf2, hpred⟩ := C124_decision make perms o o' _ y hy hC d epochs h
  obtain ⟨g0, hk⟩ := hrbf g hg
  refine ⟨g, alphas, b, g0, hf1, ?_⟩
  intro f
  have e : ∀ u v : Fin d → ℝ, Kern.rbf g v u = Real.exp (-g * rowDist u v ^ 2) := by
    intro u v
    unfold Kern.rbf rowDist
    rw [Real.sq_sqrt (Finset.sum_nonneg fun _ _ => sq_nonneg _)]
    congr 1; ring
  have hp : ∀ r, o'.predict [List.ofFn r] = .ok [if f r < 0 then -1 else 1] := by
    intro r
    rw [hpred]
    simp only [List.map_cons, List.map_nil, fullDecision, hk, rbfList_ofFn, e]
    simp only [f, rowDist_comm]
  have hl : ∀ r r', |f r - f r'| ≤ (∑ i, alphas i) * √(2 * g / Real.exp 1) * rowDist r r' := by
    intro r r'
    have e1 : f r - f r' = ∑ i, alphas i * y i * (Kern.rbf g (x i) r - Kern.rbf g (x i) r') := by
      simp only [f, e, mul_sub, Finset.sum_sub_distrib]; ring
    rw [e1, Finset.sum_mul, Finset.sum_mul]
    refine (Finset.abs_sum_le_sum_abs _ _).trans (Finset.sum_le_sum fun i _ => ?_)
    have hyi : |y i| = 1 := by rcases hy i with h | h <;> rw [h] <;> simp
    rw [abs_mul, abs_mul, hyi, mul_one, abs_of_nonneg (hf1 i).1, mul_assoc]
    exact mul_le_mul_of_nonneg_left (rbf_lip g0 r r' (x i)) (hf1 i).1
  refine ⟨hp, hl, fun r r' hlt => ?_⟩
  have hsum : ∑ i, alphas i ≤ n * o.C := by
    have := Finset.sum_le_card_nsmul Finset.univ alphas o.C (fun i _ => (hf1 i).2)
    simpa using this
  have h1 : |f r - f r'| < |f r| := by
    refine lt_of_le_of_lt (hl r r') (lt_of_le_of_lt ?_ hlt)
    have := Real.sqrt_nonneg (2 * g / Real.exp 1)
    have := rowDist_nonneg r r'
    gcongr
  have h2 := abs_lt.1 h1
  have hiff : f r' < 0 ↔ f r < 0 := by
    rcases lt_trichotomy (f r) 0 with ha | ha | ha
    · rw [abs_of_neg ha] at h2; exact ⟨fun _ => ha, fun _ => by linarith⟩
    · rw [ha] at h1; simp at h1; exact absurd h1 (not_lt.2 (abs_nonneg _))
    · rw [abs_of_pos ha] at h2; exact ⟨fun _ => by linarith, fun _ => by linarith⟩
  rw [hp, hp]
  simp only [hiff]

end SVC

namespace DTree

variable {V K : Type} [Field K] [LinearOrder K] [IsStrictOrderedRing K] {m : Nat} [DecidableEq V]

/-- Two rows that answer every question of a tree alike get the same answer. -/
lemma predict_same (num : V → K) (row row' : Row V m) (D : List (Fin m)) (hD : ∀ a ∈ D, row' a = row a) (Q : Fin m × K → Prop)
    (hQ : ∀ q, Q q → (q.2 ≤ num (row' q.1) ↔ q.2 ≤ num (row q.1))) :
    (∀ t : Tree V K m, (∀ a ∈ t.discAttrs, a ∈ D) → (∀ q ∈ t.questions, Q q) → predict num row' t = predict num row t) ∧
    (∀ f : Forest V K m, (∀ a ∈ f.discAttrs, a ∈ D) → (∀ q ∈ f.questions, Q q) → ∀ v, predictIn num row' v f = predictIn num row v f) := by
  constructor
  · intro t
    refine Tree.rec (motive_1 := fun t => (∀ a ∈ t.discAttrs, a ∈ D) → (∀ q ∈ t.questions, Q q) → predict num row' t = predict num row t)
      (motive_2 := fun f => (∀ a ∈ f.discAttrs, a ∈ D) → (∀ q ∈ f.questions, Q q) → ∀ v, predictIn num row' v f = predictIn num row v f)
      ?_ ?_ ?_ ?_ ?_ t
    · intro c _ _; simp [predict]
    · intro a t nl ht g l ihg ihl h1 h2
      simp only [Tree.discAttrs, Tree.questions, List.mem_append, List.mem_cons] at h1 h2
      simp only [predict]
      rw [ihg (fun a h => h1 a (Or.inl h)) (fun q h => h2 q (Or.inr (Or.inl h))), ihl (fun a h => h1 a (Or.inr h)) (fun q h => h2 q (Or.inr (Or.inr h)))]
      have := hQ (a, t) (h2 _ (Or.inl rfl))
      simp only at this
      simp only [this]
    · intro a nl ht br ih h1 h2
      simp only [Tree.discAttrs, Tree.questions, List.mem_cons] at h1 h2
      simp only [predict]
      rw [hD a (h1 a (Or.inl rfl))]
      exact ih (fun a h => h1 a (Or.inr h)) h2 _
    · intro _ _ v; simp [predictIn]
    · intro w t r iht ihr h1 h2 v
      simp only [Forest.discAttrs, Forest.questions, List.mem_append] at h1 h2
      simp only [predictIn]
      rw [iht (fun a h => h1 a (Or.inl h)) (fun q h => h2 q (Or.inl h)), ihr (fun a h => h1 a (Or.inr h)) (fun q h => h2 q (Or.inr h)) v]
  · intro f
    refine Forest.rec (motive_1 := fun t => (∀ a ∈ t.discAttrs, a ∈ D) → (∀ q ∈ t.questions, Q q) → predict num row' t = predict num row t)
      (motive_2 := fun f => (∀ a ∈ f.discAttrs, a ∈ D) → (∀ q ∈ f.questions, Q q) → ∀ v, predictIn num row' v f = predictIn num row v f)
      ?_ ?_ ?_ ?_ ?_ f
    · intro c _ _; simp [predict]
    · intro a t nl ht g l ihg ihl h1 h2
      simp only [Tree.discAttrs, Tree.questions, List.mem_append, List.mem_cons] at h1 h2
      simp only [predict]
      rw [ihg (fun a h => h1 a (Or.inl h)) (fun q h => h2 q (Or.inr (Or.inl h))), ihl (fun a h => h1 a (Or.inr h)) (fun q h => h2 q (Or.inr (Or.inr h)))]
      have := hQ (a, t) (h2 _ (Or.inl rfl))
      simp only at this
      simp only [this]
    · intro a nl ht br ih h1 h2
      simp only [Tree.discAttrs, Tree.questions, List.mem_cons] at h1 h2
      simp only [predict]
      rw [hD a (h1 a (Or.inl rfl))]
      exact ih (fun a h => h1 a (Or.inr h)) h2 _
    · intro _ _ v; simp [predictIn]
    · intro w t r iht ihr h1 h2 v
      simp only [Forest.discAttrs, Forest.questions, List.mem_append] at h1 h2
      simp only [predictIn]
      rw [iht (fun a h => h1 a (Or.inl h)) (fun q h => h2 q (Or.inl h)), ihr (fun a h => h1 a (Or.inr h)) (fun q h => h2 q (Or.inr h)) v]

/-- **C334** (decision trees, of any origin). If no discrete attribute of the tree changes and every continuous one moves by less than its distance from each of its dividing points in the tree,
the answer (or the refusal) is the same. -/
theorem C334_tree (num : V → K) (t : Tree V K m) (row row' : Row V m) (hd : ∀ a ∈ t.discAttrs, row' a = row a)
    (hc : ∀ q ∈ t.questions, |num (row' q.1) - num (row q.1)| < |num (row q.1) - q.2|) : predict num row' t = predict num row t := by
  refine (predict_same num row row' t.discAttrs hd (fun q => |num (row' q.1) - num (row q.1)| < |num (row q.1) - q.2|) (fun q h => ?_)).1 t (fun a h => h) hc
  have h2 := abs_lt.1 h
  rcases le_or_gt q.2 (num (row q.1)) with hq | hq
  · rw [abs_of_nonneg (sub_nonneg.2 hq)] at h2
    exact ⟨fun _ => hq, fun _ => by linarith⟩
  · rw [abs_of_neg (sub_neg.2 hq)] at h2
    exact ⟨fun h' => by exfalso; linarith, fun h' => by exfalso; exact absurd hq (not_lt.2 h')⟩

/-- A dividing point between neighbouring values is at least half a gap away from every value. -/
lemma midpoint_gap {D : List K} {t gap : K} (h : NeighbourMidpoint D t) (hgap : ∀ u ∈ D, ∀ v ∈ D, u < v → gap ≤ v - u) {u : K} (hu : u ∈ D) : gap / 2 ≤ |u - t| := by
  obtain ⟨a, ha, b, hb, hab, hn, rfl⟩ := h
  have hg := hgap a ha b hb hab
  rcases hn u hu with h1 | h1
  · rw [abs_of_nonpos (by linarith)]; linarith
  · rw [abs_of_nonneg (by linarith)]; linarith

lemma forest_disc_mem : ∀ (f : Forest V K m) (t : Tree V K m), t ∈ f.trees → ∀ b ∈ t.discAttrs, b ∈ f.discAttrs
  | .nil, t, h, b, hb => by simp [Forest.trees] at h
  | .cons w t' r, t, h, b, hb => by
    simp only [Forest.trees, List.mem_cons] at h
    simp only [Forest.discAttrs, List.mem_append]
    rcases h with rfl | h
    · exact Or.inl hb
    · exact Or.inr (forest_disc_mem r t h b hb)

lemma forest_lookup_mem (gen : V → Except PyErr (Tree V K m)) (v : V) : ∀ (vs : List V) (f : Forest V K m), genForest gen vs = .ok f → v ∈ vs →
    ∀ t, gen v = .ok t → t ∈ f.trees
  | [], f, h, hv, _, _ => by simp at hv
  | w :: vs, f, h, hv, t, ht => by
    rw [genForest] at h
    split at h
    · simp at h
    · rename_i t' ht'
      split at h
      · simp at h
      · rename_i r hr
        simp only [Except.ok.injEq] at h
        subst h
        simp only [Forest.trees, List.mem_cons]
        rcases List.mem_cons.1 hv with rfl | hv
        · left; rw [ht'] at ht; simpa using ht.symm
        · right; exact forest_lookup_mem gen v vs r hr hv t ht

lemma generate_margin (o : Oracle V K m) (hmid : ∀ cols xs ys a t, o.split cols xs ys = some (a, some t) → NeighbourMidpoint (xs.map fun r => o.num (r a)) t) (hfl : ∀ t, o.fl t = t)
    (full : List (Row V m)) (gap : Fin m → K) (hgap : ∀ a, ∀ r ∈ full, ∀ s ∈ full, o.num (r a) < o.num (s a) → gap a ≤ o.num (s a) - o.num (r a)) (D : Fin m → Prop)
    (row row' : Row V m) (hrow : row ∈ full) (hd : ∀ a, D a → row' a = row a) (hc : ∀ a, |o.num (row' a) - o.num (row a)| < gap a / 2) :
    ∀ (fuel : Nat) (cols : List (Fin m)) (xs : List (Row V m)) (ys : List Int) (t : Tree V K m), generate o full fuel cols xs ys = .ok t → (∀ r ∈ xs, r ∈ full) → row ∈ xs →
      (∀ a ∈ t.discAttrs, D a) → predict o.num row' t = predict o.num row t := by
  intro fuel
  induction fuel with
  | zero => intro cols xs ys t h; simp [generate] at h
  | succ fuel ih =>
    intro cols xs ys t h hsub hmem hD
    rcases generate_cases h with ⟨c, -, -, rfl⟩ | ⟨c, -, -, -, rfl⟩ | ⟨a, t₀, g, l, -, -, hs, hg, hl, rfl⟩ | ⟨a, br, -, -, -, hbr, rfl⟩
    · simp [predict]
    · simp [predict]
    · rw [hfl] at hg hl ⊢
      have hm := hmid _ _ _ _ _ hs
      have hdist := midpoint_gap (gap := gap a) hm (by
        intro u hu v hv huv
        obtain ⟨r, hr, rfl⟩ := List.mem_map.1 hu
        obtain ⟨s, hs, rfl⟩ := List.mem_map.1 hv
        exact hgap a r (hsub r hr) s (hsub s hs) huv) (List.mem_map.2 ⟨row, hmem, rfl⟩)
      have h1 := lt_of_lt_of_le (hc a) hdist
      have h2 := abs_lt.1 h1
      simp only [Tree.discAttrs, List.mem_append] at hD
      simp only [predict]
      rcases le_or_gt t₀ (o.num (row a)) with hq | hq
      · rw [abs_of_nonneg (sub_nonneg.2 hq)] at h2
        rw [if_pos hq, if_pos (by linarith)]
        exact ih _ _ _ _ hg (fun r hr => hsub r (List.mem_of_mem_filter hr)) (List.mem_filter.2 ⟨hmem, by simpa using hq⟩) (fun a ha => hD a (Or.inl ha))
      · rw [abs_of_neg (sub_neg.2 hq)] at h2
        rw [if_neg (not_le.2 hq), if_neg (by rw [not_le]; linarith)]
        exact ih _ _ _ _ hl (fun r hr => hsub r (List.mem_of_mem_filter hr)) (List.mem_filter.2 ⟨hmem, by simpa using hq⟩) (fun a ha => hD a (Or.inr ha))
    · simp only [Tree.discAttrs, List.mem_cons] at hD
      simp only [predict]
      rw [hd a (hD a (Or.inl rfl))]
      have hv : row a ∈ pyUnique (full.map fun r => r a) := by rw [mem_pyUnique]; exact List.mem_map.2 ⟨row, hrow, rfl⟩
      obtain ⟨t1, h1, e1⟩ := genForest_predict o.num _ row (row a) _ _ hbr hv
      obtain ⟨t2, h2, e2⟩ := genForest_predict o.num _ row' (row a) _ _ hbr hv
      obtain rfl : t1 = t2 := by rw [h1] at h2; simpa using h2
      rw [e1, e2]
      have hdisc : ∀ b ∈ t1.discAttrs, D b := by
        intro b hb
        have hin := forest_lookup_mem _ (row a) _ _ hbr hv t1 h1
        exact hD b (Or.inr (forest_disc_mem br t1 hin b hb))
      have hmem' : row ∈ xs.filter fun r => decide (r a = row a) := List.mem_filter.2 ⟨hmem, by simp⟩
      split at h1
      · exact ih _ _ _ _ h1 (fun r hr => hsub r (List.mem_of_mem_filter hr)) hmem' hdisc
      · exact ih _ _ _ _ h1 (fun r hr => hsub r (List.mem_of_mem_filter hr)) hmem' hdisc

/-- **C334** (decision trees, training samples). A training sample keeps its answer if every continuous attribute moves by less than half of the smallest gap between two different training values of it,
and no attribute that the tree asks by value changes. -/
theorem C334_tree_training (o : Oracle V K m) (ho : GoodSplits o) (hfl : ∀ t, o.fl t = t) (limit : Nat) (xs : List (Row V m)) (ys : List Int) (t : Tree V K m)
    (hfit : fit o limit xs ys = .ok t) (gap : Fin m → K) (hgap : ∀ a, ∀ r ∈ xs, ∀ s ∈ xs, o.num (r a) < o.num (s a) → gap a ≤ o.num (s a) - o.num (r a))
    (row row' : Row V m) (hrow : row ∈ xs) (hd : ∀ a ∈ t.discAttrs, row' a = row a) (hc : ∀ a, |o.num (row' a) - o.num (row a)| < gap a / 2) :
    predict o.num row' t = predict o.num row t :=
  generate_margin o ho.mid hfl xs gap hgap (fun a => a ∈ t.discAttrs) row row' hrow hd hc limit _ xs ys t hfit (fun _ h => h) hrow (fun _ h => h)

/-- The hypotheses hold: a tree with the dividing point 2, and the training sample 1 moved to 9/5. -/
example : GoodSplits (criterionOracle (m := 1) gini (id : ℚ → ℚ) (fun _ => true) (fun ys => ys.head?) id) ∧
    (fit (criterionOracle gini (id : ℚ → ℚ) (fun _ => true) (fun ys => ys.head?) id) 10 [![1], ![3]] [0, 1]).map (fun t : Tree ℚ ℚ 1 => (t.questions, predict id ![1] t, predict id ![9/5] t)) =
      .ok ([(0, 2)], .ok 0, .ok 0) ∧
    |(id (9/5) : ℚ) - id 1| < 2 / 2 :=
  ⟨criterionOracle_good _ _ _ _ _ fun _ _ v _ w _ h => h, by decide +kernel, by norm_num⟩

end DTree

namespace Small
variable {K : Type} [Field K] [LinearOrder K] [IsStrictOrderedRing K]

/-- **C334** (decision stumps). Only the distance of the asked attribute from the dividing point counts. -/
theorem C334_stump (s : Stump K d) (x x' : Fin d → K) (h : |x' s.feature - x s.feature| < |x s.feature - s.point|) : s.predict x' = s.predict x := by
  have h2 := abs_lt.1 h
  have key : (x' s.feature < s.point ↔ x s.feature < s.point) ∧ (x' s.feature ≥ s.point ↔ x s.feature ≥ s.point) := by
    rcases lt_trichotomy (x s.feature) s.point with hq | hq | hq
    · rw [abs_of_neg (sub_neg.2 hq)] at h2
      refine ⟨?_, ?_⟩ <;> constructor <;> intro _ <;> linarith
    · rw [hq] at h; simp at h; exact absurd h (not_lt.2 (abs_nonneg _))
    · rw [abs_of_pos (sub_pos.2 hq)] at h2
      refine ⟨?_, ?_⟩ <;> constructor <;> intro _ <;> linarith
  obtain ⟨k1, k4⟩ := key
  simp only [Stump.predict] at *
  cases hm : s.mode <;> simp only [k1, k4]

end Small

/-! ## The hypotheses hold -/

/-- k-means: centroids 0 and 10, the sample 1 moved to 3. -/
example : ∀ i u, ([fun _ => 0, fun _ => 10] : List (Fin 1 → ℝ))[i]? = some u → i ≠ 0 →
    rowDist (fun _ : Fin 1 => (1 : ℝ)) (fun _ => 0) + 2 * rowDist (fun _ : Fin 1 => (1 : ℝ)) (fun _ => 3) < rowDist (fun _ : Fin 1 => (1 : ℝ)) u := by
  intro i u hu hi
  match i with
  | 0 => exact absurd rfl hi
  | 1 =>
    simp only [List.getElem?_cons_succ, List.getElem?_cons_zero, Option.some.injEq] at hu
    subst hu
    have h1 : rowDist (fun _ : Fin 1 => (1 : ℝ)) (fun _ => 0) = 1 := by simp [rowDist]
    have h2 : rowDist (fun _ : Fin 1 => (1 : ℝ)) (fun _ => 3) = 2 := by
      simp only [rowDist, Fin.sum_univ_one]; rw [Real.sqrt_eq_iff_mul_self_eq] <;> norm_num
    have h3 : rowDist (fun _ : Fin 1 => (1 : ℝ)) (fun _ => 10) = 9 := by
      simp only [rowDist, Fin.sum_univ_one]; rw [Real.sqrt_eq_iff_mul_self_eq] <;> norm_num
    rw [h1, h2, h3]; norm_num
  | i + 2 => simp at hu

/-- Discriminant analysis: direction 1, means 0 and 10, the sample 1 moved to 3. -/
example : rowNorm (fun _ : Fin 1 => (1 : ℝ)) * rowDist (fun _ : Fin 1 => (1 : ℝ)) (fun _ => 3) < |∑ j : Fin 1, ((1 : ℝ) - (0 + 10) / 2) * 1| := by
  have h1 : rowNorm (fun _ : Fin 1 => (1 : ℝ)) = 1 := by simp [rowNorm]
  have h2 : rowDist (fun _ : Fin 1 => (1 : ℝ)) (fun _ => 3) = 2 := by
    simp only [rowDist, Fin.sum_univ_one]; rw [Real.sqrt_eq_iff_mul_self_eq] <;> norm_num
  rw [h1, h2]
  norm_num

end CML
