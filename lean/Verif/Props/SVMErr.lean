import Verif.Props.SVMOpt
import Verif.Model.SVCKernel
import Mathlib.Analysis.SpecialFunctions.Log.Basic
import Mathlib.Algebra.BigOperators.Fin

set_option linter.unusedSectionVars false

/-! # Training errors, linear kernels and far away rows of a support vector classifier (C240 to C242) -/

namespace CML.SMO
open Finset

variable {K : Type} [Field K] [LinearOrder K] [IsStrictOrderedRing K] {n : Nat}

/-- C240 (part): a sample that passes its KKT test (with its true error) and whose multiplier is below `C` is classified correctly, with a
margin of at least `1 - tol`. -/
theorem C240_margin_partial (p : Problem K n) (hp : p.Valid) (alphas : Fin n → K) (b : K) (i : Fin n)
    (hkkt : KKTWithin p alphas (trueError p alphas b i) i) (hi : alphas i < p.C) : 1 - p.tol ≤ p.y i * decision p alphas b i := by
  have h := hkkt.1 hi
  unfold trueError at h
  have : p.y i * p.y i = 1 := by rcases hp.label i with h | h <;> rw [h] <;> norm_num
  linarith [mul_sub (p.y i) (decision p alphas b i) (p.y i)]

/-- C240 (part): if all samples pass, at most `(sum of the multipliers) / C` training samples are on the wrong side. -/
theorem C240_error_count_partial (p : Problem K n) (hp : p.Valid) (htol : p.tol < 1) (alphas : Fin n → K) (b : K) (hf : DualFeasible p alphas)
    (hkkt : ∀ i, KKTWithin p alphas (trueError p alphas b i) i) :
    ((univ.filter fun i => p.y i * decision p alphas b i ≤ 0).card : K) * p.C ≤ ∑ i, alphas i := by
  have hC : ∀ i ∈ univ.filter fun i => p.y i * decision p alphas b i ≤ 0, alphas i = p.C := by
    intro i hi
    by_contra hne
    have := C240_margin_partial p hp alphas b i (hkkt i) (lt_of_le_of_ne (hf.1 i).2 hne)
    have := (Finset.mem_filter.1 hi).2
    linarith
  calc _ = ∑ i ∈ univ.filter fun i => p.y i * decision p alphas b i ≤ 0, alphas i := by
        rw [Finset.sum_congr rfl hC]; simp
    _ ≤ _ := Finset.sum_le_sum_of_subset_of_nonneg (Finset.filter_subset _ _) fun i _ _ => (hf.1 i).1

/-- The result of a real run: both samples pass and have margin 1. -/
example : exQ.Valid ∧ exQ.tol < 1 ∧ (∀ i, KKTWithin exQ ![1 / 2, 1 / 2] (trueError exQ ![1 / 2, 1 / 2] 0 i) i) ∧
    ∀ i, (![1 / 2, 1 / 2] : Fin 2 → ℚ) i < exQ.C ∧ exQ.y i * decision exQ ![1 / 2, 1 / 2] 0 i = 1 := by
  refine ⟨⟨by intro i; fin_cases i <;> simp [exQ], by simp [exQ]⟩, by norm_num [exQ], ?_, by decide +kernel⟩
  intro i
  have : ∀ i : Fin 2, trueError exQ ![1 / 2, 1 / 2] 0 i = 0 := by decide +kernel
  rw [this]
  constructor <;> intro _ <;> simp [exQ]

end CML.SMO

namespace CML.SVC
open SMO Finset

variable {K N : Type} [Field K] [LinearOrder K] [IsStrictOrderedRing K] {n d : Nat}

/-- C240 (part), for the classifier: there are the multipliers and the bias of the trained classifier; if all training samples pass their
KKT test with a tolerance below 1, every training row with a multiplier below `C` gets its own label. -/
theorem C240_classifier_partial (make : N → K → List K → List K → K) (perms : Nat → List (Fin n)) (o o' : Obj K N) (x : Fin n → List K)
    (y : Fin n → K) (hy : ∀ i, y i = 1 ∨ y i = -1) (hC : 0 ≤ o.C) (htol : o.tol < 1) (d : Nat) (epochs : Int)
    (h : Fit make perms o x y d epochs o') :
    ∃ (g : K) (alphas : Fin n → K) (b : K), o.gamma.value (List.ofFn x) d = some g ∧
      (∀ rows, o'.predict rows = .ok (rows.map fun r => if fullDecision (getKernel make g o.kernel) x y alphas b r < 0 then -1 else 1)) ∧
      ((∀ u v, getKernel make g o.kernel u v = getKernel make g o.kernel v u) →
        (∀ i, KKTWithin (problem (getKernel make g o.kernel) o.C o.tol x y) alphas
          (trueError (problem (getKernel make g o.kernel) o.C o.tol x y) alphas b i) i) →
        ∀ i, alphas i < o.C → o'.predict [x i] = .ok [if y i = 1 then 1 else -1]) := by
  obtain ⟨g, alphas, b, hg, hf1, hf2, hpred⟩ := C124_decision make perms o o' x y hy hC d epochs h
  refine ⟨g, alphas, b, hg, hpred, fun hsym hkkt i hi => ?_⟩
  have hm := C240_margin_partial (problem (getKernel make g o.kernel) o.C o.tol x y) ⟨hy, hC⟩ alphas b i (hkkt i) hi
  have hdec : decision (problem (getKernel make g o.kernel) o.C o.tol x y) alphas b i = fullDecision (getKernel make g o.kernel) x y alphas b (x i) := by
    unfold decision fullDecision problem
    congr 1
    exact Finset.sum_congr rfl fun k _ => by rw [hsym]
  rw [hdec] at hm
  have hm : 1 - o.tol ≤ y i * fullDecision (getKernel make g o.kernel) x y alphas b (x i) := hm
  rw [hpred]
  simp only [List.map_cons, List.map_nil]
  rcases hy i with h1 | h1
  · rw [h1, one_mul] at hm
    rw [if_neg (by linarith), if_pos h1]
  · rw [h1] at hm
    rw [if_pos (by linarith), if_neg (by rw [h1]; norm_num)]

/-- C240 is false in general: on coarse data (samples of different labels further apart than 447) every training sample of label -1 is
misclassified by the trained classifier, although there is no support vector at all, let alone one at the bound. -/
theorem C240_violated (make : N → K → List K → List K → K) (perms : Nat → List (Fin n)) (o o' : Obj K N) (x : Fin n → List K)
    (y : Fin n → K) (hy : ∀ i, y i = 1 ∨ y i = -1) (hC : 0 ≤ o.C) (d : Nat) (epochs : Int) (h : Fit make perms o x y d epochs o')
    (k : List K → List K → K) (hk : o.kernel = .inst k)
    (hfar : ∀ i j, y i ≠ y j → 200000 < k (x i) (x i) + k (x j) (x j) - 2 * k (x i) (x j)) :
    o'.supportVector = [] ∧ ∀ i, y i = -1 → o'.predict [x i] = .ok [1] := by
  obtain ⟨h1, h2⟩ := C228_unscaled_violated make perms o o' x y hy hC d epochs h k hk hfar
  exact ⟨h1, fun i _ => h2 [x i]⟩

/-! ## C241: linear kernels -/

/-- C241: with the linear kernel the trained classifier is a linear classifier: its weights are the combination of the training rows with
coefficients `alpha_i * y_i`, and every row is labelled by the sign of `w · row + b`. -/
theorem C241_linear (make : N → K → List K → List K → K) (perms : Nat → List (Fin n)) (o o' : Obj K N) (x : Fin n → Fin d → K)
    (y : Fin n → K) (hy : ∀ i, y i = 1 ∨ y i = -1) (hC : 0 ≤ o.C) (epochs : Int)
    (h : Fit make perms o (fun i => List.ofFn (x i)) y d epochs o')
    (hlin : ∀ g (u v : Fin d → K), getKernel make g o.kernel (List.ofFn u) (List.ofFn v) = ∑ l, u l * v l) :
    ∃ (alphas : Fin n → K) (b : K), (∀ i, 0 ≤ alphas i ∧ alphas i ≤ o.C) ∧ ∑ i, alphas i * y i = 0 ∧
      ∀ rows : List (Fin d → K), o'.predict (rows.map fun r => List.ofFn r) =
        .ok (rows.map fun r => if (∑ l, (∑ i, alphas i * y i * x i l) * r l) + b < 0 then -1 else 1) := by
  obtain ⟨g, alphas, b, hg, hf1, hf2, hpred⟩ := C124_decision make perms o o' _ y hy hC d epochs h
  refine ⟨alphas, b, hf1, hf2, fun rows => ?_⟩
  rw [hpred, List.map_map]
  congr 1
  refine List.map_congr_left fun r _ => ?_
  have : fullDecision (getKernel make g o.kernel) (fun i => List.ofFn (x i)) y alphas b (List.ofFn r) = (∑ l, (∑ i, alphas i * y i * x i l) * r l) + b := by
    unfold fullDecision
    congr 1
    simp only [hlin, Finset.sum_mul, Finset.mul_sum]
    rw [Finset.sum_comm]
    exact Finset.sum_congr rfl fun l _ => Finset.sum_congr rfl fun i _ => by ring
  simp only [Function.comp_apply, this]

/-- C241: hence its two classes are convex: a row between two rows of one label gets that label. -/
theorem C241_convex (make : N → K → List K → List K → K) (perms : Nat → List (Fin n)) (o o' : Obj K N) (x : Fin n → Fin d → K)
    (y : Fin n → K) (hy : ∀ i, y i = 1 ∨ y i = -1) (hC : 0 ≤ o.C) (epochs : Int)
    (h : Fit make perms o (fun i => List.ofFn (x i)) y d epochs o')
    (hlin : ∀ g (u v : Fin d → K), getKernel make g o.kernel (List.ofFn u) (List.ofFn v) = ∑ l, u l * v l)
    (r s : Fin d → K) (a : Int) (hr : o'.predict [List.ofFn r] = .ok [a]) (hs : o'.predict [List.ofFn s] = .ok [a]) (t : K) (h0 : 0 ≤ t) (h1 : t ≤ 1) :
    o'.predict [List.ofFn fun l => (1 - t) * r l + t * s l] = .ok [a] := by
  obtain ⟨alphas, b, _, _, hp⟩ := C241_linear make perms o o' x y hy hC epochs h hlin
  have er := hp [r]
  have es := hp [s]
  have em := hp [fun l => (1 - t) * r l + t * s l]
  simp only [List.map_cons, List.map_nil] at er es em
  rw [hr] at er
  rw [hs] at es
  rw [em]
  set w : Fin d → K := fun l => ∑ i, alphas i * y i * x i l
  have hmid : (∑ l, w l * ((1 - t) * r l + t * s l)) + b = (1 - t) * ((∑ l, w l * r l) + b) + t * ((∑ l, w l * s l) + b) := by
    have : ∑ l, w l * ((1 - t) * r l + t * s l) = (1 - t) * (∑ l, w l * r l) + t * ∑ l, w l * s l := by
      rw [Finset.mul_sum, Finset.mul_sum, ← Finset.sum_add_distrib]
      exact Finset.sum_congr rfl fun l _ => by ring
    rw [this]; ring
  rw [hmid]
  injection er with er
  injection es with es
  injection er with er _
  injection es with es _
  set A := (∑ l, w l * r l) + b
  set B := (∑ l, w l * s l) + b
  by_cases hA : A < 0 <;> by_cases hB : B < 0
  · rw [if_pos hA] at er
    rw [er, if_pos]
    rcases eq_or_lt_of_le h0 with h | h
    · rw [← h]; simpa using hA
    · nlinarith [mul_pos h (neg_pos.2 hB), mul_nonneg (sub_nonneg.2 h1) (neg_nonneg.2 hA.le)]
  · rw [if_pos hA] at er; rw [if_neg hB] at es; omega
  · rw [if_neg hA] at er; rw [if_pos hB] at es; omega
  · rw [if_neg hA] at er
    rw [er, if_neg]
    push Not at hA hB ⊢
    exact add_nonneg (mul_nonneg (sub_nonneg.2 h1) hA) (mul_nonneg h0 hB)

/-! ## C242: far away rows -/

theorem weighted_bound (f : List ℝ → ℝ) (M : ℝ) (hM : 0 ≤ M) : ∀ (A : List ℝ) (V : List (List ℝ)), (∀ v ∈ V, |f v| ≤ M) →
    |(List.zipWith (fun a v => a * f v) A V).sum| ≤ (A.map fun a => |a|).sum * M
  | [], V, _ => by simp
  | a :: A, [], _ => by
    have : 0 ≤ ((a :: A).map fun a => |a|).sum := List.sum_nonneg (by simp)
    simpa using mul_nonneg this hM
  | a :: A, v :: V, h => by
    have ih := weighted_bound f M hM A V fun v hv => h v (List.mem_cons_of_mem _ hv)
    have h1 := h v List.mem_cons_self
    simp only [List.zipWith_cons_cons, List.sum_cons, List.map_cons, add_mul]
    refine le_trans (abs_add_le _ _) (add_le_add ?_ ih)
    rw [abs_mul]
    exact mul_le_mul_of_nonneg_left h1 (abs_nonneg _)

/-- C242: a trained (or loaded) classifier with the RBF (Gaussian) kernel gives rows far away from all support vectors one and the same
label, that of the bias: there is a squared distance beyond which the training data no longer matter. -/
theorem C242_far_rows (o : Obj ℝ N) (ht : o.trained = true ∨ o.loaded = true) (g : ℝ) (hg : 0 < g) (hk : o.kernel = .inst (rbfList g))
    (hb : o.b ≠ 0) :
    ∃ R : ℝ, ∀ rows : List (List ℝ),
      (∀ r ∈ rows, ∀ v ∈ o.supportVector, R < (List.zipWith (fun a b => (b - a) ^ 2) r v).sum) →
        o.predict rows = .ok (rows.map fun _ => if o.b < 0 then -1 else 1) := by
  set A := List.zipWith (· * ·) o.supportAlpha o.supportY with hA
  set S := (A.map fun a => |a|).sum with hS
  have hS0 : 0 ≤ S := List.sum_nonneg (by simp)
  have hb' : 0 < |o.b| := abs_pos.2 hb
  refine ⟨Real.log ((S + 1) / |o.b|) / g, fun rows hrows => ?_⟩
  unfold Obj.predict
  rw [if_neg (by rintro ⟨h1, h2⟩; rcases ht with h | h <;> simp_all), hk]
  simp only
  congr 1
  refine List.map_congr_left fun r hr => ?_
  unfold decisionValue
  rw [← hA]
  have h1 : ∀ v ∈ o.supportVector, |rbfList g r v| ≤ |o.b| / (S + 1) := by
    intro v hv
    have h2 := hrows r hr v hv
    rw [abs_of_pos (show 0 < rbfList g r v from Real.exp_pos _)]
    unfold rbfList
    rw [← Real.exp_log (show 0 < |o.b| / (S + 1) by positivity)]
    apply Real.exp_le_exp.2
    have h3 : Real.log (|o.b| / (S + 1)) = -Real.log ((S + 1) / |o.b|) := by
      rw [← Real.log_inv, inv_div]
    rw [h3, mul_neg]
    rw [div_lt_iff₀ hg] at h2
    linarith [mul_comm g (List.zipWith (fun a b => (b - a) ^ 2) r v).sum]
  have hlt : |(List.zipWith (fun ay v => ay * rbfList g r v) A o.supportVector).sum| < |o.b| := by
    refine lt_of_le_of_lt (weighted_bound (rbfList g r) (|o.b| / (S + 1)) (by positivity) A _ h1) ?_
    rw [← hS, ← mul_div_assoc, div_lt_iff₀ (by linarith)]
    nlinarith
  have h2 := abs_lt.1 hlt
  rcases lt_or_gt_of_ne hb with hn | hpz
  · rw [if_pos hn, if_pos]
    rw [abs_of_neg hn] at h2
    linarith [h2.2]
  · rw [if_neg (not_lt.2 hpz.le), if_neg]
    rw [abs_of_pos hpz] at h2
    push Not
    linarith [h2.1]

/-- C242 applies to what `fit` leaves: the kernel attribute is the kernel that was used, and the classifier is trained. -/
theorem C242_after_fit (make : N → ℝ → List ℝ → List ℝ → ℝ) (perms : Nat → List (Fin n)) (o o' : Obj ℝ N) (x : Fin n → List ℝ) (y : Fin n → ℝ)
    (d : Nat) (epochs : Int) (h : Fit make perms o x y d epochs o')
    (hrbf : ∀ g, o.gamma.value (List.ofFn x) d = some g → 0 < g ∧ getKernel make g o.kernel = rbfList g) :
    o'.trained = true ∧ (∃ g, 0 < g ∧ o'.kernel = .inst (rbfList g)) ∧ ∀ v ∈ o'.supportVector, ∃ i, v = x i := by
  obtain ⟨g, s, hg, hs, rfl⟩ := h
  obtain ⟨h1, h2⟩ := hrbf g hg
  refine ⟨rfl, ⟨g, h1, by simp only [h2]⟩, fun v hv => ?_⟩
  obtain ⟨i, _, rfl⟩ := List.mem_map.1 hv
  exact ⟨i, rfl⟩

/-- A classifier with one support vector and a bias. -/
example : ∃ o : Obj ℝ Unit, o.trained = true ∧ o.kernel = .inst (rbfList 1) ∧ o.b ≠ 0 ∧ o.supportVector = [[3]] :=
  ⟨⟨[[3]], [1], [1], -1 / 2, 1, .inst (rbfList 1), .num 1, 1 / 1000, true, false⟩, rfl, rfl, by norm_num, rfl⟩

/-- The hypotheses of C241 are met: zero passes of the optimiser return at once, with the linear kernel. -/
example (x : Fin 2 → Fin 1 → ℚ) (y : Fin 2 → ℚ) (s : Obj ℚ Unit) (hs : s.gamma = .num 1) :
    ∃ o', Fit (fun _ _ u v => (List.zipWith (· * ·) u v).sum) (fun _ => [0, 1]) { s with kernel := .name () } (fun i => List.ofFn (x i)) y 1 0 o' ∧
      ∀ g (u v : Fin 1 → ℚ), getKernel (fun _ _ u v => (List.zipWith (· * ·) u v).sum) g ({ s with kernel := .name () } : Obj ℚ Unit).kernel
        (List.ofFn u) (List.ofFn v) = ∑ l, u l * v l := by
  refine ⟨_, ⟨1, _, by simp [hs, Gamma.value], rfl, rfl⟩, fun g u v => ?_⟩
  simp [getKernel]

end CML.SVC
