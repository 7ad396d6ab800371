import Verif.Spec.Twice
import Verif.Props.Constant
import Verif.Props.LDA
import Verif.Props.SmallTwice

set_option linter.unusedSectionVars false

/-! # An attribute that is given twice (C323, C324) -/

namespace CML.Twice

theorem sum_stretch (f : ℝ → ℝ → ℝ) (hf : ∀ a b, f (Real.sqrt 2 * a) (Real.sqrt 2 * b) = 2 * f a b) : ∀ (k : Nat) (u v : List ℝ), k < u.length → u.length = v.length →
    (List.zipWith f (stretch k u) (stretch k v)).sum = (List.zipWith f (again k u) (again k v)).sum
  | k, [], v, hk, _ => by simp at hk
  | k, a :: u, [], _, hl => by simp at hl
  | 0, a :: u, b :: v, _, hl => by
    have hl' : u.length = v.length := by simpa using hl
    simp only [stretch, again, List.set_cons_zero, List.getD_cons_zero, List.zipWith_cons_cons, List.sum_cons, hf, List.cons_append]
    rw [List.zipWith_append hl', List.sum_append]
    simp only [List.zipWith_cons_cons, List.zipWith_nil_left, List.sum_cons, List.sum_nil]
    ring
  | k + 1, a :: u, b :: v, hk, hl => by
    have ih := sum_stretch f hf k u v (by simpa using hk) (by simpa using hl)
    simp only [stretch, again, List.set_cons_succ, List.getD_cons_succ, List.zipWith_cons_cons, List.sum_cons, List.cons_append] at ih ⊢
    rw [ih]

theorem two : Real.sqrt 2 * Real.sqrt 2 = 2 := Real.mul_self_sqrt (by norm_num)

/-- The kernels cannot tell an attribute given twice from the attribute stretched by `√2`. -/
theorem kernels_alike (k : Nat) (u v : List ℝ) (hk : k < u.length) (hl : u.length = v.length) :
    SVC.linearList (again k u) (again k v) = SVC.linearList (stretch k u) (stretch k v) ∧
    (∀ g p, SVC.polyList g p (again k u) (again k v) = SVC.polyList g p (stretch k u) (stretch k v)) ∧
    ∀ g, SVC.rbfList g (again k u) (again k v) = SVC.rbfList g (stretch k u) (stretch k v) := by
  have h1 : SVC.linearList (again k u) (again k v) = SVC.linearList (stretch k u) (stretch k v) :=
    (sum_stretch (· * ·) (fun a b => by have := two; linear_combination (a * b) * this) k u v hk hl).symm
  refine ⟨h1, fun g p => by unfold SVC.polyList; rw [h1], fun g => ?_⟩
  unfold SVC.rbfList
  rw [sum_stretch (fun a b => (b - a) ^ 2) (fun a b => by have := two; linear_combination ((b - a) ^ 2) * this) k u v hk hl]

end CML.Twice

namespace CML.SVC
open SMO Finset

variable {N : Type*} {n : Nat}

/-- Two ways of writing rows that the kernel cannot tell apart lead to the same machine. -/
theorem fit_alike (make : N → ℝ → List ℝ → List ℝ → ℝ) (perms : Nat → List (Fin n)) (o o' : Obj ℝ N) (x : Fin n → List ℝ) (y : Fin n → ℝ)
    (d d₁ d₂ : Nat) (hd : ∀ i, (x i).length = d) (epochs : Int) (g : ℝ) (hg : o.gamma = .num g) (φ ψ : List ℝ → List ℝ)
    (hk : ∀ u v : List ℝ, u.length = d → v.length = d → getKernel make g o.kernel (φ u) (φ v) = getKernel make g o.kernel (ψ u) (ψ v))
    (h : Fit make perms o (fun i => φ (x i)) y d₁ epochs o') :
    ∃ o'', Fit make perms o (fun i => ψ (x i)) y d₂ epochs o'' ∧ o''.supportAlpha = o'.supportAlpha ∧ o''.b = o'.b ∧
      ∀ rows : List (List ℝ), (∀ r ∈ rows, r.length = d) → o''.predict (rows.map ψ) = o'.predict (rows.map φ) := by
  obtain ⟨g', s, hg', hs, rfl⟩ := h
  rw [hg] at hg'
  have hgg : g' = g := by simpa [Gamma.value] using hg'.symm
  subst hgg
  have hprob : problem (getKernel make g' o.kernel) o.C o.tol (fun i => ψ (x i)) y = problem (getKernel make g' o.kernel) o.C o.tol (fun i => φ (x i)) y := by
    unfold problem
    congr 1
    funext i j
    exact (hk _ _ (hd i) (hd j)).symm
  refine ⟨_, ⟨g', s, by rw [hg]; rfl, by rw [hprob]; exact hs, rfl⟩, ?_, ?_, ?_⟩
  · simp only [hprob]
  · simp only [hprob]
  · intro rows hrows
    unfold Obj.predict
    simp only [List.map_map]
    rw [if_neg (by simp), if_neg (by simp)]
    congr 1
    refine List.map_congr_left fun r hr => ?_
    simp only [Function.comp_def, decisionValue, hprob]
    have e : ∀ (A : List ℝ) (l : List (Fin n)), List.zipWith (fun ay v => ay * getKernel make g' o.kernel (ψ r) v) A (l.map fun i => ψ (x i)) =
        List.zipWith (fun ay v => ay * getKernel make g' o.kernel (φ r) v) A (l.map fun i => φ (x i)) := by
      intro A l
      induction l generalizing A with
      | nil => simp
      | cons i l ih =>
        cases A with
        | nil => rfl
        | cons a A =>
          simp only [List.map_cons, List.zipWith_cons_cons, ih]
          rw [hk _ _ (hrows r hr) (hd i)]
    rw [e]
    rfl

/-- C323, support vector classifier with the linear, a polynomial or the RBF kernel and a given number `gamma`: giving an attribute twice has exactly the effect of
multiplying it by `√2` - the same multipliers, the same bias, the same prediction for every row. -/
theorem C323_svc (make : N → ℝ → List ℝ → List ℝ → ℝ) (perms : Nat → List (Fin n)) (o o' : Obj ℝ N) (x : Fin n → List ℝ) (y : Fin n → ℝ)
    (d : Nat) (hd : ∀ i, (x i).length = d) (k : Nat) (hkd : k < d) (epochs : Int) (g : ℝ) (hg : o.gamma = .num g)
    (hker : getKernel make g o.kernel = linearList ∨ (∃ p, getKernel make g o.kernel = polyList g p) ∨ getKernel make g o.kernel = rbfList g)
    (h : Fit make perms o (fun i => Twice.again k (x i)) y (d + 1) epochs o') :
    ∃ o'', Fit make perms o (fun i => Twice.stretch k (x i)) y d epochs o'' ∧ o''.supportAlpha = o'.supportAlpha ∧ o''.b = o'.b ∧
      ∀ rows : List (List ℝ), (∀ r ∈ rows, r.length = d) → o''.predict (rows.map (Twice.stretch k)) = o'.predict (rows.map (Twice.again k)) := by
  refine fit_alike make perms o o' x y d (d + 1) d hd epochs g hg _ _ (fun u v hu hv => ?_) h
  have := Twice.kernels_alike k u v (hu ▸ hkd) (hu.trans hv.symm)
  rcases hker with e | ⟨p, e⟩ | e <;> rw [e]
  · exact this.1
  · exact this.2.1 g p
  · exact this.2.2 g

/-- The attribute 1 of two rows, twice and stretched: inner product 2 * 5 + 3 * 7 + 3 * 7. -/
example : linearList (Twice.again 1 [2, 3]) (Twice.again 1 [5, 7]) = 52 ∧ linearList (Twice.stretch 1 [2, 3]) (Twice.stretch 1 [5, 7]) = 52 := by
  have h : linearList (Twice.again 1 [2, 3]) (Twice.again 1 [5, 7]) = 52 := by norm_num [linearList, Twice.again]
  exact ⟨h, (Twice.kernels_alike 1 [2, 3] [5, 7] (by simp) rfl).1 ▸ h⟩

end CML.SVC

namespace CML.LogReg
open Finset

variable {n d : Nat}

/-- The parameters of the stretched attributes that say the same as parameters of the repeated ones. -/
noncomputable def merge (k : Fin d) (b : Fin (d + 1 + 1) → ℝ) : Fin (d + 1) → ℝ :=
  Fin.snoc (α := fun _ => ℝ) (Function.update (fun j : Fin d => b j.castSucc.castSucc) k ((b k.castSucc.castSucc + b (Fin.last d).castSucc) / Real.sqrt 2)) (b (Fin.last (d + 1)))

theorem sqrt_two_ne : Real.sqrt 2 ≠ 0 := by positivity

theorem scores_merge (k : Fin d) (x : Fin n → Fin d → ℝ) (b : Fin (d + 1 + 1) → ℝ) :
    scores (fun i => Twice.stretchF k (x i)) (merge k b) = scores (fun i => Twice.againF k (x i)) b := by
  funext i
  unfold scores
  rw [Fin.sum_univ_castSucc, Fin.sum_univ_castSucc (n := d + 1), Fin.sum_univ_castSucc (n := d)]
  simp only [hat, merge, Twice.againF, Fin.snoc_castSucc, Fin.snoc_last]
  rw [← Finset.add_sum_erase _ _ (Finset.mem_univ k), ← Finset.add_sum_erase _ (fun j : Fin d => x i j * b j.castSucc.castSucc) (Finset.mem_univ k)]
  have e : ∑ j ∈ Finset.univ.erase k, Twice.stretchF k (x i) j *
      Function.update (fun j : Fin d => b j.castSucc.castSucc) k ((b k.castSucc.castSucc + b (Fin.last d).castSucc) / Real.sqrt 2) j =
      ∑ j ∈ Finset.univ.erase k, x i j * b j.castSucc.castSucc := by
    refine Finset.sum_congr rfl fun j hj => ?_
    have hjk : j ≠ k := Finset.ne_of_mem_erase hj
    rw [Twice.stretchF, Function.update_of_ne hjk, Function.update_of_ne hjk]
  rw [e, Twice.stretchF, Function.update_self, Function.update_self]
  have := sqrt_two_ne
  field_simp
  ring

theorem step_merge (lr : ℝ) (k : Fin d) (x : Fin n → Fin d → ℝ) (y : Fin n → ℝ) (b : Fin (d + 1 + 1) → ℝ) :
    merge k (gdStep lr (fun i => Twice.againF k (x i)) y b) = gdStep lr (fun i => Twice.stretchF k (x i)) y (merge k b) := by
  have hf : forward (fun i => Twice.stretchF k (x i)) (merge k b) = forward (fun i => Twice.againF k (x i)) b := by
    unfold forward; rw [scores_merge]
  funext j
  unfold gdStep
  rw [hf]
  refine Fin.lastCases ?_ (fun j => ?_) j
  · simp only [merge, Fin.snoc_last, backward, hat]
  · by_cases hj : j = k
    · subst hj
      simp only [merge, Fin.snoc_castSucc, Fin.snoc_last, Function.update_self, backward, hat, Twice.againF, Twice.stretchF]
      have e : ∑ i, -(Real.sqrt 2 * x i j) * (y i - forward (fun i => Fin.snoc (α := fun _ => ℝ) (x i) (x i j)) b i) =
          Real.sqrt 2 * ∑ i, -(x i j) * (y i - forward (fun i => Fin.snoc (α := fun _ => ℝ) (x i) (x i j)) b i) := by
        rw [Finset.mul_sum]
        exact Finset.sum_congr rfl fun i _ => by ring
      rw [e]
      generalize ∑ i, -(x i j) * (y i - forward (fun i => Fin.snoc (α := fun _ => ℝ) (x i) (x i j)) b i) = G
      have h2 := sqrt_two_ne
      have h3 := Twice.two
      field_simp
      linear_combination (lr * G) * h3
    · simp only [merge, Fin.snoc_castSucc, Function.update_of_ne hj, backward, hat, Twice.againF, Twice.stretchF]

/-- C323, logistic regression by gradient descent: giving an attribute twice has exactly the effect of multiplying it by `√2`. Trained for the same number of epochs with the same learning
rate, from initial parameters with the same initial predictions (`merge`), the two models give every row the same probability. -/
theorem C323_gradient_descent (lr : ℝ) (k : Fin d) (x : Fin n → Fin d → ℝ) (y : Fin n → ℝ) (epochs : Nat) (b : Fin (d + 1 + 1) → ℝ) :
    gdRun lr (fun i => Twice.stretchF k (x i)) y epochs (merge k b) = merge k (gdRun lr (fun i => Twice.againF k (x i)) y epochs b) ∧
    ∀ (p : Nat) (rows : Fin p → Fin d → ℝ), forward (fun i => Twice.stretchF k (rows i)) (gdRun lr (fun i => Twice.stretchF k (x i)) y epochs (merge k b)) =
      forward (fun i => Twice.againF k (rows i)) (gdRun lr (fun i => Twice.againF k (x i)) y epochs b) := by
  have h : ∀ (epochs : Nat) (b : Fin (d + 1 + 1) → ℝ), gdRun lr (fun i => Twice.stretchF k (x i)) y epochs (merge k b) =
      merge k (gdRun lr (fun i => Twice.againF k (x i)) y epochs b) := by
    intro epochs
    induction epochs with
    | zero => intro b; rfl
    | succ e ih => intro b; simp only [gdRun]; rw [← step_merge, ih]
  refine ⟨h epochs b, fun p rows => ?_⟩
  rw [h]
  unfold forward
  rw [scores_merge]

/-- Every initial parameter vector of the stretched attributes comes from one of the repeated ones: halve the stretched parameter. -/
theorem C323_merge_onto (k : Fin d) (c : Fin (d + 1) → ℝ) : ∃ b : Fin (d + 1 + 1) → ℝ, merge k b = c ∧ b k.castSucc.castSucc = b (Fin.last d).castSucc := by
  refine ⟨Fin.snoc (α := fun _ => ℝ) (Fin.snoc (α := fun _ => ℝ) (Function.update (fun j : Fin d => c j.castSucc) k (c k.castSucc * Real.sqrt 2 / 2)) (c k.castSucc * Real.sqrt 2 / 2))
    (c (Fin.last d)), ?_, by simp only [Fin.snoc_castSucc, Function.update_self, Fin.snoc_last]⟩
  funext j
  refine Fin.lastCases ?_ (fun j => ?_) j
  · simp [merge]
  · by_cases hj : j = k
    · subst hj
      simp only [merge, Fin.snoc_castSucc, Function.update_self, Fin.snoc_last]
      have := sqrt_two_ne
      field_simp
      ring
    · simp only [merge, Fin.snoc_castSucc, Function.update_of_ne hj]

/-- The merged parameters of one attribute given twice with parameters 1 and 3, and bias 5. -/
example : merge (d := 1) 0 ![1, 3, 5] = ![4 / Real.sqrt 2, 5] := by
  funext j
  refine Fin.lastCases ?_ (fun j => ?_) j
  · simp only [merge, Fin.snoc_last]; rfl
  · have : j = 0 := Subsingleton.elim _ _
    subst this
    simp only [merge, Fin.snoc_castSucc, Function.update_self]
    norm_num [Fin.last]

/-- C324 is false: for EVERY data set an attribute that is given twice (columns `k ≠ l` equal) makes Newton's method, discriminant analysis (both `get_w` of the Python engine) and a
Gaussian mixture with the default covariances raise. -/
theorem C324_violated (x : Fin n → Fin d → ℝ) (k l : Fin d) (hkl : k ≠ l) (h : ∀ i, x i k = x i l) :
    (∀ (y : Fin n → ℝ) (e : Nat) (beta : Fin (d + 1) → ℝ), newtonRun x y (e + 1) beta = .error .valueError) ∧
    (∀ (m : Nat), n ≠ 0 → m ≠ 0 → ∀ (tol : ℝ), tol * (d : ℕ) < 0.1 → ∀ (e : Nat) (mu : Fin m → Fin d → ℝ) (alpha : Fin m → ℝ),
      GMM.fit (GMM.normalDensity id) x tol (e + 1) ⟨mu, fun _ => GMM.defaultCovariance d, alpha⟩ = none) :=
  ⟨fun y e beta => C234_violated x ((C234_dependent x).2.2 k l hkl h) y e beta,
   fun _ hn hm tol htol e mu alpha => GMM.C239_violated id x hn hm ((GMM.C239_flat x).2.1 ⟨k, l, hkl, h⟩) tol htol (e + 1) (Nat.succ_ne_zero e) mu alpha⟩

end CML.LogReg

namespace CML.LDA
open Matrix

variable {d : Nat}

theorem scatter_equal (X0 X1 : List (Fin d → ℝ)) (mu0 mu1 : Fin d → ℝ) (k l : Fin d) (h0 : ∀ r ∈ X0, r k - mu0 k = r l - mu0 l) (h1 : ∀ r ∈ X1, r k - mu1 k = r l - mu1 l) (b : Fin d) :
    scatter X0 X1 mu0 mu1 k b = scatter X0 X1 mu0 mu1 l b := by
  simp only [scatter, Matrix.add_apply, classScatter]
  congr 2
  · exact List.map_congr_left fun r hr => by rw [h0 r hr]
  · exact List.map_congr_left fun r hr => by rw [h1 r hr]

theorem rowsOf_mem {x : List (Fin d → ℝ)} {y : List Int} {c : Int} {r : Fin d → ℝ} (h : r ∈ rowsOf x y c) : r ∈ x := by
  unfold rowsOf at h
  obtain ⟨q, hq, rfl⟩ := List.mem_map.1 h
  exact (List.of_mem_zip (List.mem_of_mem_filter hq)).1

theorem colMean_equal {X : List (Fin d → ℝ)} {k l : Fin d} (h : ∀ r ∈ X, r k = r l) : ((colMean X).getD 0) k = ((colMean X).getD 0) l := by
  unfold colMean
  split
  · rfl
  · simp only [Option.getD_some]
    rw [List.map_congr_left h]

/-- C324 is false for discriminant analysis: whatever the data, `fit` of a table with an attribute given twice raises, with either `get_w` of the Python engine. -/
theorem C324_lda_violated (svd : Matrix (Fin d) (Fin d) ℝ → SVD ℝ d) (hsvd : ∀ S, IsSVD S (svd S)) (x : List (Fin d → ℝ)) (y : List Int) (hlen : x.length = y.length)
    (k l : Fin d) (hkl : k ≠ l) (h : ∀ r ∈ x, r k = r l) : fit (getWV2 svd) x y = .error .valueError ∧ fit getW x y = .error .valueError := by
  have hdet : (scatter (rowsOf x y 0) (rowsOf x y 1) ((colMean (rowsOf x y 0)).getD 0) ((colMean (rowsOf x y 1)).getD 0)).det = 0 := by
    refine Matrix.det_zero_of_row_eq hkl (funext fun b => scatter_equal _ _ _ _ k l (fun r hr => ?_) (fun r hr => ?_) b)
    · rw [h r (rowsOf_mem hr), colMean_equal fun r hr => h r (rowsOf_mem hr)]
    · rw [h r (rowsOf_mem hr), colMean_equal fun r hr => h r (rowsOf_mem hr)]
  unfold fit
  constructor
  · rw [if_neg (by simpa using hlen)]
    dsimp only
    rw [(C45_v2_singular svd _ _ _ (hsvd _)).1 hdet]
  · rw [if_neg (by simpa using hlen)]
    dsimp only
    rw [(C45_get_w_solves _ _ _).2 hdet]

end CML.LDA

namespace CML.Small

/-- C324, what holds: two-level trees, stumps and thereby AdaBoost are trained on a table with an attribute given twice exactly if on the table without the repetition. -/
theorem C324_small_trees_partial {K : Type*} [Field K] [LinearOrder K] {n : Nat} {a b : Fin (n + 1)} (hab : a < b) (d : List (Sample K (n + 1))) (he : ∀ s ∈ d, s.x a = s.x b)
    (data : List ((Fin (n + 1) → K) × Int)) (he' : ∀ q ∈ data, q.1 a = q.1 b) :
    ((∃ T, fit2 d = .ok T) ↔ ∃ T, fit2 (d.map (Sample.keep b.succAbove)) = .ok T) ∧
    ((∃ s, stumpGenerate data = some s) ↔ ∃ s, stumpGenerate (data.map fun q => ((fun j => q.1 (b.succAbove j)), q.2)) = some s) := by
  constructor
  · rcases C322_two_levels hab d he with ⟨e, h1, h2⟩ | ⟨T, T', h1, h2, -⟩
    · rw [h1, h2]; simp
    · rw [h1, h2]; simp
  · rw [stump_twice hab data he']
    cases stumpGenerate (data.map fun q => ((fun j => q.1 (b.succAbove j)), q.2)) <;> simp

end CML.Small
