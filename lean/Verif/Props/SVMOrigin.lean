import Verif.Spec.SVMOrigin
import Verif.Props.SVCSym
import Mathlib.Tactic.FinCases

set_option linter.unusedSectionVars false

/-! # Properties C267–C269: coordinates, polynomial kernels, order of the samples -/

namespace CML.SVC
open SMO

variable {K N : Type*} [Field K] [LinearOrder K] [IsStrictOrderedRing K] {n d : Nat}

/-! ## C267: coordinates -/

/-- C267, the part that holds: with a kernel of inner products (linear, polynomial, sigmoid) and a fixed `gamma`, a rotation or reflection of the features of
all rows changes no prediction. -/
theorem C267_rotation_partial (make : N → K → List K → List K → K) (perms : Nat → List (Fin n)) (o o' : Obj K N) (k : List K → List K → K)
    (hk : o.kernel = .inst k) (hip : InnerProductKernel d k) (hg : o.gamma ≠ .scale) (x : Fin n → Fin d → K) (y : Fin n → K) (epochs : Int)
    (φ : (Fin d → K) → Fin d → K) (hφ : Orthogonal φ) (h : Fit make perms o (fun i => List.ofFn (x i)) y d epochs o') :
    ∃ o'', Fit make perms o (fun i => List.ofFn (φ (x i))) y d epochs o'' ∧
      ∀ r : Fin d → K, o''.predict [List.ofFn (φ r)] = o'.predict [List.ofFn r] := by
  obtain ⟨f, hf⟩ := hip
  obtain ⟨g, s, h1, h2, h3⟩ := h
  have hg2 : o.gamma.value (List.ofFn fun i => List.ofFn (φ (x i))) d = some g := by
    cases hgg : o.gamma with
    | auto => rw [hgg] at h1; exact h1
    | scale => exact absurd hgg hg
    | num a => rw [hgg] at h1; exact h1
  have hkk : ∀ g', getKernel make g' o.kernel = k := fun g' => by rw [hk]; rfl
  have hp : problem k o.C o.tol (fun i => List.ofFn (φ (x i))) y = problem k o.C o.tol (fun i => List.ofFn (x i)) y := by
    simp only [problem]
    congr 1
    funext i j
    rw [hf, hf, hφ]
  rw [hkk] at h2 h3
  refine ⟨_, ⟨g, s, hg2, by rw [hkk, hp]; exact h2, rfl⟩, fun r => ?_⟩
  rw [h3, hkk]
  simp only [Obj.predict, Bool.true_eq_false, false_and, if_false, List.map_cons, List.map_nil, decisionValue, hp]
  have key : (List.zipWith (fun ay v => ay * k (List.ofFn (φ r)) v) (List.zipWith (· * ·) (extract (problem k o.C o.tol (fun i => List.ofFn (x i)) y) s).supportAlpha
      (extract (problem k o.C o.tol (fun i => List.ofFn (x i)) y) s).supportY)
      ((extract (problem k o.C o.tol (fun i => List.ofFn (x i)) y) s).support.map fun i => List.ofFn (φ (x i)))) =
      List.zipWith (fun ay v => ay * k (List.ofFn r) v) (List.zipWith (· * ·) (extract (problem k o.C o.tol (fun i => List.ofFn (x i)) y) s).supportAlpha
      (extract (problem k o.C o.tol (fun i => List.ofFn (x i)) y) s).supportY)
      ((extract (problem k o.C o.tol (fun i => List.ofFn (x i)) y) s).support.map fun i => List.ofFn (x i)) := by
    simp only [extract]
    generalize (List.finRange n).filter s.nonZero = l
    rw [zip_support, zip_support]
    refine List.map_congr_left fun i _ => ?_
    rw [hf, hf, hφ]
  rw [key]
  congr

/-- The two-dimensional quarter turn is such a change of coordinates, and the linear, polynomial and sigmoid-like kernels look at inner products only. -/
example : Orthogonal (K := ℚ) (d := 2) (fun u => ![-u 1, u 0]) := by
  intro u v
  simp [Fin.sum_univ_two]
  ring

theorem linearList_ofFn (u v : Fin d → K) : linearList (List.ofFn u) (List.ofFn v) = ∑ l, u l * v l := by
  unfold linearList
  rw [List.sum_ofFn.symm]
  congr 1
  apply List.ext_getElem
  · simp
  · intro i h1 h2
    simp

theorem C267_kernels (gamma : K) (degree : Nat) : InnerProductKernel d (linearList (K := K)) ∧ InnerProductKernel d (polyList gamma degree) :=
  ⟨⟨id, fun u v => linearList_ofFn u v⟩, ⟨fun t => gamma * t ^ degree, fun u v => by rw [polyList, linearList_ofFn]⟩⟩

/-- C267: with the linear kernel the origin does not matter for the optimisation problem itself: feasible multipliers have the same objective and are optimal up
to the tolerance for both positions of the origin. -/
theorem C267_same_problem (C tol : K) (x : Fin n → Fin d → K) (t : Fin d → K) (y : Fin n → K) :
    let p := problem linearList C tol (fun i => List.ofFn (x i)) y
    let p' := problem linearList C tol (fun i => List.ofFn fun l => x i l + t l) y
    (∀ alphas, DualFeasible p' alphas ↔ DualFeasible p alphas) ∧ (∀ alphas, DualFeasible p alphas → dualObjective p' alphas = dualObjective p alphas) ∧
      ∀ alphas, NearOptimal p' alphas ↔ NearOptimal p alphas := by
  intro p p'
  have h1 : ∀ alphas, DualFeasible p' alphas ↔ DualFeasible p alphas := fun _ => Iff.rfl
  have h2 : ∀ alphas, DualFeasible p alphas → dualObjective p' alphas = dualObjective p alphas := by
    intro alphas hf
    have hg : ∀ k l, p'.gram k l = p.gram k l + ((∑ m, x k m * t m) + ∑ m, t m * t m) + ∑ m, x l m * t m := by
      intro k l
      simp only [p, p', problem, linearList_ofFn, ← Finset.sum_add_distrib]
      exact Finset.sum_congr rfl fun m _ => by ring
    have hy : p'.y = p.y := rfl
    unfold dualObjective
    congr 2
    have e : ∀ k l, alphas k * alphas l * p'.y k * p'.y l * p'.gram k l = alphas k * alphas l * p.y k * p.y l * p.gram k l +
        (alphas k * p.y k * ((∑ m, x k m * t m) + ∑ m, t m * t m)) * (alphas l * p.y l) + (alphas k * p.y k) * (alphas l * p.y l * ∑ m, x l m * t m) := by
      intro k l
      rw [hg, hy]; ring
    simp only [e, Finset.sum_add_distrib, ← Finset.mul_sum, hf.2, mul_zero, add_zero]
    rw [← Finset.sum_mul, hf.2, zero_mul, add_zero]
  refine ⟨h1, h2, fun alphas => ⟨fun ⟨a, b⟩ => ⟨a, fun betas hb => ?_⟩, fun ⟨a, b⟩ => ⟨a, fun betas hb => ?_⟩⟩⟩
  · have := b betas hb
    rwa [h2 betas hb, h2 alphas a] at this
  · rw [h2 betas hb, h2 alphas a]
    exact b betas hb

/-- The instance of the two witnesses: linear kernel, tolerance 1/1000. -/
def linearObj (C : ℚ) : Obj ℚ Unit :=
  { supportVector := [], supportAlpha := [], supportY := [], b := 0, C := C, kernel := .inst linearList, gamma := .auto, tol := 1 / 1000, trained := false, loaded := false }

/-- The classifier that training leaves behind when it ends by itself within `k` passes. -/
def trainedWithin (k : Nat) (o : Obj ℚ Unit) (kern : List ℚ → List ℚ → ℚ) (perms : Nat → List (Fin n)) (x : Fin n → List ℚ) (y : Fin n → ℚ) : Option (Obj ℚ Unit) :=
  let p := problem kern o.C o.tol x y
  let r := loop p perms k (Run.init ℚ n)
  if r.2 = true then
    some { o with gamma := .num 1, kernel := .inst kern, supportVector := (extract p r.1.st).support.map x, supportAlpha := (extract p r.1.st).supportAlpha,
                  supportY := (extract p r.1.st).supportY, b := (extract p r.1.st).b, trained := true }
  else none

theorem trainedWithin_fit (k : Nat) (C : ℚ) (perms : Nat → List (Fin n)) (x : Fin n → List ℚ) (y : Fin n → ℚ) (o' : Obj ℚ Unit)
    (h : trainedWithin k (linearObj C) linearList perms x y = some o') : Fit (fun _ _ => linearList) perms (linearObj C) x y 1 (-1) o' := by
  unfold trainedWithin at h
  dsimp only at h
  split at h
  · rename_i hr
    injection h with h
    refine ⟨1, _, by simp [linearObj, Gamma.value], ?_, h.symm⟩
    unfold Returns
    rw [if_pos rfl]
    exact ⟨k, hr, rfl⟩
  · cases h

/-- C267 is false for the origin: four samples on a line, trained until training ends by itself (no limit on the passes, the same permutations). Measured from
another origin, the classifier gives another label to the rows 0 - a training row - and -1. The optimiser refreshes its error cache with the old set of
support vectors, and what it forgets depends on the origin. -/
theorem C267_origin_violated : ∃ (x : Fin 4 → ℚ) (y : Fin 4 → ℚ) (o1 o2 : Obj ℚ Unit),
    Fit (fun _ _ => linearList) (fun _ => [0, 1, 2, 3]) (linearObj 2) (fun i => [x i]) y 1 (-1) o1 ∧
    Fit (fun _ _ => linearList) (fun _ => [0, 1, 2, 3]) (linearObj 2) (fun i => [x i + 1]) y 1 (-1) o2 ∧
    o1.predict [[0], [-1]] = .ok [-1, -1] ∧ o2.predict [[0 + 1], [-1 + 1]] = .ok [1, 1] := by
  have key : (trainedWithin 20 (linearObj 2) linearList (fun _ => [0, 1, 2, 3]) (fun i : Fin 4 => [(![2, 0, 3, -3] : Fin 4 → ℚ) i]) ![1, -1, -1, 1]).isSome = true ∧
      (trainedWithin 20 (linearObj 2) linearList (fun _ => [0, 1, 2, 3]) (fun i : Fin 4 => [(![2, 0, 3, -3] : Fin 4 → ℚ) i + 1]) ![1, -1, -1, 1]).isSome = true ∧
      (trainedWithin 20 (linearObj 2) linearList (fun _ => [0, 1, 2, 3]) (fun i : Fin 4 => [(![2, 0, 3, -3] : Fin 4 → ℚ) i]) ![1, -1, -1, 1]).map (fun o => o.predict [[0], [-1]]) = some (.ok [-1, -1]) ∧
      (trainedWithin 20 (linearObj 2) linearList (fun _ => [0, 1, 2, 3]) (fun i : Fin 4 => [(![2, 0, 3, -3] : Fin 4 → ℚ) i + 1]) ![1, -1, -1, 1]).map (fun o => o.predict [[0 + 1], [-1 + 1]]) = some (.ok [1, 1]) := by
    decide +kernel
  obtain ⟨h1, h2, h3, h4⟩ := key
  obtain ⟨o1, e1⟩ := Option.isSome_iff_exists.1 h1
  obtain ⟨o2, e2⟩ := Option.isSome_iff_exists.1 h2
  rw [e1, Option.map_some, Option.some.injEq] at h3
  rw [e2, Option.map_some, Option.some.injEq] at h4
  exact ⟨![2, 0, 3, -3], ![1, -1, -1, 1], o1, o2, trainedWithin_fit 20 2 _ _ _ _ e1, trainedWithin_fit 20 2 _ _ _ _ e2, h3, h4⟩

/-! ## C268: polynomial kernels -/

/-- C268, what holds: with the polynomial kernel the decision function is a constant plus a form of degree `p` - no other terms. (`hk`: a kernel given as an
instance, or the name `'poly'`, which means degree 3.) -/
theorem C268_form_partial (make : N → K → List K → List K → K) (perms : Nat → List (Fin n)) (o o' : Obj K N) (x : Fin n → Fin d → K)
    (y : Fin n → K) (hy : ∀ i, y i = 1 ∨ y i = -1) (hC : 0 ≤ o.C) (epochs : Int) (p : Nat)
    (h : Fit make perms o (fun i => List.ofFn (x i)) y d epochs o') (hk : ∀ g, ∃ gamma, getKernel make g o.kernel = polyList gamma p) :
    ∃ (gamma : K) (c : Fin n → K) (b : K), ∀ rows : List (Fin d → K), o'.predict (rows.map fun r => List.ofFn r) =
        .ok (rows.map fun r => if (∑ i, c i * (gamma * (∑ l, r l * x i l) ^ p)) + b < 0 then -1 else 1) := by
  obtain ⟨g, alphas, b, hg, hf1, hf2, hpred⟩ := C124_decision make perms o o' _ y hy hC d epochs h
  obtain ⟨gamma, hk⟩ := hk g
  refine ⟨gamma, fun i => alphas i * y i, b, fun rows => ?_⟩
  rw [hpred, List.map_map]
  congr 1
  refine List.map_congr_left fun r _ => ?_
  simp only [Function.comp_apply, fullDecision, hk, polyList, linearList_ofFn]

/-- C268 is false for every even degree: whatever the data, labels, `C`, tolerance and permutations, the classifier gives a row and its mirror image the same
label… -/
theorem C268_mirror (make : N → K → List K → List K → K) (perms : Nat → List (Fin n)) (o o' : Obj K N) (x : Fin n → Fin d → K)
    (y : Fin n → K) (hy : ∀ i, y i = 1 ∨ y i = -1) (hC : 0 ≤ o.C) (epochs : Int) (p : Nat) (hp : Even p)
    (h : Fit make perms o (fun i => List.ofFn (x i)) y d epochs o') (hk : ∀ g, ∃ gamma, getKernel make g o.kernel = polyList gamma p) (r : Fin d → K) :
    o'.predict [List.ofFn fun l => -r l] = o'.predict [List.ofFn r] := by
  obtain ⟨gamma, c, b, hf⟩ := C268_form_partial make perms o o' x y hy hC epochs p h hk
  have e1 := hf [r]
  have e2 := hf [fun l => -r l]
  simp only [List.map_cons, List.map_nil] at e1 e2
  rw [e1, e2]
  simp only [neg_mul, Finset.sum_neg_distrib, hp.neg_pow]

/-- …so that it misclassifies a training row whenever two opposite rows have different labels, although a line through the origin separates them. -/
theorem C268_even_violated (make : N → K → List K → List K → K) (perms : Nat → List (Fin n)) (o o' : Obj K N) (x : Fin n → Fin d → K)
    (y : Fin n → K) (hy : ∀ i, y i = 1 ∨ y i = -1) (hC : 0 ≤ o.C) (epochs : Int) (p : Nat) (hp : Even p)
    (h : Fit make perms o (fun i => List.ofFn (x i)) y d epochs o') (hk : ∀ g, ∃ gamma, getKernel make g o.kernel = polyList gamma p)
    (i j : Fin n) (hx : x j = fun l => -x i l) (hi : y i = 1) (hj : y j = -1) :
    ¬ (o'.predict [List.ofFn (x i)] = .ok [1] ∧ o'.predict [List.ofFn (x j)] = .ok [-1]) := by
  rintro ⟨h1, h2⟩
  rw [hx, C268_mirror make perms o o' x y hy hC epochs p hp h hk, h1] at h2
  simp at h2

/-- C268 is false for every odd degree, the default 3 among them: on data with one feature the classifier is a threshold - one label below it, the other
above - as with the linear kernel. A class between two others cannot be learnt. -/
theorem C268_odd_violated (make : N → K → List K → List K → K) (perms : Nat → List (Fin n)) (o o' : Obj K N) (x : Fin n → Fin 1 → K)
    (y : Fin n → K) (hy : ∀ i, y i = 1 ∨ y i = -1) (hC : 0 ≤ o.C) (epochs : Int) (p : Nat) (hp : Odd p)
    (h : Fit make perms o (fun i => List.ofFn (x i)) y 1 epochs o') (hk : ∀ g, ∃ gamma, getKernel make g o.kernel = polyList gamma p)
    (r s t : K) (hrs : r ≤ s) (hst : s ≤ t) (a : Int) (h1 : o'.predict [[r]] = .ok [a]) (h3 : o'.predict [[t]] = .ok [a]) :
    o'.predict [[s]] = .ok [a] := by
  obtain ⟨gamma, c, b, hf⟩ := C268_form_partial make perms o o' x y hy hC epochs p h hk
  have e : ∀ v : K, o'.predict [[v]] = .ok [if (∑ i, c i * (gamma * x i 0 ^ p)) * v ^ p + b < 0 then -1 else 1] := by
    intro v
    have := hf [fun _ => v]
    simp only [List.map_cons, List.map_nil, List.ofFn_succ, List.ofFn_zero, Finset.univ_unique, Finset.sum_singleton, Fin.default_eq_zero] at this
    rw [this]
    have e2 : (∑ i, c i * (gamma * x i 0 ^ p)) * v ^ p = ∑ i, c i * (gamma * (v * x i 0) ^ p) := by
      rw [Finset.sum_mul]
      exact Finset.sum_congr rfl fun i _ => by rw [mul_pow]; ring
    rw [e2]
  set w := ∑ i, c i * (gamma * x i 0 ^ p)
  have m1 : r ^ p ≤ s ^ p := hp.strictMono_pow.monotone hrs
  have m2 : s ^ p ≤ t ^ p := hp.strictMono_pow.monotone hst
  rw [e] at h1 h3 ⊢
  have hb : (w * r ^ p + b ≤ w * s ^ p + b ∧ w * s ^ p + b ≤ w * t ^ p + b) ∨ (w * t ^ p + b ≤ w * s ^ p + b ∧ w * s ^ p + b ≤ w * r ^ p + b) := by
    rcases le_total 0 w with hw | hw
    · exact .inl ⟨by nlinarith, by nlinarith⟩
    · exact .inr ⟨by nlinarith, by nlinarith⟩
  simp only [Except.ok.injEq, List.cons.injEq, and_true] at h1 h3 ⊢
  split at h1 <;> split at h3 <;> split <;> first | exact h1 | (exfalso; rcases hb with hb | hb <;> [linarith [hb.1, hb.2]; linarith [hb.1, hb.2]]) | omega

/-- A kernel as in the hypotheses: the default `Polynomial` kernel. -/
example : ∀ g : ℚ, ∃ gamma, getKernel (N := Unit) (fun _ g => polyList g 3) g (.name ()) = polyList gamma 3 := fun g => ⟨g, rfl⟩

/-! ## C269: the order of the samples -/

/-- C269, the part that holds: the optimisation problem does not depend on the order of the samples: multipliers are optimal up to the tolerance exactly if the
re-ordered ones are so for the re-ordered data. -/
theorem C269_same_problem_partial (k : List K → List K → K) (C tol : K) (x : Fin n → List K) (y : Fin n → K) (σ : Equiv.Perm (Fin n)) (alphas : Fin n → K) :
    NearOptimal (problem k C tol (x ∘ σ) (y ∘ σ)) (alphas ∘ σ) ↔ NearOptimal (problem k C tol x y) alphas := by
  have hf : ∀ a : Fin n → K, DualFeasible (problem k C tol (x ∘ σ) (y ∘ σ)) (a ∘ σ) ↔ DualFeasible (problem k C tol x y) a := by
    intro a
    simp only [DualFeasible, problem, Function.comp_apply]
    rw [Equiv.sum_comp σ fun i => a i * y i]
    exact and_congr_left fun _ => ⟨fun h i => by simpa using h (σ.symm i), fun h i => h _⟩
  have ho : ∀ a : Fin n → K, dualObjective (problem k C tol (x ∘ σ) (y ∘ σ)) (a ∘ σ) = dualObjective (problem k C tol x y) a := by
    intro a
    simp only [dualObjective, problem, Function.comp_apply]
    rw [Equiv.sum_comp σ a, Equiv.sum_comp σ fun i => ∑ l, a i * a (σ l) * y i * y (σ l) * k (x i) (x (σ l))]
    congr 2
    exact Finset.sum_congr rfl fun i _ => Equiv.sum_comp σ fun l => a i * a l * y i * y l * k (x i) (x l)
  have hd : ∀ a c : Fin n → K, ∑ i, |(a ∘ σ) i - (c ∘ σ) i| = ∑ i, |a i - c i| := fun a c => Equiv.sum_comp σ fun i => |a i - c i|
  unfold NearOptimal
  rw [hf]
  refine and_congr_right fun _ => ⟨fun h betas hb => ?_, fun h betas hb => ?_⟩
  · have := h (betas ∘ σ) ((hf betas).2 hb)
    rw [ho, ho, hd] at this
    exact this
  · obtain ⟨c, rfl⟩ : ∃ c : Fin n → K, betas = c ∘ σ := ⟨betas ∘ σ.symm, by funext i; simp⟩
    rw [ho, ho, hd]
    exact h c ((hf c).1 hb)

/-- C269 is false of the training: four samples on a line that a threshold separates, trained until training ends by itself. In one order the training row 0 gets
the wrong label, in another order the right one. -/
theorem C269_order_violated : ∃ (x : Fin 4 → ℚ) (y : Fin 4 → ℚ) (σ : Equiv.Perm (Fin 4)) (o1 o2 : Obj ℚ Unit),
    Fit (fun _ _ => linearList) (fun _ => [0, 1, 2, 3]) (linearObj 1) (fun i => [x i]) y 1 (-1) o1 ∧
    Fit (fun _ _ => linearList) (fun _ => [0, 1, 2, 3]) (linearObj 1) (fun i => [x (σ i)]) (fun i => y (σ i)) 1 (-1) o2 ∧
    o1.predict [[0]] = .ok [-1] ∧ o2.predict [[0]] = .ok [1] ∧ x 3 = 0 ∧ y 3 = 1 := by
  let σ : Equiv.Perm (Fin 4) := ⟨![3, 0, 2, 1], ![1, 3, 2, 0], by decide, by decide⟩
  have key : (trainedWithin 20 (linearObj 1) linearList (fun _ => [0, 1, 2, 3]) (fun i : Fin 4 => [(![-1, 2, -2, 0] : Fin 4 → ℚ) i]) ![-1, 1, -1, 1]).map (fun o => o.predict [[0]]) = some (.ok [-1]) ∧
      (trainedWithin 20 (linearObj 1) linearList (fun _ => [0, 1, 2, 3]) (fun i : Fin 4 => [(![-1, 2, -2, 0] : Fin 4 → ℚ) (![3, 0, 2, 1] i)])
        (fun i => (![-1, 1, -1, 1] : Fin 4 → ℚ) (![3, 0, 2, 1] i))).map (fun o => o.predict [[0]]) = some (.ok [1]) := by
    decide +kernel
  obtain ⟨h1, h2⟩ := key
  obtain ⟨o1, e1, h1⟩ := Option.map_eq_some_iff.1 h1
  obtain ⟨o2, e2, h2⟩ := Option.map_eq_some_iff.1 h2
  exact ⟨![-1, 2, -2, 0], ![-1, 1, -1, 1], σ, o1, o2, trainedWithin_fit 20 1 _ _ _ _ e1, trainedWithin_fit 20 1 _ _ _ _ e2, h1, h2, rfl, rfl⟩

end CML.SVC
