import Verif.Props.KMeansSym
import Verif.Props.SVCSym
import Verif.Props.Newton
import Verif.Props.GMMRank

set_option linter.unusedSectionVars false

/-! # A constant attribute (C243) -/

namespace CML.KMeans
open Finset

variable {K : Type*} [Field K] [LinearOrder K] [IsStrictOrderedRing K] {d : Nat}

/-- A row with one more attribute, of value `c`. -/
def withConst (c : K) (u : Fin d → K) : Fin (d + 1) → K := Fin.snoc (α := fun _ => K) u c

theorem withConst_last (c : K) (u : Fin d → K) : withConst c u (Fin.last d) = c := by simp [withConst]
theorem withConst_cast (c : K) (u : Fin d → K) (k : Fin d) : withConst c u k.castSucc = u k := by simp [withConst]

theorem sqDist_const (c : K) (u v : Fin d → K) : sqDist (withConst c u) (withConst c v) = sqDist u v := by
  unfold sqDist
  rw [Fin.sum_univ_castSucc]
  simp [withConst_last, withConst_cast]

theorem distances_const (root : K → K) (c : K) (u : Fin d → K) (cs : List (Option (Fin d → K))) :
    distances root (withConst c u) (cs.map (Option.map (withConst c))) = distances root u cs := by
  unfold distances
  rw [List.map_map]
  refine List.map_congr_left fun o _ => ?_
  cases o with
  | none => rfl
  | some v => simp [sqDist_const]

theorem getCluster_const (root : K → K) (c : K) (x : List (Fin d → K)) (cs : List (Option (Fin d → K))) :
    getCluster root (x.map (withConst c)) (cs.map (Option.map (withConst c))) = getCluster root x cs := by
  unfold getCluster
  rw [mapM_map_option]
  exact mapM_congr_option _ _ _ fun u _ => by rw [distances_const]

theorem members_const (c : K) (x : List (Fin d → K)) (lab : List Nat) (l : Nat) :
    members (x.map (withConst c)) lab l = (members x lab l).map (withConst c) := by
  unfold members
  induction x generalizing lab with
  | nil => simp
  | cons u x ih =>
    cases lab with
    | nil => simp
    | cons m lab =>
      simp only [List.map_cons, List.zip_cons_cons, List.filter_cons]
      by_cases h : m = l
      · simp only [h, decide_true, if_true, List.map_cons, ih]
      · simp only [h, decide_false, Bool.false_eq_true, if_false, ih]

theorem mean_const (c : K) (rows : List (Fin d → K)) : mean (rows.map (withConst c)) = (mean rows).map (withConst c) := by
  unfold mean
  by_cases h : rows = []
  · simp [h]
  · rw [if_neg (by simpa using h), if_neg h]
    simp only [Option.map_some, Option.some.injEq, List.length_map, List.map_map]
    have hn : (rows.length : K) ≠ 0 := by exact_mod_cast (List.length_pos_of_ne_nil h).ne'
    funext k
    refine Fin.lastCases ?_ (fun k => ?_) k
    · rw [withConst_last]
      have : (rows.map ((fun r : Fin (d + 1) → K => r (Fin.last d)) ∘ withConst c)) = List.replicate rows.length c := by
        rw [List.eq_replicate_iff]
        simp [withConst_last]
      rw [this]
      simp [hn]
    · rw [withConst_cast]
      simp only [Function.comp_def, withConst_cast]

theorem calculateCentroids_const (c : K) (x : List (Fin d → K)) (lab : List Nat) :
    calculateCentroids (x.map (withConst c)) lab = (calculateCentroids x lab).map (Option.map (withConst c)) := by
  simp only [calculateCentroids, List.map_map, Function.comp_def, members_const, mean_const]

theorem rowDiffers_const (c tol : K) (htol : 0 ≤ tol) (u v : Option (Fin d → K)) :
    rowDiffers tol (u.map (withConst c)) (v.map (withConst c)) = rowDiffers tol u v := by
  cases u with
  | none => rfl
  | some u =>
    cases v with
    | none => rfl
    | some v =>
      simp only [Option.map_some, rowDiffers, decide_eq_decide]
      constructor
      · rintro ⟨k, h⟩
        revert h
        refine Fin.lastCases (fun h => ?_) (fun k h => ?_) k
        · rw [withConst_last, withConst_last, sub_self, abs_zero] at h
          exact absurd h (not_lt.2 htol)
        · rw [withConst_cast, withConst_cast] at h
          exact ⟨k, h⟩
      · rintro ⟨k, h⟩
        exact ⟨k.castSucc, by rw [withConst_cast, withConst_cast]; exact h⟩

theorem compareDifferences_const (c tol : K) (htol : 0 ≤ tol) (cs cs' : List (Option (Fin d → K))) :
    compareDifferences (cs.map (Option.map (withConst c))) (cs'.map (Option.map (withConst c))) tol = compareDifferences cs cs' tol := by
  unfold compareDifferences
  by_cases h : cs.length = cs'.length
  · rw [if_pos (by simpa using h), if_pos h, List.zipWith_map]
    simp only [rowDiffers_const c tol htol]
  · rw [if_neg (by simpa using h), if_neg h]
    match cs, cs' with
    | cs, [b] => simp [Function.comp_def, rowDiffers_const c tol htol]
    | [e], [] => simp
    | [e], b :: b' :: l => simp [Function.comp_def, rowDiffers_const c tol htol]
    | [], [] => simp
    | [], b :: b' :: l => rfl
    | e :: e' :: l, [] => rfl
    | e :: e' :: l, b :: b' :: m => rfl

/-- C243, k-means: with one more attribute that has the value `c` everywhere, `fit` raises in the same cases, stops in the same epoch and
gives the same labels; the centroids have the value `c` in addition. -/
theorem C243_kmeans_partial (root : K → K) (c tol : K) (htol : 0 ≤ tol) (x init : List (Fin d → K)) (epochs : Nat) :
    fit root (x.map (withConst c)) tol epochs (init.map (withConst c)) =
      (fit root x tol epochs init).map fun r => { centroids := r.centroids.map (Option.map (withConst c)), clusters := r.clusters, stopped := r.stopped } := by
  have key : ∀ (e : Nat) (cs : List (Option (Fin d → K))) (lab : Option (List Nat)),
      fitLoop root (x.map (withConst c)) tol e (cs.map (Option.map (withConst c))) lab =
        (fitLoop root x tol e cs lab).map fun r => { centroids := r.centroids.map (Option.map (withConst c)), clusters := r.clusters, stopped := r.stopped } := by
    intro e
    induction e with
    | zero => intro cs lab; rfl
    | succ e ih =>
      intro cs lab
      simp only [fitLoop, getCluster_const]
      cases getCluster root x cs with
      | none => rfl
      | some lab' =>
        dsimp only
        rw [calculateCentroids_const, compareDifferences_const c tol htol]
        cases compareDifferences cs (calculateCentroids x lab') tol with
        | error er => rfl
        | ok diff =>
          dsimp only
          by_cases h : diff.any id = true
          · rw [if_pos h, if_pos h]; exact ih _ _
          · rw [if_neg h, if_neg h]; rfl
  have := key epochs (init.map some) none
  rw [List.map_map] at this
  unfold fit
  rw [List.map_map]
  exact this

/-- C243, k-means: and `predict` gives the same labels. -/
theorem C243_kmeans_predict_partial (root : K → K) (c : K) (cs : List (Option (Fin d → K))) (x : List (Fin d → K)) :
    predict root (cs.map (Option.map (withConst c))) (x.map (withConst c)) = predict root cs x :=
  getCluster_const root c x cs

/-- Three samples with an additional attribute of value 7. -/
example : fit id ([![0, 1], ![1, 2], ![10, 10]].map (withConst 7)) (1 / 10) 5 ([![0, 0], ![9, 9]].map (withConst 7))
    = .ok (⟨[some ![1 / 2, 3 / 2, 7], some ![10, 10, 7]], some [0, 0, 1], true⟩ : Fitted ℚ 3) := by decide +kernel

end CML.KMeans

namespace CML.SVC
open SMO Finset

variable {N : Type*} {n : Nat}

theorem rbf_const (g c : ℝ) (u v : List ℝ) (h : u.length = v.length) : rbfList g (u ++ [c]) (v ++ [c]) = rbfList g u v := by
  unfold rbfList
  rw [List.zipWith_append h]
  simp

/-- C243, support vector classifier: with the RBF kernel and a given number `gamma`, a constant attribute changes neither the multipliers
nor the bias nor the prediction of any row. -/
theorem C243_svc_partial (make : N → ℝ → List ℝ → List ℝ → ℝ) (perms : Nat → List (Fin n)) (o o' : Obj ℝ N) (x : Fin n → List ℝ) (y : Fin n → ℝ)
    (d : Nat) (hd : ∀ i, (x i).length = d) (epochs : Int) (g c : ℝ) (hg : o.gamma = .num g) (hk : getKernel make g o.kernel = rbfList g)
    (h : Fit make perms o x y d epochs o') :
    ∃ o'', Fit make perms o (fun i => x i ++ [c]) y (d + 1) epochs o'' ∧
      o''.supportAlpha = o'.supportAlpha ∧ o''.b = o'.b ∧ o''.supportVector = o'.supportVector.map (· ++ [c]) ∧
      ∀ rows, (∀ r ∈ rows, r.length = d) → o''.predict (rows.map (· ++ [c])) = o'.predict rows := by
  obtain ⟨g', s, hg', hs, rfl⟩ := h
  rw [hg] at hg'
  have hgg : g' = g := by simpa [Gamma.value] using hg'.symm
  subst hgg
  have hprob : problem (getKernel make g' o.kernel) o.C o.tol (fun i => x i ++ [c]) y = problem (getKernel make g' o.kernel) o.C o.tol x y := by
    unfold problem
    congr 1
    funext i j
    rw [hk]
    exact rbf_const g' c _ _ (by rw [hd, hd])
  refine ⟨_, ⟨g', s, by rw [hg]; rfl, by rw [hprob]; exact hs, rfl⟩, ?_, ?_, ?_, ?_⟩
  · simp only [hprob]
  · simp only [hprob]
  · simp only [hprob, List.map_map, Function.comp_def]
  · intro rows hrows
    unfold Obj.predict
    simp only [List.map_map]
    rw [if_neg (by simp), if_neg (by simp)]
    congr 1
    refine List.map_congr_left fun r hr => ?_
    simp only [Function.comp_def, decisionValue, hprob]
    have e : ∀ (A : List ℝ) (l : List (Fin n)), List.zipWith (fun ay v => ay * getKernel make g' o.kernel (r ++ [c]) v) A (l.map fun i => x i ++ [c]) =
        List.zipWith (fun ay v => ay * getKernel make g' o.kernel r v) A (l.map x) := by
      intro A l
      induction l generalizing A with
      | nil => simp
      | cons i l ih =>
        cases A with
        | nil => rfl
        | cons a A =>
          simp only [List.map_cons, List.zipWith_cons_cons, ih]
          rw [hk, rbf_const g' c _ _ (by rw [hrows r hr, hd])]
    rw [e]
    rfl

/-- C243 fails for the default `gamma='auto'`: the number of attributes, constant or not, determines `gamma`, so every pair of different
rows gets another kernel value. -/
theorem C243_auto_gamma_violated (x x' : List (List ℝ)) (d : Nat) (hd : 0 < d) (c : ℝ) (u v : List ℝ) (huv : u.length = v.length)
    (hne : (List.zipWith (fun a b => (b - a) ^ 2) u v).sum ≠ 0) :
    ∃ g g' : ℝ, Gamma.value x d .auto = some g ∧ Gamma.value x' (d + 1) .auto = some g' ∧ g' < g ∧
      rbfList g' (u ++ [c]) (v ++ [c]) ≠ rbfList g u v := by
  have hd' : (0 : ℝ) < d := by exact_mod_cast hd
  refine ⟨1 / d, 1 / ((d + 1 : ℕ) : ℝ), by simp [Gamma.value, hd.ne'], by simp [Gamma.value], ?_, ?_⟩
  · apply one_div_lt_one_div_of_lt hd'
    push_cast; linarith
  · rw [rbf_const _ _ _ _ huv]
    unfold rbfList
    intro he
    have := Real.exp_injective he
    rw [mul_neg, mul_neg, neg_inj] at this
    have h2 := mul_right_cancel₀ hne this
    have h3 : (1 : ℝ) / ((d + 1 : ℕ) : ℝ) < 1 / d := by
      apply one_div_lt_one_div_of_lt hd'
      push_cast; linarith
    exact absurd h2 h3.ne

example : (List.zipWith (fun a b => (b - a) ^ 2) [(1 : ℝ), 2] [1, 5]).sum ≠ 0 := by norm_num

end CML.SVC

namespace CML.LogReg
variable {n d : Nat}

/-- C243 fails for Newton's method and for Gaussian mixtures: an additional constant attribute makes EVERY training raise, whatever
the data. -/
theorem C243_violated (x : Fin n → Fin d → ℝ) (c : ℝ) :
    (∀ (y : Fin n → ℝ) (e : Nat) (beta : Fin (d + 1 + 1) → ℝ), newtonRun (fun i => KMeans.withConst c (x i)) y (e + 1) beta = .error .valueError) ∧
    (∀ (k : Nat), n ≠ 0 → k ≠ 0 → ∀ (tol : ℝ), tol * (d + 1 : ℕ) < 0.1 → ∀ (e : Nat) (mu : Fin k → Fin (d + 1) → ℝ) (alpha : Fin k → ℝ),
      GMM.fit (GMM.normalDensity id) (fun i => KMeans.withConst c (x i)) tol (e + 1) ⟨mu, fun _ => GMM.defaultCovariance (d + 1), alpha⟩ = none) := by
  constructor
  · intro y e beta
    exact C234_violated _ ((C234_dependent _).2.1 (Fin.last d) c fun i => KMeans.withConst_last c (x i)) y e beta
  · intro k hn hk tol htol e mu alpha
    exact GMM.C239_violated id _ hn hk ((GMM.C239_flat _).1 ⟨Fin.last d, c, fun i => KMeans.withConst_last c (x i)⟩) tol htol (e + 1)
      (Nat.succ_ne_zero e) mu alpha

end CML.LogReg
