import Verif.Spec.FailedFit
import Verif.Props.LogReg
import Verif.Props.LDA
import Verif.Props.KMeans

set_option linter.unusedSectionVars false

/-! # Properties C171 and C172: a call of `fit` that raises (logistic regression, LDA, k-means) -/

namespace CML.Failed
open LogReg

variable {n d : Nat}

/-! ## Logistic regression -/

/-- The loop on the attributes computes what the loop of `Model.LogReg` computes. -/
theorem newtonLoop_ok (x : Fin n → Fin d → ℝ) (y : Fin n → ℝ) (b : Fin (d + 1) → ℝ) (e : Nat) (r : Fin (d + 1) → ℝ) :
    newtonLoop x y e b = (r, none) ↔ newtonRun x y e b = .ok r := by
  induction e generalizing b with
  | zero => simp [newtonLoop, newtonRun]
  | succ e ih =>
    simp only [newtonLoop, newtonRun]
    cases newtonStep x y b with
    | error err => simp
    | ok b' => exact ih b'

theorem newtonLoop_error (x : Fin n → Fin d → ℝ) (y : Fin n → ℝ) (b : Fin (d + 1) → ℝ) (e : Nat) (r : Fin (d + 1) → ℝ) (err : PyErr) :
    newtonLoop x y e b = (r, some err) ↔ ∃ k, k < e ∧ newtonRun x y k b = .ok r ∧ newtonStep x y r = .error err := by
  induction e generalizing b with
  | zero => simp [newtonLoop]
  | succ e ih =>
    simp only [newtonLoop]
    cases h : newtonStep x y b with
    | error er =>
      simp only [Prod.mk.injEq, Option.some.injEq]
      constructor
      · rintro ⟨rfl, rfl⟩; exact ⟨0, Nat.succ_pos _, rfl, h⟩
      · rintro ⟨k, -, h1, h2⟩
        cases k with
        | zero =>
          simp only [newtonRun, Except.ok.injEq] at h1
          subst h1
          rw [h] at h2
          exact ⟨rfl, by injection h2⟩
        | succ k => simp [newtonRun, h] at h1
    | ok b' =>
      rw [ih b']
      constructor
      · rintro ⟨k, hk, h1, h2⟩; exact ⟨k + 1, by omega, by simpa [newtonRun, h] using h1, h2⟩
      · rintro ⟨k, hk, h1, h2⟩
        cases k with
        | zero =>
          simp only [newtonRun, Except.ok.injEq] at h1
          subst h1
          rw [h] at h2; cases h2
        | succ k => exact ⟨k, by omega, by simpa [newtonRun, h] using h1, h2⟩

/-- C171: `fit` of logistic regression completes exactly when Newton's method does, with its result and the mark of training. -/
theorem C171_logistic_completes (draw : Fin (d + 1) → ℝ) (o : LR) (ho : o.loaded = false) (x : Fin n → Fin d → ℝ) (y : Fin n → ℝ) (epochs : Nat)
    (o' : LR) :
    o.fit draw x y epochs = (o', none) ↔ ∃ b, newtonRun x y epochs draw = .ok b ∧ o' = { beta := some ⟨d, b⟩, trained := true, loaded := false } := by
  unfold LR.fit
  rw [ho]
  simp only [LR.train]
  constructor
  · intro h
    split at h
    · rename_i b hb
      refine ⟨b, (newtonLoop_ok x y draw epochs b).1 hb, ?_⟩
      rw [← (Prod.mk.inj h).1, ho]
    · simp at h
  · rintro ⟨b, h, rfl⟩
    rw [(newtonLoop_ok x y draw epochs b).2 h]
    simp [ho]

/-- C171 fails for logistic regression. When `fit` raises, the parameters are those the new training had reached: the ones drawn by the initialiser after the
epochs that were completed. The old ones are gone, and the marks are as before. -/
theorem C171_logistic_failed (draw : Fin (d + 1) → ℝ) (o : LR) (ho : o.loaded = false) (x : Fin n → Fin d → ℝ) (y : Fin n → ℝ) (epochs : Nat)
    (o' : LR) (err : PyErr) (h : o.fit draw x y epochs = (o', some err)) :
    ∃ e b, e < epochs ∧ newtonRun x y e draw = .ok b ∧ newtonStep x y b = .error err ∧ o' = { o with beta := some ⟨d, b⟩ } := by
  unfold LR.fit at h
  rw [ho] at h
  simp only [LR.train] at h
  split at h
  · simp at h
  · rename_i b e hb
    simp only [Prod.mk.injEq, Option.some.injEq] at h
    obtain ⟨rfl, rfl⟩ := h
    obtain ⟨k, hk, h1, h2⟩ := (newtonLoop_error x y draw epochs b e).1 hb
    exact ⟨k, b, hk, h1, h2, rfl⟩

/-- What two sets of parameters differ in shows on some sample. -/
theorem forward_injective {a b : Fin (d + 1) → ℝ} (h : a ≠ b) : ∃ r : Fin d → ℝ, forward (fun _ : Fin 1 => r) a ≠ forward (fun _ : Fin 1 => r) b := by
  by_contra hc
  push Not at hc
  apply h
  have hs : ∀ r : Fin d → ℝ, scores (fun _ : Fin 1 => r) a 0 = scores (fun _ : Fin 1 => r) b 0 := by
    intro r
    have := congrFun (hc r) 0
    simp only [forward] at this
    have e : ∀ z, sigmoid z = 1 / (1 + Real.exp (-z)) := fun z => rfl
    rw [e, e, one_div, one_div, inv_inj, add_right_inj, Real.exp_eq_exp] at this
    linarith
  have h0 := hs 0
  rw [scores_eq, scores_eq] at h0
  simp at h0
  funext j
  refine Fin.lastCases h0 (fun k => ?_) j
  have hk := hs (Pi.single k 1)
  rw [scores_eq, scores_eq] at hk
  simp [Pi.single_apply] at hk
  linarith

/-- C171 fails for logistic regression: on data with collinear features, or with no more samples than features, `fit` raises and an instance with `d`
features that had been trained now answers with the parameters just drawn at random. Unless they are the trained ones, some answers have changed. -/
theorem C171_logistic_forgets (draw b : Fin (d + 1) → ℝ) (x : Fin n → Fin d → ℝ) (y : Fin n → ℝ) (epochs : Nat) (he : 0 < epochs)
    (v : Fin (d + 1) → ℝ) (hv : v ≠ 0) (h : ∀ i, (∑ j : Fin d, x i j * v j.castSucc) + v (Fin.last d) = 0) :
    let o : LR := { beta := some ⟨d, b⟩, trained := true }
    (o.fit draw x y epochs).2 = some .valueError ∧
      (∀ {m : Nat} (q : Fin m → Fin d → ℝ), (o.fit draw x y epochs).1.predict q = .ok (forward q draw)) ∧
      (b ≠ draw → ¬ SameAnswers LR.answer o (o.fit draw x y epochs).1) := by
  obtain ⟨e, rfl⟩ : ∃ e, epochs = e + 1 := ⟨epochs - 1, by omega⟩
  have hs : newtonStep x y draw = .error .valueError := by
    have := C84_newton_collinear x y draw 0 v hv h
    simp only [newtonRun] at this
    cases hn : newtonStep x y draw with
    | error err => rw [hn] at this; exact this
    | ok b' => rw [hn] at this; cases this
  have hf : ∀ o : LR, o.loaded = false → o.fit draw x y (e + 1) = ({ o with beta := some ⟨d, draw⟩ }, some .valueError) := by
    intro o ho
    unfold LR.fit
    rw [ho]
    simp [LR.train, newtonLoop, hs, ho]
  intro o
  rw [hf o rfl]
  refine ⟨rfl, fun q => by simp [LR.predict, o], fun hne hsame => ?_⟩
  obtain ⟨r, hr⟩ := forward_injective hne
  have := hsame ⟨1, d, fun _ => r⟩
  simp only [LR.answer, LR.predict, o] at this
  simp only [Bool.true_eq_false, false_and, if_false, dite_true, Except.ok.injEq, List.ofFn_inj] at this
  exact hr this.symm

/-- The hypotheses are met by a dummy-coded table: two columns that add up to the constant column. -/
example : ∀ i, (∑ j : Fin 2, (![![1, 0], ![0, 1], ![1, 0]] : Fin 3 → Fin 2 → ℝ) i j * (![1, 1, -1] : Fin 3 → ℝ) j.castSucc) +
    (![1, 1, -1] : Fin 3 → ℝ) (Fin.last 2) = 0 := by
  intro i; fin_cases i <;> simp [Fin.sum_univ_two, Fin.last]

/-- C171 fails for logistic regression: when the call that raised had another number of features, the instance cannot answer any of the questions it
could answer before. -/
theorem C171_logistic_other_width (draw : Fin (d + 1) → ℝ) (o : LR) (ho : o.loaded = false) (x : Fin n → Fin d → ℝ) (y : Fin n → ℝ) (epochs : Nat)
    (hr : Raised (o.fit draw x y epochs)) {m d' : Nat} (hd : d' ≠ d) (q : Fin m → Fin d' → ℝ) :
    (o.fit draw x y epochs).1.predict q = .error .valueError := by
  cases he : (o.fit draw x y epochs).2 with
  | none => exact absurd he hr
  | some err =>
    obtain ⟨e, b, -, -, -, ho'⟩ := C171_logistic_failed draw o ho x y epochs _ err (by rw [← he])
    rw [ho']
    unfold LR.predict
    split_ifs
    · rfl
    · simp only [dif_neg (Ne.symm hd)]

/-- C171 (part): an instance that loaded parameters for another number of features refuses the data and is left as it was. -/
theorem C171_logistic_loaded_partial (draw : Fin (d + 1) → ℝ) (o : LR) (ho : o.loaded = true) (d' : Nat) (b : Fin (d' + 1) → ℝ)
    (hb : o.beta = some ⟨d', b⟩) (hd : d' ≠ d) (x : Fin n → Fin d → ℝ) (y : Fin n → ℝ) (epochs : Nat) (he : 0 < epochs) :
    o.fit draw x y epochs = (o, some .valueError) := by
  unfold LR.fit
  rw [ho, hb]
  simp only [dif_neg hd]
  rw [if_neg (by omega)]

/-- C172 (part): a call of `fit` that completes on an instance without loaded weights leaves nothing of what was there before. -/
theorem C172_logistic_partial (draw : Fin (d + 1) → ℝ) (o o2 : LR) (h1 : o.loaded = false) (h2 : o2.loaded = false) (x : Fin n → Fin d → ℝ) (y : Fin n → ℝ)
    (epochs : Nat) (h : (o.fit draw x y epochs).2 = none) : o2.fit draw x y epochs = o.fit draw x y epochs := by
  obtain ⟨b, hb, e1⟩ := (C171_logistic_completes draw o h1 x y epochs (o.fit draw x y epochs).1).1 (by rw [← h])
  have e2 := (C171_logistic_completes draw o2 h2 x y epochs _).2 ⟨b, hb, e1⟩
  rw [e2, ← h]

/-! ## LDA -/

variable {K : Type} [Field K] [LinearOrder K]

variable (gw : Matrix (Fin d) (Fin d) K → (Fin d → K) → (Fin d → K) → Except PyErr (Fin d → K))

/-- C171: `fit` of LDA completes exactly when the training of `Model.LDA` does, with its result. -/
theorem C171_lda_completes (o o' : LDAObj K) (x : List (Fin d → K)) (y : List Int) :
    o.fit gw x y = (o', none) ↔ ∃ t, LDA.fit gw x y = .ok t ∧
      o' = { w := some ⟨d, t.w⟩, mu0 := some ⟨d, t.mu0⟩, mu1 := some ⟨d, t.mu1⟩, trained := true, loaded := o.loaded } := by
  simp only [LDAObj.fit, LDA.fit]
  by_cases hl : x.length ≠ y.length
  · simp [hl]
  · rw [if_neg hl, if_neg hl]
    split
    · rename_i e h; simp [h]
    · rename_i w h
      rw [h]
      simp only [Prod.mk.injEq, and_true, Except.ok.injEq]
      constructor
      · rintro rfl; exact ⟨_, rfl, rfl⟩
      · rintro ⟨t, rfl, rfl⟩; rfl

/-- C171 fails for LDA: when the projection vector cannot be computed, the instance has the means of the new data and the projection vector of the old. -/
theorem C171_lda_failed (o o' : LDAObj K) (x : List (Fin d → K)) (y : List Int) (e : PyErr) (hl : x.length = y.length)
    (h : o.fit gw x y = (o', some e)) :
    o' = { o with mu0 := some ⟨d, LDA.colMean (LDA.rowsOf x y 0)⟩, mu1 := some ⟨d, LDA.colMean (LDA.rowsOf x y 1)⟩ } := by
  simp only [LDAObj.fit, hl, ne_eq, not_true_eq_false, if_false] at h
  split at h
  · exact (Prod.mk.inj h).1.symm
  · simp at h

/-- C171 (part): data whose lengths differ are refused before anything is changed. -/
theorem C171_lda_lengths_partial (o : LDAObj K) (x : List (Fin d → K)) (y : List Int) (hl : x.length ≠ y.length) :
    o.fit gw x y = (o, some .indexError) := by simp [LDAObj.fit, hl]

/-- C171 fails for LDA: after a failed call with another number of features, no question of the former kind is answered. -/
theorem C171_lda_other_width (o : LDAObj K) (x : List (Fin d → K)) (y : List Int) (hl : x.length = y.length) (hr : Raised (o.fit gw x y)) {d' : Nat} (hd : d' ≠ d)
    (w : RowVec K) (hw : o.w = some w) (q : List (Fin d' → K)) : (o.fit gw x y).1.predict q = .error .valueError := by
  cases he : (o.fit gw x y).2 with
  | none => exact absurd he hr
  | some e =>
    rw [C171_lda_failed gw o (o.fit gw x y).1 x y e hl (by rw [← he])]
    simp only [LDAObj.predict, hw]
    split_ifs
    · rfl
    · have : ∀ v : Option (Fin d → K), asLen d' (⟨d, v⟩ : RowVec K) = none := fun v => by simp [asLen, Ne.symm hd]
      rw [this]
      cases asLen d' w <;> rfl

theorem svd_zero (S : Matrix (Fin d) (Fin d) K) (hd : 0 < d) (hS : S = 0) (svd : Matrix (Fin d) (Fin d) K → LDA.SVD K d) [IsStrictOrderedRing K]
    (hsvd : LDA.IsSVD S (svd S)) (m0 m1 : Fin d → K) : LDA.getWV2 svd S m0 m1 = .error .valueError := by
  refine (LDA.C45_v2_singular svd S m0 m1 hsvd).1 ?_
  subst hS
  have : Nonempty (Fin d) := ⟨⟨0, hd⟩⟩
  exact Matrix.det_zero

theorem scatter_const [IsStrictOrderedRing K] (X0 X1 : List (Fin d → K)) (a b : Fin d → K) (h0 : ∀ r ∈ X0, r = a) (h1 : ∀ r ∈ X1, r = b) :
    LDA.scatter X0 X1 a b = 0 := by
  have key : ∀ (X : List (Fin d → K)) (m : Fin d → K), (∀ r ∈ X, r = m) → LDA.classScatter X m = 0 := by
    intro X m h
    funext i j
    unfold LDA.classScatter
    have : (X.map fun r => (r i - m i) * (r j - m j)) = X.map fun _ => (0 : K) := by
      refine List.map_congr_left fun r hr => ?_
      rw [h r hr]; ring
    rw [this]; simp
  unfold LDA.scatter
  rw [key X0 a h0, key X1 b h1, add_zero]

/-- C171 fails for LDA, with the projection function of the Python backend: one sample for each class makes `fit` raise, and the trained instance then uses its
old projection vector with the two samples as means. -/
theorem C171_lda_two_samples [IsStrictOrderedRing K] (hd : 0 < d) (svd : Matrix (Fin d) (Fin d) K → LDA.SVD K d) (hsvd : ∀ S, LDA.IsSVD S (svd S)) (o : LDAObj K)
    (a b : Fin d → K) :
    o.fit (LDA.getWV2 svd) [a, b] [0, 1] = ({ o with mu0 := some ⟨d, some a⟩, mu1 := some ⟨d, some b⟩ }, some .valueError) := by
  have e0 : LDA.rowsOf [a, b] [0, 1] 0 = [a] := rfl
  have e1 : LDA.rowsOf [a, b] [0, 1] 1 = [b] := rfl
  have m : ∀ r : Fin d → K, LDA.colMean [r] = some r := by
    intro r
    simp [LDA.colMean]
  simp only [LDAObj.fit, e0, e1, m]
  rw [if_neg (by simp)]
  have hs : LDA.scatter [a] [b] ((some a).getD 0) ((some b).getD 0) = 0 :=
    scatter_const _ _ _ _ (by simp) (by simp)
  rw [svd_zero _ hd hs svd (hsvd _) _ _]

/-- C171 fails for LDA: an instance that separates the samples below and above 1 answers the other way round after the failed call. -/
theorem C171_lda_changed [IsStrictOrderedRing K] (svd : Matrix (Fin 1) (Fin 1) K → LDA.SVD K 1) (hsvd : ∀ S, LDA.IsSVD S (svd S)) :
    let o : LDAObj K := { w := some ⟨1, some ![1]⟩, mu0 := some ⟨1, some ![0]⟩, mu1 := some ⟨1, some ![2]⟩, trained := true }
    Raised (o.fit (LDA.getWV2 svd) [![2], ![0]] [0, 1]) ∧ ¬ SameAnswers LDAObj.answer o (o.fit (LDA.getWV2 svd) [![2], ![0]] [0, 1]).1 := by
  intro o
  rw [C171_lda_two_samples (by norm_num) svd hsvd o]
  refine ⟨by simp [Raised], fun h => ?_⟩
  have := h ⟨1, 1, fun _ => ![0]⟩
  simp [LDAObj.answer, LDAObj.predict, asLen, o, LDA.predict, LDA.predictRow, dotProduct] at this

/-- C172 (part): a call of `fit` that completes leaves nothing of what was there before. -/
theorem C172_lda_partial (o o2 : LDAObj K) (x : List (Fin d → K)) (y : List Int) (hl : o.loaded = o2.loaded) (h : (o.fit gw x y).2 = none) :
    o2.fit gw x y = o.fit gw x y := by
  obtain ⟨t, ht, e1⟩ := (C171_lda_completes gw o (o.fit gw x y).1 x y).1 (by rw [← h])
  rw [hl] at e1
  have e2 := (C171_lda_completes gw o2 _ x y).2 ⟨t, ht, e1⟩
  rw [e2, ← h]

/-! ## k-means -/

/-- The loop on the attributes computes what the loop of `Model.KMeans` computes. -/
theorem loop_ok (root : K → K) (x : List (Fin d → K)) (tol : K) (e : Nat) (cs : List (Option (Fin d → K))) (o o' : KMObj K d) :
    KMObj.loop root x tol e cs o = (o', none) ↔ ∃ f, KMeans.fitLoop root x tol e cs o.clusters = .ok f ∧
      o' = { o with centroids := some f.centroids, clusters := f.clusters } := by
  induction e generalizing cs o with
  | zero =>
    simp only [KMObj.loop, KMeans.fitLoop, Prod.mk.injEq, and_true, Except.ok.injEq]
    constructor
    · rintro rfl; exact ⟨_, rfl, rfl⟩
    · rintro ⟨f, rfl, rfl⟩; rfl
  | succ e ih =>
    simp only [KMObj.loop, KMeans.fitLoop]
    split
    · simp_all
    · rename_i lab hlab
      rw [hlab]
      simp only
      split
      · simp_all
      · rename_i diff hdiff
        rw [hdiff]
        simp only
        split_ifs with hd
        · exact ih _ _
        · simp only [Prod.mk.injEq, and_true, Except.ok.injEq]
          constructor
          · rintro rfl; exact ⟨_, rfl, rfl⟩
          · rintro ⟨f, rfl, rfl⟩; rfl

/-- The result of the loop does not depend on the centroids and marks the instance had, apart from keeping the marks; the labels are new after one epoch. -/
theorem loop_old (root : K → K) (x : List (Fin d → K)) (tol : K) (e : Nat) (cs : List (Option (Fin d → K))) (o o2 : KMObj K d) :
    (KMObj.loop root x tol e cs o).2 = (KMObj.loop root x tol e cs o2).2 ∧
    (KMObj.loop root x tol e cs o).1.centroids = (KMObj.loop root x tol e cs o2).1.centroids ∧
    (KMObj.loop root x tol e cs o).1.trained = o.trained ∧ (KMObj.loop root x tol e cs o).1.loaded = o.loaded ∧
    (KMObj.loop root x tol e cs o).1.centroids ≠ none := by
  induction e generalizing cs o o2 with
  | zero => simp [KMObj.loop]
  | succ e ih =>
    simp only [KMObj.loop]
    split
    · simp
    · split
      · simp
      · split_ifs
        · obtain ⟨a, b, c, d, f⟩ := ih (KMeans.calculateCentroids x ‹_›) { o with clusters := some ‹_› } { o2 with clusters := some ‹_› }
          exact ⟨a, b, c, d, f⟩
        · simp

/-- C171: from initial centroids, `fit` of k-means completes exactly when the training of `Model.KMeans` does, with its result. -/
theorem C171_kmeans_completes (root : K → K) (x : List (Fin d → K)) (tol : K) (epochs : Nat) (init : List (Fin d → K)) (o' : KMObj K d) (l : Bool) :
    KMObj.fit root x tol epochs (.ok init) { loaded := l } = (o', none) ↔ ∃ f, KMeans.fit root x tol epochs init = .ok f ∧
      o' = { centroids := some f.centroids, clusters := f.clusters, trained := true, loaded := l } := by
  simp only [KMObj.fit, KMeans.fit]
  constructor
  · intro h
    split at h
    · rename_i o1 h1
      obtain ⟨f, hf, rfl⟩ := (loop_ok _ _ _ _ _ _ _).1 h1
      exact ⟨f, hf, by rw [← (Prod.mk.inj h).1]⟩
    · simp at h
  · rintro ⟨f, hf, rfl⟩
    rw [(loop_ok root x tol epochs (init.map some) _ _).2 ⟨f, hf, rfl⟩]

/-- C171 (part): when the initial centroids are refused the instance is as before. -/
theorem C171_kmeans_init_partial (root : K → K) (x : List (Fin d → K)) (tol : K) (epochs : Nat) (e : PyErr) (o : KMObj K d) :
    KMObj.fit root x tol epochs (.error e) o = (o, some e) := rfl

/-- C171 fails for k-means: once there are initial centroids, what is left after an error does not depend on how the instance had been trained: all
instances that were trained or loaded answer alike afterwards. -/
theorem C171_kmeans_forgets (root : K → K) (x : List (Fin d → K)) (tol : K) (epochs : Nat) (init : List (Fin d → K)) (o o2 : KMObj K d)
    (ho : o.trained = true) (ho2 : o2.trained = true) (hr : Raised (KMObj.fit root x tol epochs (.ok init) o)) :
    Raised (KMObj.fit root x tol epochs (.ok init) o2) ∧
      SameAnswers (KMObj.predict root) (KMObj.fit root x tol epochs (.ok init) o).1 (KMObj.fit root x tol epochs (.ok init) o2).1 := by
  obtain ⟨h1, h2, h3, -, -⟩ := loop_old root x tol epochs (init.map some) o o2
  obtain ⟨-, -, h4, -, -⟩ := loop_old root x tol epochs (init.map some) o2 o
  simp only [KMObj.fit, Raised] at hr ⊢
  cases he : KMObj.loop root x tol epochs (init.map some) o with
  | mk a e =>
    cases he2 : KMObj.loop root x tol epochs (init.map some) o2 with
    | mk a2 e2 =>
      rw [he] at hr h1 h2 h3
      rw [he2] at h1 h2 h4
      simp only at h1 h2 h3 h4
      subst h1
      cases e with
      | none => exact absurd rfl hr
      | some e =>
        refine ⟨by simp, fun q => ?_⟩
        simp only [KMObj.predict, h3, h4, ho, ho2, h2, Bool.true_eq_false, false_and, if_false]

/-- C171 fails for k-means: three initial centroids one of which gets no sample; the trained instance forgets its centroids. -/
theorem C171_kmeans_changed :
    let o : KMObj ℚ 1 := { centroids := some [some ![0], some ![1000], some ![2000]], clusters := some [0], trained := true }
    Raised (KMObj.fit id [![0], ![10], ![1]] (1/1000) 10 (.ok [![0], ![10], ![100]]) o) ∧
      ¬ SameAnswers (KMObj.predict id) o (KMObj.fit id [![0], ![10], ![1]] (1/1000) 10 (.ok [![0], ![10], ![100]]) o).1 := by
  intro o
  refine ⟨by unfold Raised; decide +kernel, fun h => ?_⟩
  have := h [![11]]
  revert this
  decide +kernel

/-- C172 (part): a call of `fit` with at least one epoch that completes gives the centroids and labels of a new instance, whatever failed before. -/
theorem C172_kmeans_partial (root : K → K) (x : List (Fin d → K)) (tol : K) (epochs : Nat) (he : 0 < epochs) (init : List (Fin d → K)) (o : KMObj K d) (f : KMeans.Fitted K d)
    (h : KMeans.fit root x tol epochs init = .ok f) :
    KMObj.fit root x tol epochs (.ok init) o = ({ centroids := some f.centroids, clusters := f.clusters, trained := true, loaded := o.loaded }, none) := by
  obtain ⟨e, rfl⟩ : ∃ e, epochs = e + 1 := ⟨epochs - 1, by omega⟩
  have : KMeans.fitLoop root x tol (e + 1) (init.map some) o.clusters = .ok f := h
  simp only [KMObj.fit]
  rw [(loop_ok root x tol (e + 1) (init.map some) o _).2 ⟨f, this, rfl⟩]

/-- C172 fails for k-means trained for no epoch: the labels of an earlier call stay. -/
theorem C172_kmeans_no_epoch (root : K → K) (x : List (Fin d → K)) (tol : K) (init : List (Fin d → K)) (o : KMObj K d) :
    (KMObj.fit root x tol 0 (.ok init) o).1.clusters = o.clusters := rfl

end CML.Failed
