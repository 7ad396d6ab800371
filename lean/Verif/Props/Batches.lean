import Verif.Spec.Batches
import Verif.Props.Metrics
import Verif.Model.Losses
import Verif.Lemmas.KMeans
import Mathlib.Data.Fin.Tuple.Basic
import Mathlib.Algebra.BigOperators.Fin
import Mathlib.Tactic.FieldSimp
import Mathlib.Tactic.Linarith
import Mathlib.Tactic.NormNum

set_option linter.unusedSectionVars false
set_option linter.unusedSimpArgs false

/-!
# Properties C327, C328: evaluation in batches

backend/python/metrics.py:77-124, backend/python/losses.py:36-151, base_model.py:43-60.
-/

namespace CML
open Metrics Finset

section metrics
variable {K : Type*} [Field K] [LinearOrder K] [IsStrictOrderedRing K]

/-- **C327** (binary accuracy, Python and C++). The accuracy over two batches is the mean of their accuracies, weighted with their sizes. -/
theorem C327_binary_accuracy (p q : List K) (y z : List Int) (hp : p.length = y.length) (hq : q.length = z.length) (a b : K)
    (ha : binaryAccuracy p y = .ok a) (hb : binaryAccuracy q z = .ok b) :
    ∃ v, binaryAccuracy (p ++ q) (y ++ z) = .ok v ∧ binaryAccuracyCC (p ++ q) (y ++ z) = .ok v ∧ IsWeighted p.length q.length a b v := by
  unfold binaryAccuracy at ha hb
  split at ha
  · cases ha
  · rename_i hp0
    split at hb
    · cases hb
    · rename_i hq0
      simp only [Except.ok.injEq] at ha hb
      subst ha hb
      have hp0' : (p.length : K) ≠ 0 := by exact_mod_cast hp0
      have hq0' : (q.length : K) ≠ 0 := by exact_mod_cast hq0
      have e : binaryAccuracy (p ++ q) (y ++ z) =
          .ok ((((p ++ q).length : K) - (((p ++ q).zip (y ++ z)).countP fun q => wrong q.1 q.2 : Nat)) / ((p ++ q).length : K)) := by
        unfold binaryAccuracy
        rw [if_neg (by simp only [List.length_append]; omega)]
      refine ⟨_, e, ?_, ?_⟩
      · unfold binaryAccuracyCC
        rw [if_neg (by simp [hp, hq]), e]
      · rw [IsWeighted, List.zip_append hp, List.countP_append, List.length_append]
        push_cast
        rw [mul_div_cancel₀ _ hp0', mul_div_cancel₀ _ hq0']
        congr 1
        ring

/-- **C327** (score). The score of a classifier over two batches of rows is the weighted mean of its scores. -/
theorem C327_score (p q y z : List Int) (hp : p.length = y.length) (hq : q.length = z.length) (a b : K)
    (ha : score p y = .ok a) (hb : score q z = .ok b) :
    ∃ v, score (p ++ q) (y ++ z) = .ok v ∧ IsWeighted p.length q.length a b v := by
  unfold score at ha hb ⊢
  obtain ⟨v, h1, -, h2⟩ := C327_binary_accuracy _ _ y z (by simpa using hp) (by simpa using hq) a b ha hb
  exact ⟨v, by rw [List.map_append]; exact h1, by simpa using h2⟩

/-- What the categorical accuracy is for as many predictions as labels. -/
lemma categorical_ok {p y : List (List K)} (h : p.length = y.length) {a : K} (ha : categoricalAccuracy p y = .ok a) :
    ∃ s t, argmaxRows p = some s ∧ argmaxRows y = some t ∧ s.length = p.length ∧ t.length = y.length ∧ p.length ≠ 0 ∧
      a = ((s.zip t).countP fun q => decide (q.1 = q.2) : Nat) / (p.length : K) := by
  unfold categoricalAccuracy at ha
  cases hs : argmaxRows p with
  | none => rw [hs] at ha; cases ha
  | some s =>
    cases ht : argmaxRows y with
    | none => rw [hs, ht] at ha; cases ha
    | some t =>
      have h1 : s.length = p.length := (KMeans.mapM_some _ _ hs).1
      have h2 : t.length = y.length := (KMeans.mapM_some _ _ ht).1
      rw [hs, ht] at ha
      simp only [h1, h2, h, if_true] at ha
      refine ⟨s, t, rfl, rfl, h1, h2, ?_⟩
      have hz : (s.zip t).length = p.length := by simp [h1, h2, h]
      rw [hz] at ha
      split at ha
      · cases ha
      · rename_i h0
        simp only [Except.ok.injEq] at ha
        exact ⟨h0, ha.symm⟩

/-- **C327** (categorical accuracy). -/
theorem C327_categorical_accuracy (p q y z : List (List K)) (hp : p.length = y.length) (hq : q.length = z.length) (a b : K)
    (ha : categoricalAccuracy p y = .ok a) (hb : categoricalAccuracy q z = .ok b) :
    ∃ v, categoricalAccuracy (p ++ q) (y ++ z) = .ok v ∧ IsWeighted p.length q.length a b v := by
  obtain ⟨s, t, h1, h2, h3, h4, h5, rfl⟩ := categorical_ok hp ha
  obtain ⟨s', t', h1', h2', h3', h4', h5', rfl⟩ := categorical_ok hq hb
  have hp0' : (p.length : K) ≠ 0 := by exact_mod_cast h5
  have hq0' : (q.length : K) ≠ 0 := by exact_mod_cast h5'
  unfold argmaxRows at h1 h2 h1' h2'
  have e1 : argmaxRows (p ++ q) = some (s ++ s') := by unfold argmaxRows; rw [List.mapM_append, h1, h1']; rfl
  have e2 : argmaxRows (y ++ z) = some (t ++ t') := by unfold argmaxRows; rw [List.mapM_append, h2, h2']; rfl
  have hst : s.length = t.length := by omega
  have hst' : s'.length = t'.length := by omega
  refine ⟨_, ?_, rfl⟩
  unfold categoricalAccuracy
  rw [e1, e2]
  have hl : (s ++ s').length = (t ++ t').length := by simp; omega
  simp only [hl, if_true]
  have hz : ((s ++ s').zip (t ++ t')).length = p.length + q.length := by simp; omega
  rw [hz, if_neg (by omega), List.zip_append hst, List.countP_append, mul_div_cancel₀ _ hp0', mul_div_cancel₀ _ hq0']
  push_cast
  rfl

end metrics

/-! ## Losses -/

variable {n m k : Nat}

lemma weighted_sum (a b : ℝ) (hn : 0 < n) (hm : 0 < m) : (a + b) / ((n + m : Nat) : ℝ) = ((n : ℝ) * (a / n) + (m : ℝ) * (b / m)) / ((n : ℝ) + (m : ℝ)) := by
  have hn' : (n : ℝ) ≠ 0 := by exact_mod_cast hn.ne'
  have hm' : (m : ℝ) ≠ 0 := by exact_mod_cast hm.ne'
  rw [mul_div_cancel₀ _ hn', mul_div_cancel₀ _ hm']
  push_cast; rfl

/-- **C327** (binary cross-entropy). -/
theorem C327_binary_crossentropy (hn : 0 < n) (hm : 0 < m) (p y : Fin n → ℝ) (q z : Fin m → ℝ) :
    IsWeighted n m (binaryCrossentropy p y) (binaryCrossentropy q z) (binaryCrossentropy (Fin.append p q) (Fin.append y z)) := by
  unfold IsWeighted binaryCrossentropy
  rw [← weighted_sum _ _ hn hm, Fin.sum_univ_add, Fin.sum_univ_add]
  simp only [Fin.append_left, Fin.append_right]
  congr 1
  ring

/-- **C327** (categorical cross-entropy). -/
theorem C327_categorical_crossentropy (hn : 0 < n) (hm : 0 < m) (p y : Fin n → Fin k → ℝ) (q z : Fin m → Fin k → ℝ) :
    IsWeighted n m (categoricalCrossentropy p y) (categoricalCrossentropy q z) (categoricalCrossentropy (Fin.append p q) (Fin.append y z)) := by
  unfold IsWeighted categoricalCrossentropy
  rw [← weighted_sum _ _ hn hm, Fin.sum_univ_add]
  simp only [Fin.append_left, Fin.append_right]
  congr 1
  ring

/-- **C327** (cross-entropy, which chooses between the two by the number of columns). -/
theorem C327_crossentropy (hn : 0 < n) (hm : 0 < m) (p y : Fin n → Fin k → ℝ) (q z : Fin m → Fin k → ℝ) :
    IsWeighted n m (crossentropy p y) (crossentropy q z) (crossentropy (Fin.append p q) (Fin.append y z)) := by
  unfold crossentropy
  split
  · rename_i h
    have e : ∀ (u : Fin n → Fin k → ℝ) (w : Fin m → Fin k → ℝ), (fun i => Fin.append u w i ⟨0, by omega⟩) = Fin.append (fun i => u i ⟨0, by omega⟩) (fun i => w i ⟨0, by omega⟩) := by
      intro u w
      funext i
      refine Fin.addCases (fun i => ?_) (fun i => ?_) i <;> simp
    rw [e, e]
    exact C327_binary_crossentropy hn hm _ _ _ _
  · exact C327_categorical_crossentropy hn hm _ _ _ _

/-- **C327** (log-likelihood of a logistic regression): the losses of the batches add up. -/
theorem C327_log_likelihood (y s : Fin n → ℝ) (z t : Fin m → ℝ) :
    logLikelihoodOf (Fin.append y z) (Fin.append s t) = logLikelihoodOf y s + logLikelihoodOf z t := by
  unfold logLikelihoodOf
  rw [Fin.sum_univ_add]
  simp

/-! ## Mean squared error -/

/-- **C328** (violated). The reported mean squared error is the square of the total residual over `2n`; over two batches, `2(n+m)` times it is the square of the sum of the two total
residuals. It is the weighted mean of the losses of the batches exactly if one of the batches has total residual zero. -/
theorem C328_mean_squared_error_partial (hn : 0 < n) (hm : 0 < m) (p y : Fin n → ℝ) (q z : Fin m → ℝ) :
    IsWeighted n m (meanSquaredError p y) (meanSquaredError q z) (meanSquaredError (Fin.append p q) (Fin.append y z)) ↔
      ∑ i, (p i - y i) = 0 ∨ ∑ i, (q i - z i) = 0 := by
  have hn' : (n : ℝ) ≠ 0 := by exact_mod_cast hn.ne'
  have hm' : (m : ℝ) ≠ 0 := by exact_mod_cast hm.ne'
  have hnm : (n : ℝ) + m ≠ 0 := by positivity
  unfold IsWeighted meanSquaredError
  rw [Fin.sum_univ_add]
  simp only [Fin.append_left, Fin.append_right]
  generalize ∑ i, (p i - y i) = r
  generalize ∑ i, (q i - z i) = s
  push_cast
  rw [← mul_eq_zero]
  constructor
  · intro h
    field_simp at h
    linarith
  · intro h
    field_simp
    linarith

/-- **C328** (violated). Two batches of one sample, each off by one in opposite directions: each has loss 1/2, together they have loss 0. -/
theorem C328_witness : meanSquaredError (n := 1) ![1] ![0] = 1 / 2 ∧ meanSquaredError (n := 1) ![0] ![1] = 1 / 2 ∧
    meanSquaredError (Fin.append ![1] ![0]) (Fin.append ![0] ![1]) = 0 := by
  refine ⟨by norm_num [meanSquaredError], by norm_num [meanSquaredError], ?_⟩
  unfold meanSquaredError
  rw [Fin.sum_univ_add]
  simp only [Fin.append_left, Fin.append_right]
  simp

/-- Non-vacuity of C327: batches of three and one rows. -/
example : binaryAccuracy ([1/4, 3/4, 1/2] : List ℚ) [0, 1, 0] = .ok (2/3) ∧ binaryAccuracy ([1] : List ℚ) [-1] = .ok 0 ∧ IsWeighted (K := ℚ) 3 1 (2/3) 0 (1/2) := by
  refine ⟨by decide +kernel, by decide +kernel, by norm_num [IsWeighted]⟩

example : categoricalAccuracy ([[1, 0], [0, 1]] : List (List ℚ)) [[1, 0], [1, 0]] = .ok (1/2) := by decide +kernel

end CML
