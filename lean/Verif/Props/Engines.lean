import Verif.Spec.Engines
import Mathlib.Tactic.Ring
import Mathlib.Tactic.Linarith
import Mathlib.Tactic.FieldSimp
import Mathlib.Tactic.NormNum
import Mathlib.Tactic.IntervalCases
import Mathlib.Algebra.BigOperators.Ring.Finset

/-! # C142, C143: the losses of the two engines -/

set_option linter.unusedSectionVars false

namespace CML.Eng
open Finset

/-! ## Numbers -/

theorem sum_fin (s : Finset ℕ) (f : ℕ → ℝ) : (∑ i ∈ s, Fl.fin (f i)) = Fl.fin (∑ i ∈ s, f i) := by
  induction s using Finset.induction_on with
  | empty => simp [Fl.zero_def]
  | insert a s ha ih => rw [sum_insert ha, sum_insert ha, ih]; rfl

theorem nan_add (a : Fl) : Fl.nan + a = Fl.nan := by cases a <;> rfl

theorem sum_nan (s : Finset ℕ) (f : ℕ → Fl) (i : ℕ) (hi : i ∈ s) (h : f i = .nan) : (∑ j ∈ s, f j) = .nan := by
  rw [← Finset.add_sum_erase _ _ hi, h, nan_add]

theorem log_pos {x : ℝ} (h : 0 < x) : Fl.log x = .fin (Real.log x) := by simp [Fl.log, h]
theorem log_zero : Fl.log 0 = .ninf := by simp [Fl.log]
theorem log_neg {x : ℝ} (h : x < 0) : Fl.log x = .nan := by simp [Fl.log, not_lt.2 h.le, h.ne]

theorem bdim_self (n : Nat) : bdim n n = some n := by simp [bdim]
theorem bidx_lt {n i : Nat} (h : i < n) : bidx n i = i := by unfold bidx; split <;> omega

/-- Broadcasting matrices of one shape works entry by entry. -/
theorem broadcast_same {α β γ : Type} (f : α → β → γ) (r c : Nat) (a : ℕ → ℕ → α) (b : ℕ → ℕ → β) :
    ∃ e, broadcast f ⟨r, c, a⟩ ⟨r, c, b⟩ = .ok ⟨r, c, e⟩ ∧ ∀ i < r, ∀ j < c, e i j = f (a i j) (b i j) := by
  refine ⟨fun i j => f (a (bidx r i) (bidx c j)) (b (bidx r i) (bidx c j)), ?_, ?_⟩
  · simp [broadcast, bdim_self]
  · intro i hi j hj; simp only [bidx_lt hi, bidx_lt hj]

/-- A column against a row. -/
theorem broadcast_outer {α β γ : Type} (f : α → β → γ) (n : Nat) (a : ℕ → ℕ → α) (b : ℕ → ℕ → β) :
    ∃ e, broadcast f ⟨n, 1, a⟩ ⟨1, n, b⟩ = .ok ⟨n, n, e⟩ ∧ ∀ i < n, ∀ j < n, e i j = f (a i 0) (b 0 j) := by
  refine ⟨fun i j => f (a (bidx n i) (bidx 1 j)) (b (bidx 1 i) (bidx n j)), ?_, ?_⟩
  · have h1 : bdim n 1 = some n := by
      unfold bdim; split
      · rfl
      · rename_i h; simp [h]
    have h2 : bdim 1 n = some n := by
      unfold bdim; split
      · rename_i h; rw [h]
      · simp
    simp [broadcast, h1, h2]
  · intro i hi j hj; simp only [bidx_lt hi, bidx_lt hj]; rfl

/-! ## C142: the losses of the two engines agree -/

/-- C142, binary cross-entropy: predictions in one column, labels as a vector or a column. -/
theorem C142_binary (n : Nat) (p : ℕ → ℕ → ℝ) (y : ℕ → ℝ) (Y : Arr ℝ) (hY : IsLabels n y Y) :
    Agree (bcePy (.mat n 1 p) Y) (bceCC (.mat n 1 p) Y) := by
  cases hY with
  | vec => exact ⟨_, by simp [bcePy, asColumn, squeeze]; rfl, by simp [bceCC, eig, total]⟩
  | col e h => exact ⟨_, by simp [bcePy, asColumn, squeeze]; rfl, by simp [bceCC, eig, total]⟩

/-- C142, categorical cross-entropy on arrays of one shape. -/
theorem C142_categorical (n c : Nat) (p y : ℕ → ℕ → ℝ) : Agree (ccePy (.mat n c p) (.mat n c y)) (cceCC (.mat n c p) (.mat n c y)) := by
  obtain ⟨e, h1, h2⟩ := broadcast_same (fun a b => Fl.smul a (Fl.log b)) n c y p
  refine ⟨_, by simp only [ccePy, asColumn, asRow, h1]; rfl, ?_⟩
  simp only [cceCC, eig, and_self, if_true, total]
  congr 3
  exact sum_congr rfl fun i hi => sum_congr rfl fun j hj => (h2 i (mem_range.1 hi) j (mem_range.1 hj)).symm

/-- C142, the loss that networks use: it chooses by the number of columns in both engines. -/
theorem C142_crossentropy (n c : Nat) (p y : ℕ → ℕ → ℝ) : Agree (cePy (.mat n c p) (.mat n c y)) (ceCC (.mat n c p) (.mat n c y)) := by
  by_cases hc : c = 1
  · subst hc
    have := C142_binary n p (fun i => y i 0) (.mat n 1 y) (.col y fun _ => rfl)
    simpa [cePy, ceCC, eig] using this
  · have := C142_categorical n c p y
    simpa [cePy, ceCC, eig, hc] using this

/-- C142, with a label vector and one column of predictions. -/
theorem C142_crossentropy_labels (n : Nat) (p : ℕ → ℕ → ℝ) (y : ℕ → ℝ) : Agree (cePy (.mat n 1 p) (.vec n y)) (ceCC (.mat n 1 p) (.vec n y)) := by
  simpa [cePy, ceCC, eig] using C142_binary n p y _ .vec

/-- C142, the log-likelihood: `y` and `beta` as vectors or columns; both engines refuse a call without the features. -/
theorem C142_log_likelihood (n d : Nat) (y b : ℕ → ℝ) (Y B : Arr ℝ) (hY : IsLabels n y Y) (hB : IsLabels d b B) (x : ℕ → ℕ → ℝ) :
    llPy Y B [⟨n, d, x⟩] = .ok (.fin (∑ i ∈ range n, (-y i * (∑ l ∈ range d, x i l * b l) + Real.log (1 + Real.exp (∑ l ∈ range d, x i l * b l)))))
    ∧ llCC Y B [⟨n, d, x⟩] = .ok (some (.fin (∑ i ∈ range n, (-y i * (∑ l ∈ range d, x i l * b l) + Real.log (1 + Real.exp (∑ l ∈ range d, x i l * b l))))))
    ∧ llPy Y B [] = .error .indexError ∧ llCC Y B [] = .error .indexError := by
  have hYc : (column Y).rows = n ∧ (column Y).cols = 1 ∧ ∀ i < n, (column Y).e i 0 = y i := by
    cases hY with
    | vec => exact ⟨rfl, rfl, fun _ _ => rfl⟩
    | col e h => exact ⟨by simp [column], rfl, fun i _ => by simp [column, Nat.div_one, Nat.mod_one, h]⟩
  have hBc : (column B).rows = d ∧ ∀ i, (column B).e i 0 = b i := by
    cases hB with
    | vec => exact ⟨rfl, fun _ => rfl⟩
    | col e h => exact ⟨by simp [column], fun i => by simp [column, Nat.div_one, Nat.mod_one, h]⟩
  have hYe : (eig Y).rows = n ∧ (eig Y).cols = 1 ∧ ∀ i, (eig Y).e i 0 = y i := by
    cases hY with
    | vec => exact ⟨rfl, rfl, fun _ => rfl⟩
    | col e h => exact ⟨rfl, rfl, h⟩
  have hBe : (eig B).rows = d ∧ (eig B).cols = 1 ∧ ∀ i, (eig B).e i 0 = b i := by
    cases hB with
    | vec => exact ⟨rfl, rfl, fun _ => rfl⟩
    | col e h => exact ⟨rfl, rfl, h⟩
  refine ⟨?_, ?_, rfl, rfl⟩
  · obtain ⟨e, h1, h2⟩ := broadcast_same llTerm n 1 (column Y).e (fun i _ => ∑ l ∈ range d, x i l * (column B).e l 0)
    have h3 : column Y = ⟨n, 1, (column Y).e⟩ := by
      rw [show n = (column Y).rows from hYc.1.symm, show (1 : Nat) = (column Y).cols from hYc.2.1.symm]
    rw [← h3] at h1
    simp only [llPy, hBc.1, if_true, h1]
    congr 2
    refine sum_congr rfl fun i hi => ?_
    rw [sum_range_one, h2 i (mem_range.1 hi) 0 (by omega), hYc.2.2 i (mem_range.1 hi)]
    simp only [hBc.2, llTerm]
  · simp only [llCC, hYe.1, hYe.2.1, hBe.1, hBe.2.1, and_self, if_true, sum_range_one, hYe.2.2, hBe.2.2, llTerm]

/-- C142, mean squared error on arrays of one shape. -/
theorem C142_mse (n c : Nat) (p y : ℕ → ℕ → ℝ) (a b : ℕ → ℝ) :
    (∃ v, msePy (.mat n c p) (.mat n c y) = .ok v ∧ mseCC (.mat n c p) (.mat n c y) = some v)
    ∧ ∃ v, msePy (.vec n a) (.vec n b) = .ok v ∧ mseCC (.vec n a) (.vec n b) = some v := by
  constructor
  · obtain ⟨e, h1, h2⟩ := broadcast_same (fun a b : ℝ => a - b) n c p y
    refine ⟨_, by simp only [msePy, asRow, h1]; rfl, ?_⟩
    simp only [mseCC, eig, and_self, if_true, firstAxis]
    congr 5
    exact sum_congr rfl fun i hi => sum_congr rfl fun j hj => (h2 i (mem_range.1 hi) j (mem_range.1 hj)).symm
  · obtain ⟨e, h1, h2⟩ := broadcast_same (fun a b : ℝ => a - b) 1 n (fun _ j => a j) (fun _ j => b j)
    refine ⟨_, by simp only [msePy, asRow, h1]; rfl, ?_⟩
    simp only [mseCC, eig, and_self, if_true, firstAxis, sum_range_one]
    congr 5
    exact sum_congr rfl fun j hj => (h2 0 (by omega) j (mem_range.1 hj)).symm

/-- C142 violated, mean squared error of a column of predictions and a label vector: the Python engine answers `n ^ 2` times the C++ one. -/
theorem C142_mse_label_vector (n : Nat) (hn : 0 < n) (p : ℕ → ℕ → ℝ) (y : ℕ → ℝ) :
    ∃ v, mseCC (.mat n 1 p) (.vec n y) = some (.fin v) ∧ msePy (.mat n 1 p) (.vec n y) = .ok (.fin ((n : ℝ) ^ 2 * v))
      ∧ (v = 0 ↔ ∑ i ∈ range n, p i 0 = ∑ i ∈ range n, y i) := by
  have hn' : (n : ℝ) ≠ 0 := by positivity
  obtain ⟨e, h1, h2⟩ := broadcast_outer (fun a b : ℝ => a - b) n p (fun _ j => y j)
  refine ⟨(∑ i ∈ range n, p i 0 - ∑ i ∈ range n, y i) ^ 2 / 2 / n, ?_, ?_, ?_⟩
  · simp only [mseCC, eig, and_self, if_true, sum_range_one, Fl.divNat, hn.ne', if_false, sum_sub_distrib]
  · simp only [msePy, asRow, h1, firstAxis, Fl.divNat, hn.ne', if_false]
    congr 2
    have : (∑ i ∈ range n, ∑ j ∈ range n, e i j) = n * (∑ i ∈ range n, p i 0 - ∑ i ∈ range n, y i) := by
      rw [sum_congr rfl fun i hi => sum_congr rfl fun j hj => h2 i (mem_range.1 hi) j (mem_range.1 hj)]
      simp only [sum_sub_distrib, sum_const, card_range, nsmul_eq_mul, ← mul_sum]
      ring
    rw [this]; field_simp
  · rw [div_eq_zero_iff, div_eq_zero_iff, pow_eq_zero_iff (by norm_num), sub_eq_zero]
    simp [hn']

/-- C142 violated: a prediction vector is refused by the Python engine and accepted by the C++ engine. -/
theorem C142_prediction_vector (n : Nat) (p y : ℕ → ℝ) :
    cePy (.vec n p) (.vec n y) = .error .indexError ∧ ceCC (.vec n p) (.vec n y) = ceCC (.mat n 1 fun i _ => p i) (.vec n y)
      ∧ ∃ v, ceCC (.vec n p) (.vec n y) = some v := by
  refine ⟨rfl, rfl, ?_⟩
  obtain ⟨v, _, h⟩ := C142_crossentropy_labels n (fun i _ => p i) y
  exact ⟨v, h⟩

/-- C142 violated: class numbers instead of one-hot rows are weights of all the logarithms in the Python engine and undefined behaviour in C++. -/
theorem C142_class_numbers (n c : Nat) (hc : c ≠ 1) (p : ℕ → ℕ → ℝ) (y : ℕ → ℝ) (hn : 0 < n) (hp : ∀ i < n, ∀ j < c, 0 < p i j) :
    cePy (.mat n c p) (.vec n y) = .ok (.scalar (.fin (-(∑ i ∈ range n, y i * ∑ j ∈ range c, Real.log (p i j)) / n)))
      ∧ ceCC (.mat n c p) (.vec n y) = none := by
  constructor
  · have h1 : bdim 1 c = some c := by
      unfold bdim; split
      · rename_i h; rw [h]
      · simp
    simp only [cePy, hc, if_false, ccePy, asColumn, asRow, broadcast, bdim_self, h1]
    have : (∑ i ∈ range n, ∑ j ∈ range c, Fl.smul (y (bidx n i)) (Fl.log (p (bidx n i) (bidx c j))))
        = Fl.fin (∑ i ∈ range n, y i * ∑ j ∈ range c, Real.log (p i j)) := by
      rw [← sum_fin]
      refine sum_congr rfl fun i hi => ?_
      rw [mul_sum, ← sum_fin]
      refine sum_congr rfl fun j hj => ?_
      rw [bidx_lt (mem_range.1 hi), bidx_lt (mem_range.1 hj), log_pos (hp i (mem_range.1 hi) j (mem_range.1 hj))]; rfl
    simp only [total, this, Fl.neg, Fl.divNat, hn.ne', if_false]
  · simp [ceCC, eig, hc, cceCC]

/-- C142 violated: `BinaryCrossentropy` of several columns is a matrix in the Python engine and a number in the C++ engine. -/
theorem C142_binary_wide (n c : Nat) (hc : 2 ≤ c) (p y : ℕ → ℕ → ℝ) :
    (∃ e, bcePy (.mat n c p) (.mat n c y) = .ok (.array (.mat c c e))) ∧ ∃ v, bceCC (.mat n c p) (.mat n c y) = some v := by
  constructor
  · exact ⟨_, by simp only [bcePy, asColumn, if_true, squeeze, show c ≠ 1 by omega, false_and, if_false]; rfl⟩
  · exact ⟨_, by simp only [bceCC, eig, and_self, if_true]; rfl⟩

example : ∃ v, mseCC (.mat 2 1 fun _ _ => 1) (.vec 2 fun _ => 0) = some (.fin v) ∧ msePy (.mat 2 1 fun _ _ => 1) (.vec 2 fun _ => 0) = .ok (.fin (4 * v)) ∧ v ≠ 0 := by
  obtain ⟨v, h1, h2, h3⟩ := C142_mse_label_vector 2 (by norm_num) (fun _ _ => 1) fun _ => 0
  refine ⟨v, h1, by rw [h2]; norm_num, fun hv => ?_⟩
  have := h3.1 hv
  norm_num at this

/-! ## C143: the cross-entropy of perfect predictions -/

/-- The number returned by the binary cross-entropy. -/
noncomputable def bceValue (n : Nat) (p y : ℕ → ℝ) : Fl :=
  Fl.divNat (Fl.neg ((∑ l ∈ range n, Fl.smul (y l) (Fl.log (p l))) + ∑ l ∈ range n, Fl.smul (1 - y l) (Fl.log (1 - p l)))) n

theorem bce_value (n : Nat) (p : ℕ → ℕ → ℝ) (y : ℕ → ℝ) (Y : Arr ℝ) (hY : IsLabels n y Y) :
    bcePy (.mat n 1 p) Y = .ok (.scalar (bceValue n (fun i => p i 0) y)) ∧ bceCC (.mat n 1 p) Y = some (bceValue n (fun i => p i 0) y) := by
  cases hY with
  | vec => exact ⟨by simp [bcePy, asColumn, squeeze, bceValue], by simp [bceCC, eig, total, bceValue]⟩
  | col e h => exact ⟨by simp [bcePy, asColumn, squeeze, bceValue, h], by simp [bceCC, eig, total, bceValue, h]⟩

theorem nan_of_left (n : Nat) (p y : ℕ → ℝ) (h : (∑ l ∈ range n, Fl.smul (y l) (Fl.log (p l))) = .nan) : bceValue n p y = .nan := by
  simp only [bceValue, h, nan_add, Fl.neg, Fl.divNat]

theorem nan_of_right (n : Nat) (p y : ℕ → ℝ) (h : (∑ l ∈ range n, Fl.smul (1 - y l) (Fl.log (1 - p l))) = .nan) : bceValue n p y = .nan := by
  simp only [bceValue, h, add_comm _ Fl.nan, nan_add, Fl.neg, Fl.divNat]

/-- C143 violated, binary: one sample predicted with certainty and correctly is enough for the loss to be NaN, whatever the other predictions. -/
theorem C143_binary_nan (n : Nat) (p : ℕ → ℕ → ℝ) (y : ℕ → ℝ) (Y : Arr ℝ) (hY : IsLabels n y Y) (i : Nat) (hi : i < n)
    (h : (y i = 0 ∨ y i = 1) ∧ p i 0 = y i) : bcePy (.mat n 1 p) Y = .ok (.scalar .nan) ∧ bceCC (.mat n 1 p) Y = some .nan := by
  have : bceValue n (fun i => p i 0) y = .nan := by
    obtain ⟨h0 | h1, hp⟩ := h
    · exact nan_of_left _ _ _ (sum_nan _ _ i (mem_range.2 hi) (by rw [hp, h0, log_zero]; simp [Fl.smul]))
    · exact nan_of_right _ _ _ (sum_nan _ _ i (mem_range.2 hi) (by rw [hp, h1, sub_self, log_zero]; simp [Fl.smul]))
  rw [← this]; exact bce_value n p y Y hY

/-- C143 violated, several classes: an entry that is 0 in the label row and in the prediction makes the loss NaN. -/
theorem C143_categorical_nan (n c : Nat) (p y : ℕ → ℕ → ℝ) (i j : Nat) (hi : i < n) (hj : j < c) (hy : y i j = 0) (hp : p i j = 0) :
    ccePy (.mat n c p) (.mat n c y) = .ok (.scalar .nan) ∧ cceCC (.mat n c p) (.mat n c y) = some .nan := by
  have key : cceCC (.mat n c p) (.mat n c y) = some .nan := by
    have h1 : (∑ a ∈ range n, ∑ b ∈ range c, Fl.smul (y a b) (Fl.log (p a b))) = .nan :=
      sum_nan _ _ i (mem_range.2 hi) (sum_nan _ _ j (mem_range.2 hj) (by rw [hy, hp, log_zero]; simp [Fl.smul]))
    simp only [cceCC, eig, and_self, if_true, total, h1, Fl.neg, Fl.divNat]
  obtain ⟨v, h1, h2⟩ := C142_categorical n c p y
  rw [key] at h2
  cases h2
  exact ⟨h1, key⟩

/-- C143 violated in general: predictions equal to one-hot labels of at least two classes have loss NaN, not 0. -/
theorem C143_perfect_nan (n c : Nat) (hn : 0 < n) (hc : 2 ≤ c) (y : ℕ → ℕ → ℝ) (hy : ∀ i < n, ∃ k < c, y i k = 1 ∧ ∀ j < c, j ≠ k → y i j = 0) :
    ccePy (.mat n c y) (.mat n c y) = .ok (.scalar .nan) ∧ cceCC (.mat n c y) (.mat n c y) = some .nan := by
  obtain ⟨k, hk, _, h0⟩ := hy 0 hn
  by_cases h : k = 0
  · exact C143_categorical_nan n c y y 0 1 hn (by omega) (h0 1 (by omega) (by omega)) (h0 1 (by omega) (by omega))
  · exact C143_categorical_nan n c y y 0 0 hn (by omega) (h0 0 (by omega) (by omega)) (h0 0 (by omega) (by omega))

example : ccePy (.mat 3 2 fun i j => if i % 2 = j then 1 else 0) (.mat 3 2 fun i j => if i % 2 = j then 1 else 0) = .ok (.scalar .nan) :=
  (C143_perfect_nan 3 2 (by norm_num) le_rfl _ fun i _ => ⟨i % 2, Nat.mod_lt _ (by norm_num), by simp, fun j _ hj => by simp [Ne.symm hj]⟩).1

/-- C143 violated through underflow: if the exponential function used by softmax returns 0 for some entry whose label is 0, which happens as soon
as the network separates the classes well enough, the loss of the epoch is NaN although the prediction is right. -/
theorem C143_underflow_nan (e : ℝ → ℝ) (n c : Nat) (z y : ℕ → ℕ → ℝ) (M : ℝ) (i j : Nat) (hi : i < n) (hj : j < c) (hy : y i j = 0) (he : e (z i j - M) = 0) :
    cceCC (.mat n c fun a b => e (z a b - M) / ∑ l ∈ range c, e (z a l - M)) (.mat n c y) = some .nan
    ∧ ccePy (.mat n c fun a b => e (z a b - M) / ∑ l ∈ range c, e (z a l - M)) (.mat n c y) = .ok (.scalar .nan) :=
  (C143_categorical_nan n c _ y i j hi hj hy (by rw [he, zero_div])).symm

/-- C143, the part that holds: the binary loss of labels 0 and 1 is a finite number exactly when every prediction lies strictly between 0 and 1, and
then it is the mean of the logarithms. -/
theorem C143_binary_finite_partial (n : Nat) (hn : 0 < n) (p : ℕ → ℕ → ℝ) (y : ℕ → ℝ) (Y : Arr ℝ) (hY : IsLabels n y Y) (h01 : ∀ i < n, y i = 0 ∨ y i = 1) :
    ((∃ x, bcePy (.mat n 1 p) Y = .ok (.scalar (.fin x))) ↔ ∀ i < n, 0 < p i 0 ∧ p i 0 < 1)
    ∧ ((∀ i < n, 0 < p i 0 ∧ p i 0 < 1) →
        bcePy (.mat n 1 p) Y = .ok (.scalar (.fin (-(∑ i ∈ range n, if y i = 1 then Real.log (p i 0) else Real.log (1 - p i 0)) / n)))) := by
  rw [(bce_value n p y Y hY).1]
  have hok : (∀ i < n, 0 < p i 0 ∧ p i 0 < 1) →
      bceValue n (fun i => p i 0) y = .fin (-(∑ i ∈ range n, if y i = 1 then Real.log (p i 0) else Real.log (1 - p i 0)) / n) := by
    intro h
    have h1 : (∑ l ∈ range n, Fl.smul (y l) (Fl.log (p l 0))) = .fin (∑ l ∈ range n, y l * Real.log (p l 0)) := by
      rw [← sum_fin]; exact sum_congr rfl fun l hl => by rw [log_pos (h l (mem_range.1 hl)).1]; rfl
    have h2 : (∑ l ∈ range n, Fl.smul (1 - y l) (Fl.log (1 - p l 0))) = .fin (∑ l ∈ range n, (1 - y l) * Real.log (1 - p l 0)) := by
      rw [← sum_fin]; exact sum_congr rfl fun l hl => by rw [log_pos (by linarith [(h l (mem_range.1 hl)).2])]; rfl
    simp only [bceValue, h1, h2, Fl.add_def, Fl.add, Fl.neg, Fl.divNat, hn.ne', if_false]
    congr 3
    rw [← sum_add_distrib]
    refine sum_congr rfl fun i hi => ?_
    rcases h01 i (mem_range.1 hi) with h0 | h1
    · simp [h0]
    · simp [h1]
  refine ⟨⟨?_, fun h => ⟨_, by rw [hok h]⟩⟩, fun h => by rw [hok h]⟩
  rintro ⟨x, hx⟩ i hi
  simp only [Except.ok.injEq, Out.scalar.injEq] at hx
  by_contra hcon
  -- every term is finite
  have hfin : ∀ (s : Finset ℕ) (f : ℕ → Fl), Fl.IsFinite (∑ l ∈ s, f l) → ∀ l ∈ s, Fl.IsFinite (f l) := by
    intro s f hs l hl
    rw [← Finset.add_sum_erase _ _ hl] at hs
    obtain ⟨v, hv⟩ := hs
    generalize f l = a at hv ⊢
    generalize (∑ x ∈ s.erase l, f x) = b at hv
    cases a <;> cases b <;> simp [Fl.add_def, Fl.add] at hv ⊢
    exact ⟨_, rfl⟩
  have hboth : Fl.IsFinite (∑ l ∈ range n, Fl.smul (y l) (Fl.log (p l 0))) ∧ Fl.IsFinite (∑ l ∈ range n, Fl.smul (1 - y l) (Fl.log (1 - p l 0))) := by
    unfold bceValue at hx
    generalize (∑ l ∈ range n, Fl.smul (y l) (Fl.log (p l 0))) = a at hx ⊢
    generalize (∑ l ∈ range n, Fl.smul (1 - y l) (Fl.log (1 - p l 0))) = b at hx ⊢
    cases a <;> cases b <;> simp [Fl.add_def, Fl.add, Fl.neg, Fl.divNat] at hx ⊢
    exact ⟨⟨_, rfl⟩, ⟨_, rfl⟩⟩
  have f1 := hfin _ _ hboth.1 i (mem_range.2 hi)
  have f2 := hfin _ _ hboth.2 i (mem_range.2 hi)
  have g1 : 0 < p i 0 := by
    by_contra hneg
    obtain ⟨v, hv⟩ := f1
    rcases lt_or_eq_of_le (not_lt.1 hneg) with h | h
    · rw [log_neg h] at hv; simp [Fl.smul] at hv
    · rw [h, log_zero] at hv; simp only [Fl.smul] at hv
      split at hv
      · simp at hv
      · split at hv <;> simp at hv
  have g2 : 0 < 1 - p i 0 := by
    by_contra hneg
    obtain ⟨v, hv⟩ := f2
    rcases lt_or_eq_of_le (not_lt.1 hneg) with h | h
    · rw [log_neg h] at hv; simp [Fl.smul] at hv
    · rw [h, log_zero] at hv; simp only [Fl.smul] at hv
      split at hv
      · simp at hv
      · split at hv <;> simp at hv
  exact hcon ⟨g1, by linarith⟩

example : bcePy (.mat 2 1 fun i _ => if i = 0 then 1 else 1 / 2) (.vec 2 fun _ => 1) = .ok (.scalar .nan) :=
  (C143_binary_nan 2 _ (fun _ => 1) _ .vec 0 (by norm_num) ⟨Or.inr rfl, by norm_num⟩).1

/-- C143: a certain but wrong prediction has infinite loss, if nothing else is NaN. -/
theorem C143_wrong_infinite (p : ℕ → ℕ → ℝ) (y : ℕ → ℝ) (h : (y 0 = 0 ∧ p 0 0 = 1) ∨ (y 0 = 1 ∧ p 0 0 = 0)) :
    bcePy (.mat 1 1 p) (.vec 1 y) = .ok (.scalar .pinf) := by
  rw [(bce_value 1 p y _ .vec).1]
  rcases h with ⟨hy, hp⟩ | ⟨hy, hp⟩ <;> simp [bceValue, hy, hp, Fl.log, Fl.smul, Fl.add_def, Fl.add, Fl.neg, Fl.divNat]

end CML.Eng
