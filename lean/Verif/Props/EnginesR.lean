import Verif.Props.EnginesK
import Verif.Props.Init
import Verif.Props.CCTarget
import Verif.Props.CCLDA

set_option linter.unusedSectionVars false

/-! # The rules for arrays behind C142-C145, and the edges of C137, C140, C147, C148 -/

namespace CML.Eng
open Finset

/-- The numbers in a result, row by row. -/
def Out.entries : Out → List Fl
  | .scalar v => [v]
  | .array a => Eng.entries a

/-- C142, shape of a result: `squeeze` keeps all numbers in their order and leaves no axis of length one. -/
theorem C142_squeeze (a : Arr Fl) :
    (squeeze a).entries = entries a ∧ (∀ n e, squeeze a = .array (.vec n e) → n ≠ 1) ∧
    ∀ r c e, squeeze a = .array (.mat r c e) → r ≠ 1 ∧ c ≠ 1 := by
  cases a with
  | vec n e =>
    unfold squeeze
    by_cases hn : n = 1
    · subst hn
      simp [Out.entries, entries]
    · simp only [if_neg hn]
      refine ⟨rfl, ?_, ?_⟩
      · intro m f h; cases h; exact hn
      · intro r c f h; cases h
  | mat r c e =>
    unfold squeeze
    by_cases h1 : r = 1 ∧ c = 1
    · obtain ⟨rfl, rfl⟩ := h1
      simp [Out.entries, entries]
    · by_cases hr : r = 1
      · subst hr
        have hc : c ≠ 1 := fun hc => h1 ⟨rfl, hc⟩
        simp only [hc, and_false, if_false, if_true]
        refine ⟨by simp [Out.entries, entries], ?_, ?_⟩
        · intro m f h; cases h; exact hc
        · intro r c f h; cases h
      · by_cases hc : c = 1
        · subst hc
          simp only [hr, false_and, if_false, if_true]
          refine ⟨?_, ?_, ?_⟩
          · simp only [Out.entries, entries]
            have := flatMap_one (fun i => e i 0) (List.range r)
            simpa using this.symm
          · intro m f h; cases h; exact hr
          · intro r c f h; cases h
        · simp only [hr, hc, false_and, if_false]
          refine ⟨rfl, ?_, ?_⟩
          · intro m f h; cases h
          · intro r' c' f h; cases h; exact ⟨hr, hc⟩

/-- C142: `reshape(-1, 1)` keeps all numbers, row by row. -/
theorem C142_column {α : Type} (a : Arr α) : (column a).entries = entries a ∧ (column a).cols = 1 := by
  cases a with
  | vec n e => exact ⟨by simp only [column, EMat.entries, entries]; simpa using flatMap_one e (List.range n), rfl⟩
  | mat r c e =>
    refine ⟨?_, rfl⟩
    simp only [column, EMat.entries, entries]
    have h1 := flatMap_one (fun i => e (i / c) (i % c)) (List.range (r * c))
    have h2 : ((List.range (r * c)).flatMap fun i => (List.range 1).map fun _ => e (i / c) (i % c)) = (List.range (r * c)).map fun i => e (i / c) (i % c) := by
      simpa using h1
    rw [h2]
    rcases Nat.eq_zero_or_pos c with rfl | hc
    · simp
    · rw [Nat.mul_comm r c]
      exact range_mul_map c hc (fun i j => e j i) r

/-- C142, binary cross-entropy of a flat vector of predictions: the Python engine treats it as one column. -/
theorem C142_flat_predictions (n : Nat) (p : ℕ → ℝ) (y : ℕ → ℝ) (Y : Arr ℝ) (hY : IsLabels n y Y) :
    bcePy (.vec n p) Y = bcePy (.mat n 1 fun i _ => p i) Y := by
  cases hY with
  | vec => simp [bcePy, asColumn, squeeze]
  | col e h => simp [bcePy, asColumn, squeeze, h]

/-- C142: predictions and labels of different numbers of samples are refused by the Python engine and undefined behaviour in C++. -/
theorem C142_lengths_differ (n m c : Nat) (hnm : n ≠ m) (p : ℕ → ℕ → ℝ) (q : ℕ → ℝ) (y : ℕ → ℝ) (Y : Arr ℝ) (hY : IsLabels m y Y) :
    bcePy (.mat n c p) Y = .error .valueError ∧ bcePy (.vec n q) Y = .error .valueError ∧
    bceCC (.mat n c p) Y = none ∧ bceCC (.vec n q) Y = none := by
  cases hY with
  | vec => simp [bcePy, bceCC, asColumn, eig, hnm, Ne.symm hnm]
  | col e h => simp [bcePy, bceCC, asColumn, eig, hnm, Ne.symm hnm]

/-- C142: a data matrix whose width is not the number of parameters is refused by `LogLikelihood` (Python engine) and undefined behaviour in C++. -/
theorem C142_likelihood_width (n d w : Nat) (hw : w ≠ d) (b : ℕ → ℝ) (Y B : Arr ℝ) (hB : IsLabels d b B) (x : ℕ → ℕ → ℝ) :
    llPy Y B [⟨n, w, x⟩] = .error .valueError ∧ llCC Y B [⟨n, w, x⟩] = .ok none := by
  constructor
  · cases hB with
    | vec => simp [llPy, column, hw]
    | col e h => simp [llPy, column, hw]
  · cases hB with
    | vec => simp [llCC, eig, hw]
    | col e h => simp [llCC, eig, hw]

/-- C143: without samples every loss is 0 divided by 0, NaN. -/
theorem C143_no_samples (c : Nat) (p y : ℕ → ℕ → ℝ) (b : ℕ → ℝ) (B : Arr ℝ) (hB : IsLabels 0 b B) :
    bcePy (.mat 0 1 p) B = .ok (.scalar .nan) ∧ bceCC (.mat 0 1 p) B = some .nan ∧
    ccePy (.mat 0 c p) (.mat 0 c y) = .ok (.scalar .nan) ∧ cceCC (.mat 0 c p) (.mat 0 c y) = some .nan ∧
    msePy (.mat 0 c p) (.mat 0 c y) = .ok .nan ∧ mseCC (.mat 0 c p) (.mat 0 c y) = some .nan := by
  have z : Fl.divNat (Fl.neg (0 : Fl)) 0 = .nan := by simp [Fl.neg, Fl.divNat]
  have h1 := bce_value 0 p b B hB
  have hv : bceValue 0 (fun i => p i 0) b = .nan := by simp [bceValue, z]
  rw [hv] at h1
  have hb : ∀ {α β γ : Type} (f : α → β → γ) (a : ℕ → ℕ → α) (b : ℕ → ℕ → β), ∃ e, broadcast f ⟨0, c, a⟩ ⟨0, c, b⟩ = .ok ⟨0, c, e⟩ := by
    intro α β γ f a b
    exact ⟨_, by simp only [broadcast, bdim_self]; rfl⟩
  refine ⟨h1.1, h1.2, ?_, ?_, ?_, ?_⟩
  · obtain ⟨e, he⟩ := hb (fun a b => Fl.smul a (Fl.log b)) y p
    simp only [ccePy, asColumn, asRow, he, total, range_zero, sum_empty, z]
  · simp only [cceCC, eig, and_self, if_true, total, range_zero, sum_empty, z]
  · obtain ⟨e, he⟩ := hb (fun a b : ℝ => a - b) p y
    simp only [msePy, asRow, he, firstAxis, range_zero, sum_empty]
    simp [Fl.divNat]
  · simp only [mseCC, eig, and_self, if_true, range_zero, sum_empty]
    simp [Fl.divNat]

/-- C144, vectors: two vectors of the same length give the value of the pair, a vector against rows the values of all the rows; other lengths are
refused. The Gaussian kernel refuses two vectors. -/
theorem C144_vectors (f : ℝ → ℝ) (gamma : ℝ) (n m d : Nat) (a b : ℕ → ℝ) (e : ℕ → ℕ → ℝ) :
    matmulPy f (.vec d a) (.vec d b) = .ok (.inr (f (∑ l ∈ range d, b l * a l))) ∧
    (n ≠ m → matmulPy f (.vec m a) (.vec n b) = .error .valueError) ∧
    (∃ r, matmulPy f (.mat m d e) (.vec d b) = .ok (.inl r) ∧ entries r = (List.range m).map fun i => f (∑ l ∈ range d, b l * e i l)) ∧
    (n ≠ d → matmulPy f (.mat m d e) (.vec n b) = .error .valueError) ∧
    rbfPy gamma (.vec d a) (.vec d b) = .error .valueError := by
  refine ⟨by simp [matmulPy], fun h => by simp [matmulPy, h], ⟨_, by simp only [matmulPy, if_true]; rfl, rfl⟩, fun h => by simp [matmulPy, h], ?_⟩
  simp [rbfPy, asRow, broadcast, bdim]

/-- C145: the number subtracted by softmax is the greatest entry, so no argument of the exponential function is positive and one is 0: the
exponentials cannot overflow and their sum in the row of the greatest entry is at least 1. -/
theorem C145_softmax_shift (r c : Nat) (hr : 0 < r) (hc : 0 < c) (e : ℕ → ℕ → ℝ) :
    (∀ i < r, ∀ j < c, e i j - maxOf ⟨r, c, e⟩ ≤ 0) ∧ ∃ i < r, ∃ j < c, e i j - maxOf ⟨r, c, e⟩ = 0 := by
  have hne : (range r ×ˢ range c).Nonempty := ⟨(0, 0), by simp [hr, hc]⟩
  have hm : maxOf ⟨r, c, e⟩ = (range r ×ˢ range c).sup' hne fun p => e p.1 p.2 := by
    unfold maxOf
    rw [dif_pos hne]
  rw [hm]
  constructor
  · intro i hi j hj
    have := le_sup' (s := range r ×ˢ range c) (fun p => e p.1 p.2) (b := (i, j)) (by simp [hi, hj])
    exact sub_nonpos.2 this
  · obtain ⟨p, hp, h⟩ := exists_mem_eq_sup' hne fun p => e p.1 p.2
    rw [mem_product, mem_range, mem_range] at hp
    exact ⟨p.1, hp.1, p.2, hp.2, by rw [h, sub_self]⟩

end CML.Eng

namespace CML.Init
variable {σ ε : Type}

/-- C137: creating the parameters of a logistic regression with `d` attributes draws exactly `d + 1` numbers. -/
theorem C137_regression_draws (r : Rng σ) (k : Kind) (d : Nat) (s : σ) : (callInt r k d s).2 = stateAfter r.randn (d + 1) s := by
  unfold callInt randMat
  rw [Nat.mul_one, draws_state]

/-- C140: the C++ distribution hands out the numbers of a pair one after the other: the first, then the second, then the first of the next pair. -/
theorem C140_pairs (g : Engine ε) (e : ε) :
    nth (ccNormal g) (e, none) 0 = (g.pair e).1.1 ∧ nth (ccNormal g) (e, none) 1 = (g.pair e).1.2 ∧
    nth (ccNormal g) (e, none) 2 = (g.pair (g.pair e).2).1.1 := ⟨rfl, rfl, rfl⟩

end CML.Init

namespace CML.CC

/-- C148 is false of the C++ engine for the empty string: it is the same value as any string whose first character is a multiple of 256. -/
theorem C148_empty_string (rnd : ℚ → ℚ) (c : Nat) (s : List Nat) :
    numUnique rnd .str (.str [[], (256 * c) :: s]) = some 1 ∧ typeOfTarget rnd .str [2] (.str [[], (256 * c) :: s]) = some .unknown ∧
    pyStrings [2] [[], (256 * c) :: s] = .ok .binary := by
  have h1 : numUnique rnd .str (.str [[], (256 * c) :: s]) = some 1 := by
    simp [numUnique, strKey, Ops.numUnique]
  refine ⟨h1, ?_, ?_⟩
  · rw [typeOfTarget, if_neg (by simp)]
    simp only [discrete, h1, answer]
    simp
  · simp [pyStrings, Ops.typeOfTarget, Ops.numUnique]

variable {K : Type*} [Field K] [LinearOrder K] [IsStrictOrderedRing K] {d : Nat}

/-- C147: rows and labels of different lengths are refused with `IndexError`, as by the Python engine (C82). -/
theorem C147_lengths (svd : Matrix (Fin d) (Fin d) K → LDA.SVD K d) (x : List (Fin d → K)) (y : List Int) (h : x.length ≠ y.length) :
    fitLDA svd x y = .error .indexError := by
  rw [fitLDA, if_pos h]

end CML.CC
