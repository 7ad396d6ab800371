import Verif.Model.Score
import Verif.Spec.Calls
import Verif.Props.Metrics
import Verif.Props.Calls
import Mathlib.Algebra.Order.Ring.Rat
import Mathlib.Algebra.Field.Rat
import Mathlib.Tactic.FieldSimp

set_option linter.unusedSectionVars false

/-! # Property C163 (score) -/

namespace CML.Score
open CML.Metrics CML.Calls

variable {K : Type} [Field K] [LinearOrder K] [IsStrictOrderedRing K]

/-- Labels of an array as a column of shape (n, 1). -/
def column (y : List Int) : Labels K := .array2 1 (y.map fun c : Int => [(c : K)])

/-- C163 for labels in an array, 1-D or one column, and a classifier that returns a vector of two classes (0/1 or -1/+1): the score
is the fraction of rows predicted correctly. -/
theorem C163_array_labels_partial (neg : Int) (hneg : neg = 0 ∨ neg = -1) (pred y : List Int) (hlen : pred.length = y.length)
    (hne : pred ≠ []) (hp : ∀ c ∈ pred, c = neg ∨ c = 1) (hy : ∀ c ∈ y, c = neg ∨ c = 1) :
    ∃ v : K, scoreCall (.one (pred.map fun c : Int => (c : K))) (.array1 y) = .ok v ∧
      scoreCall (.one (pred.map fun c : Int => (c : K))) (column y) = .ok v ∧
      IsFraction v (fun q => decide (q.1 = q.2)) (pred.zip y) := by
  obtain ⟨v, h1, h2⟩ := C73_score_partial (K := K) neg hneg pred y hlen hne hp hy
  refine ⟨v, h1, ?_, h2⟩
  have e : scoreCall (.one (pred.map fun c : Int => (c : K))) (column y) = Metrics.score (K := K) pred y := by
    unfold scoreCall column binaryCall binaryColumns Metrics.score binaryAccuracy
    dsimp only
    split
    · rfl
    · rw [if_pos rfl]
      congr 4
      rw [List.zip_map_right, List.countP_map]
      congr 1
      funext q
      unfold wrongNum wrong Function.comp
      rw [Bool.eq_iff_iff]
      simp only [Prod.map, id, List.headD_cons, decide_eq_true_eq, Int.cast_eq_one, Int.cast_eq_zero]
      rw [show ((q.2 : K) = -1 ↔ q.2 = -1) from by rw [← Int.cast_one (R := K), ← Int.cast_neg, Int.cast_inj]]
  rw [e, h1]

/-- C163 is false for lists and `Series` of labels: every model that returns a vector raises, whatever the labels. -/
theorem C163_list_labels (pred : List K) (y : List Int) (rows : List (List K)) :
    scoreCall (.one pred) (.list y) = .error .attributeError ∧ scoreCall (.one pred) (.series y) = .error .attributeError ∧
    scoreCall (.one pred) (.lists rows) = .error .attributeError := ⟨rfl, rfl, rfl⟩

/-- C163 is false for a table of labels: the score of a model that returns a vector is always 1, whatever it predicts and whatever the labels. -/
theorem C163_table_labels (pred : List K) (hne : pred ≠ []) (cols : List String) (rows : List (List K)) :
    scoreCall (.one pred) (.frame cols rows) = .ok 1 := by
  have h : pred.length ≠ 0 := by simpa using hne
  have h' : (pred.length : K) ≠ 0 := by exact_mod_cast h
  simp only [scoreCall, binaryCall, if_neg h, div_self h']

/-- C163 is false for a single row: `score` of linear discriminant analysis and logistic regression raises `IndexError` on every set of one
row, for every container of rows and of labels. -/
theorem C163_one_row (parse : String → Option K) (g : List K → Except PyErr K) (sig : K → K) (beta r : List K) (a : K)
    (hga : g r = .ok a) (hb : beta.length = r.length + 1) (x : Input K) (hx : HoldsRows x (cells [r])) (y : Labels K) :
    (ldaPredict parse g x).bind (fun o => scoreCall (ofOut o) y) = .error .indexError ∧
    (lrPredict parse sig beta x).bind (fun o => scoreCall (ofOut o) y) = .error .indexError := by
  obtain ⟨h1, b, h2⟩ := C160_one_row parse g sig beta r a hga hb x hx
  rw [h1, h2]
  exact ⟨rfl, rfl⟩

/-- C163 for models with several outputs and one-hot labels in an array or a list: the fraction of rows whose first maxima agree. -/
theorem C163_one_hot_partial (w : Nat) (hw : w ≠ 1) (pred t : List (List K)) (k : Nat) (hlen : pred.length = t.length) (hne : pred ≠ [])
    (hp : ∀ r ∈ pred, r ≠ []) (ht : ∀ r ∈ t, r ≠ []) :
    ∃ (p q : List Nat) (v : K), p.length = pred.length ∧ q.length = t.length ∧
      (∀ (i : Nat) row j, pred[i]? = some row → p[i]? = some j → IsFirstMax row j) ∧
      (∀ (i : Nat) row j, t[i]? = some row → q[i]? = some j → IsFirstMax row j) ∧
      scoreCall (.two w pred) (.array2 k t) = .ok v ∧ scoreCall (.two w pred) (.lists t) = .ok v ∧
      IsFraction v (fun c : Nat × Nat => decide (c.1 = c.2)) (p.zip q) := by
  obtain ⟨p, q, v, h1, h2, h3, h4, h5, h6, _⟩ := C57_fraction pred t hlen hne hp ht
  refine ⟨p, q, v, h1, h2, h3, h4, ?_, ?_, h6⟩ <;> simp only [scoreCall, if_neg hw, categoricalCall, h5]

/-- C163 is false for integer labels of a model with several outputs: the score is the fraction of rows PREDICTED as class 0, whatever the labels are. -/
theorem C163_integer_labels (w : Nat) (hw : w ≠ 1) (pred : List (List K)) (y : List Int) (hlen : pred.length = y.length) (hne : pred ≠ [])
    (hp : ∀ r ∈ pred, r ≠ []) :
    ∃ (p : List Nat) (v : K), p.length = pred.length ∧
      (∀ (i : Nat) row j, pred[i]? = some row → p[i]? = some j → IsFirstMax row j) ∧
      scoreCall (.two w pred) (.array1 y) = .ok v ∧ scoreCall (.two w pred) (.list y) = .ok v ∧ scoreCall (.two w pred) (.series y) = .ok v ∧
      IsFraction v (fun c => decide (c = 0)) p := by
  obtain ⟨p, q, v, h1, h2, h3, h4, h5, h6, _⟩ := C57_fraction pred (List.replicate y.length [(0 : K)]) (by simpa using hlen) hne hp
    (by intro r hr; rw [List.eq_of_mem_replicate hr]; simp)
  have hq : q = List.replicate y.length 0 := by
    rw [List.length_replicate] at h2
    apply List.ext_getElem
    · simpa using h2
    · intro i hi hi'
      have hi2 : i < y.length := by simpa using hi'
      have := h4 i [0] q[i] (by rw [List.getElem?_replicate, if_pos hi2]) (List.getElem?_eq_getElem hi)
      obtain ⟨u, hu, _⟩ := this
      have hlt := (List.getElem?_eq_some_iff.1 hu).1
      rw [List.getElem_replicate]
      simpa using hlt
  refine ⟨p, v, h1, h3, ?_, ?_, ?_, ?_⟩
  · simp only [scoreCall, if_neg hw, categoricalCall, catNumbers, h5]
  · simp only [scoreCall, if_neg hw, categoricalCall, catNumbers, h5]
  · simp only [scoreCall, if_neg hw, categoricalCall, catNumbers, h5]
  · unfold IsFraction at h6 ⊢
    have hpl : p.length = y.length := h1.trans hlen
    have ez : ∀ (l : List Nat) (n : Nat), l.length = n → l.zip (List.replicate n 0) = l.map fun a => (a, 0) := by
      intro l
      induction l with
      | nil => intro n _; rfl
      | cons a l ih => intro n hn; subst hn; simp [List.replicate_succ, ih l.length rfl]
    rw [h6, hq, ez p _ hpl, List.filter_map, List.length_map, List.length_map]
    rfl

/-- C163 is false for a table of one-hot labels: every call raises. -/
theorem C163_one_hot_table (w : Nat) (hw : w ≠ 1) (pred t : List (List K)) (ht : t ≠ []) (cols : List String) :
    scoreCall (.two w pred) (.frame cols t) = .error .keyError := by
  have : t.length ≠ 0 := by simpa using ht
  simp only [scoreCall, if_neg hw, categoricalCall, if_neg this]

/-- A model that is wrong on every row: its score is 0 with an array of labels, an error with a list, 1 with a table. -/
example : scoreCall (K := ℚ) (.one [1, 1]) (.array1 [0, 0]) = .ok 0 ∧ scoreCall (K := ℚ) (.one [1, 1]) (.list [0, 0]) = .error .attributeError ∧
    scoreCall (K := ℚ) (.one [1, 1]) (.frame ["y"] [[0], [0]]) = .ok 1 ∧ scoreCall (K := ℚ) (.zero 1) (.array1 [1]) = .error .indexError ∧
    scoreCall (K := ℚ) (.two 3 [[0, 0, 1], [1, 0, 0]]) (.array1 [2, 1]) = .ok (1/2) := by decide +kernel

end CML.Score
