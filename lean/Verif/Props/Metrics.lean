import Verif.Model.Metrics
import Verif.Spec.Metrics
import Mathlib.Algebra.Order.Ring.Rat
import Mathlib.Algebra.Field.Rat
import Mathlib.Tactic.Linarith
import Mathlib.Tactic.NormNum
import Mathlib.Tactic.FieldSimp
import Mathlib.Tactic.Ring

set_option linter.unusedSectionVars false

/-! # Properties C56, C57, C73 (metrics and score) -/

namespace CML.Metrics

variable {K : Type*} [Field K] [LinearOrder K] [IsStrictOrderedRing K]

theorem countP_not {α : Type*} (p : α → Bool) (l : List α) : l.countP (fun x => !p x) + l.countP p = l.length := by
  induction l with
  | nil => simp
  | cons a l ih => by_cases h : p a <;> simp [h] <;> omega

theorem countP_le {α : Type*} (p : α → Bool) (l : List α) : l.countP p ≤ l.length := by
  have := countP_not p l; omega

/-- C56: binary accuracy lies between 0 and 1, whatever the labels and lengths. -/
theorem C56_unit_interval (pred : List K) (y : List Int) (v : K) (h : binaryAccuracy pred y = .ok v) : 0 ≤ v ∧ v ≤ 1 := by
  unfold binaryAccuracy at h
  split at h
  · simp at h
  · rename_i hn
    simp only [Except.ok.injEq] at h
    subst h
    have hpos : (0 : K) < pred.length := by exact_mod_cast Nat.pos_of_ne_zero hn
    have hle : ((pred.zip y).countP fun q => wrong q.1 q.2) ≤ pred.length := by
      refine le_trans (countP_le _ _) ?_
      rw [List.length_zip]; exact min_le_left _ _
    have hle' : (((pred.zip y).countP fun q => wrong q.1 q.2 : Nat) : K) ≤ pred.length := by exact_mod_cast hle
    constructor
    · exact div_nonneg (by linarith) hpos.le
    · rw [div_le_one hpos]
      have : (0 : K) ≤ ((pred.zip y).countP fun q => wrong q.1 q.2 : Nat) := Nat.cast_nonneg _
      linarith

/-- C56 for labels 0/1 or -1/+1 (1 is the positive class) and as many labels as predictions: binary accuracy is the fraction of rows
whose prediction, thresholded at 1/2, agrees with the label. Missing: other labels and lengths, where it is false
(`C56_other_label_counted_correct`, `C56_short_labels`). -/
theorem C56_fraction_partial (pred : List K) (y : List Int) (hlen : pred.length = y.length) (hne : pred ≠ [])
    (hy : ∀ c ∈ y, c = 0 ∨ c = 1 ∨ c = -1) :
    ∃ v, binaryAccuracy pred y = .ok v ∧ IsFraction v (fun q => decide (1 / 2 ≤ q.1 ↔ q.2 = 1)) (pred.zip y) := by
  unfold binaryAccuracy
  rw [if_neg (by simpa using hne)]
  refine ⟨_, rfl, ?_⟩
  unfold IsFraction
  have hzl : (pred.zip y).length = pred.length := by simp [hlen]
  rw [hzl]
  congr 1
  have hnot := countP_not (fun q : K × Int => wrong q.1 q.2) (pred.zip y)
  have heq : ((pred.zip y).filter fun q => decide (1 / 2 ≤ q.1 ↔ q.2 = 1)).length =
      (pred.zip y).countP fun q => ! wrong q.1 q.2 := by
    rw [← List.countP_eq_length_filter]
    apply List.countP_congr
    intro q hq
    have hc := hy q.2 (List.of_mem_zip (a := q.1) (b := q.2) hq).2
    have hlt : q.1 < 1 / 2 ↔ ¬ (1 / 2 ≤ q.1) := not_le.symm
    simp only [wrong, decide_eq_true_eq, Bool.not_eq_true', decide_eq_false_iff_not, hlt]
    by_cases hp : (1 : K) / 2 ≤ q.1 <;> rcases hc with h | h | h <;> simp only [hp, h] <;> decide
  rw [heq]
  have : ((pred.length : Nat) : K) = ((pred.zip y).countP fun q => ! wrong q.1 q.2 : Nat) +
      ((pred.zip y).countP fun q => wrong q.1 q.2 : Nat) := by
    rw [← hzl, ← hnot]; push_cast; rfl
  rw [this]; ring

/-- Without predictions the accuracy is undefined. -/
theorem C56_empty (y : List Int) : binaryAccuracy ([] : List K) y = .error .zeroDivision := by simp [binaryAccuracy]

/-- C56: the C++ implementation returns the same value, and refuses labels of another length. -/
theorem C56_cc (pred : List K) (y : List Int) :
    (pred.length = y.length → binaryAccuracyCC pred y = binaryAccuracy pred y) ∧
    (pred.length ≠ y.length → binaryAccuracyCC pred y = .error .valueError) := by
  unfold binaryAccuracyCC
  constructor
  · intro h; rw [if_neg (by simpa using h)]
  · intro h; rw [if_pos h]

/-- C56 is false for other labels: a row with label 2 always counts as correct. -/
theorem C56_other_label_counted_correct (p : K) : binaryAccuracy [p] [2] = .ok 1 := by
  simp [binaryAccuracy, wrong]

/-- C56 is false with missing labels: predictions without label count as correct. -/
theorem C56_short_labels (p : K) : binaryAccuracy [p] [] = .ok 1 := by
  simp [binaryAccuracy]

example : binaryAccuracy ([1/4, 3/4, 1/2, 1] : List ℚ) [0, 1, 0, -1] = .ok (1/2) := by decide +kernel

/-! ## Categorical accuracy -/

theorem mapM_argmax : ∀ (a : List (List K)) (is : List Nat), argmaxRows a = some is →
    is.length = a.length ∧ ∀ (i : Nat) row j, a[i]? = some row → is[i]? = some j → IsFirstMax row j
  | [], is, h => by
    simp only [argmaxRows, List.mapM_nil] at h
    cases h
    exact ⟨rfl, by simp⟩
  | r :: a, is, h => by
    simp only [argmaxRows, List.mapM_cons] at h
    cases hr : argmax? r with
    | none => rw [hr] at h; simp at h
    | some k =>
      cases ha : List.mapM argmax? a with
      | none => rw [hr, ha] at h; simp at h
      | some js =>
        rw [hr, ha] at h
        simp at h
        subst h
        obtain ⟨h1, h2⟩ := mapM_argmax a js ha
        refine ⟨by simp [h1], ?_⟩
        intro i row j hi hj
        cases i with
        | zero => simp at hi hj; subst hi; subst hj; exact argmax?_spec hr
        | succ i => simp at hi hj; exact h2 i row j hi hj

theorem mapM_argmax_some : ∀ (a : List (List K)), (∀ r ∈ a, r ≠ []) → ∃ is, argmaxRows a = some is
  | [], _ => ⟨[], rfl⟩
  | r :: a, h => by
    obtain ⟨k, hk⟩ := argmax?_isSome (h r (by simp))
    obtain ⟨is, his⟩ := mapM_argmax_some a fun s hs => h s (by simp [hs])
    unfold argmaxRows at his
    refine ⟨k :: is, ?_⟩
    simp only [argmaxRows, List.mapM_cons, hk, his]
    rfl

/-- C57: for as many label rows as prediction rows (at least one, none empty), categorical accuracy is the fraction of rows in
which the position of the first largest prediction is the position of the first largest label entry; it lies in [0,1] and is 1 iff
all rows match. -/
theorem C57_fraction (pred y : List (List K)) (hlen : pred.length = y.length) (hne : pred ≠ [])
    (hp : ∀ r ∈ pred, r ≠ []) (hy : ∀ r ∈ y, r ≠ []) :
    ∃ (p t : List Nat) (v : K), p.length = pred.length ∧ t.length = y.length ∧
      (∀ (i : Nat) row j, pred[i]? = some row → p[i]? = some j → IsFirstMax row j) ∧
      (∀ (i : Nat) row j, y[i]? = some row → t[i]? = some j → IsFirstMax row j) ∧
      categoricalAccuracy pred y = .ok v ∧ IsFraction v (fun q : Nat × Nat => decide (q.1 = q.2)) (p.zip t) ∧
      0 ≤ v ∧ v ≤ 1 ∧ (v = 1 ↔ p = t) := by
  obtain ⟨p, hps⟩ := mapM_argmax_some pred hp
  obtain ⟨t, hts⟩ := mapM_argmax_some y hy
  obtain ⟨hpl, hpa⟩ := mapM_argmax pred p hps
  obtain ⟨htl, hta⟩ := mapM_argmax y t hts
  have hpt : p.length = t.length := by omega
  have hzl : (p.zip t).length = p.length := by simp [hpt]
  have hpos : 0 < (p.zip t).length := by
    rw [hzl, hpl]; exact List.length_pos_of_ne_nil hne
  have hposK : (0 : K) < (p.zip t).length := by exact_mod_cast hpos
  refine ⟨p, t, (((p.zip t).countP fun q => decide (q.1 = q.2) : Nat) : K) / ((p.zip t).length : K), hpl, htl, hpa, hta, ?_, ?_,
    ?_, ?_, ?_⟩
  · unfold categoricalAccuracy
    rw [hps, hts]
    simp only [hpt, if_true]
    rw [if_neg (by omega)]
  · unfold IsFraction
    rw [List.countP_eq_length_filter]
  · exact div_nonneg (Nat.cast_nonneg _) hposK.le
  · rw [div_le_one hposK]
    exact_mod_cast countP_le _ _
  · rw [div_eq_one_iff_eq hposK.ne']
    constructor
    · intro h
      have h' : (p.zip t).countP (fun q => decide (q.1 = q.2)) = (p.zip t).length := by exact_mod_cast h
      rw [List.countP_eq_length] at h'
      apply List.ext_getElem? 
      intro i
      by_cases hi : i < p.length
      · have hit : i < t.length := by omega
        have hm : (p[i], t[i]) ∈ p.zip t := by
          rw [List.mem_iff_getElem]
          exact ⟨i, by rw [hzl]; exact hi, by simp⟩
        have := h' _ hm
        simp only [decide_eq_true_eq] at this
        rw [List.getElem?_eq_getElem hi, List.getElem?_eq_getElem hit, this]
      · rw [List.getElem?_eq_none (by omega), List.getElem?_eq_none (by omega)]
    · rintro rfl
      have : (p.zip p).countP (fun q => decide (q.1 = q.2)) = (p.zip p).length := by
        rw [List.countP_eq_length]
        intro q hq
        obtain ⟨i, hi, rfl⟩ := List.mem_iff_getElem.1 hq
        simp
      rw [this]

example : categoricalAccuracy ([[1/2, 1/2], [0, 1]] : List (List ℚ)) [[1, 0], [1, 0]] = .ok (1/2) := by decide +kernel

/-- C57, different numbers of rows, neither of them 1 (and no empty row): `ValueError`. -/
theorem C57_mismatch (pred y : List (List K)) (hlen : pred.length ≠ y.length) (h1 : pred.length ≠ 1) (h2 : y.length ≠ 1) :
    categoricalAccuracy pred y = .error .valueError := by
  unfold categoricalAccuracy
  cases hps : argmaxRows pred with
  | none => rfl
  | some p =>
    cases hts : argmaxRows y with
    | none => rfl
    | some t =>
      have hp := (mapM_argmax pred p hps).1
      have ht := (mapM_argmax y t hts).1
      simp only
      rw [if_neg (by omega), if_neg (by omega), if_neg (by omega)]

/-- C57, empty rows: `ValueError`. -/
theorem C57_empty_row (pred y : List (List K)) (h : [] ∈ pred ∨ [] ∈ y) : categoricalAccuracy pred y = .error .valueError := by
  have key : ∀ a : List (List K), [] ∈ a → argmaxRows a = none := by
    intro a
    induction a with
    | nil => simp
    | cons r a ih =>
      intro h
      simp only [argmaxRows, List.mapM_cons]
      rcases List.mem_cons.1 h with h | h
      · subst h; rfl
      · have := ih h
        simp only [argmaxRows] at this
        rw [this]
        cases argmax? r <;> rfl
  unfold categoricalAccuracy
  rcases h with h | h
  · rw [key _ h]
  · rw [key _ h]; cases argmaxRows pred <;> rfl

theorem count_pairs (p : List Nat) (b : Nat) :
    (p.flatMap fun a => [b].map fun c => (a, c)) = p.map fun a => (a, b) := by
  induction p with
  | nil => rfl
  | cons a p ih => rw [List.flatMap_cons, ih]; rfl

/-- C57 does not refuse a single label row for several predictions: every prediction is compared with it. -/
theorem C57_one_label_row (pred : List (List K)) (l : List K) (hl : l ≠ []) (hne : pred ≠ []) (hp : ∀ r ∈ pred, r ≠ []) :
    ∃ (p : List Nat) (b : Nat) (v : K), p.length = pred.length ∧
      (∀ (i : Nat) row j, pred[i]? = some row → p[i]? = some j → IsFirstMax row j) ∧ IsFirstMax l b ∧
      categoricalAccuracy pred [l] = .ok v ∧ IsFraction v (fun a => decide (a = b)) p := by
  obtain ⟨p, hps⟩ := mapM_argmax_some pred hp
  obtain ⟨t, hts⟩ := mapM_argmax_some [l] (by simpa using hl)
  obtain ⟨hpl, hpa⟩ := mapM_argmax pred p hps
  obtain ⟨htl, hta⟩ := mapM_argmax [l] t hts
  match t, htl with
  | [b], _ =>
    have hposl : p.length ≠ 0 := by rw [hpl]; simpa using hne
    refine ⟨p, b, ((p.countP fun a => decide (a = b) : Nat) : K) / (p.length : K), hpl, hpa, hta 0 l b rfl rfl, ?_, ?_⟩
    · unfold categoricalAccuracy
      rw [hps, hts]
      simp only
      by_cases h1 : p.length = 1
      · match p, h1 with
        | [a], _ => simp
      · rw [if_neg (by simpa using h1), if_pos (by simp)]
        simp only [count_pairs, List.length_map, hposl, if_false, List.countP_map]
        rfl
    · unfold IsFraction; rw [List.countP_eq_length_filter]

/-- C57 does not refuse a single prediction row for several labels either: it is compared with every label row. -/
theorem C57_one_prediction_row (y : List (List K)) (r : List K) (hr : r ≠ []) (hne : y ≠ []) (hy : ∀ r ∈ y, r ≠ []) :
    ∃ (t : List Nat) (a : Nat) (v : K), t.length = y.length ∧
      (∀ (i : Nat) row j, y[i]? = some row → t[i]? = some j → IsFirstMax row j) ∧ IsFirstMax r a ∧
      categoricalAccuracy [r] y = .ok v ∧ IsFraction v (fun b => decide (a = b)) t := by
  obtain ⟨t, hts⟩ := mapM_argmax_some y hy
  obtain ⟨p, hps⟩ := mapM_argmax_some [r] (by simpa using hr)
  obtain ⟨htl, hta⟩ := mapM_argmax y t hts
  obtain ⟨hpl, hpa⟩ := mapM_argmax [r] p hps
  match p, hpl with
  | [a], _ =>
    have hposl : t.length ≠ 0 := by rw [htl]; simpa using hne
    refine ⟨t, a, ((t.countP fun b => decide (a = b) : Nat) : K) / (t.length : K), htl, hta, hpa 0 r a rfl rfl, ?_, ?_⟩
    · unfold categoricalAccuracy
      rw [hps, hts]
      simp only
      by_cases h1 : t.length = 1
      · match t, h1 with
        | [b], _ => simp
      · rw [if_neg (by simpa [eq_comm] using h1), if_neg h1, if_pos (by simp)]
        simp only [List.flatMap_cons, List.flatMap_nil, List.append_nil, List.length_map, hposl, if_false, List.countP_map]
        rfl
    · unfold IsFraction; rw [List.countP_eq_length_filter]

theorem catLoopCC_eq : ∀ (p t : List (List K)) (a b : List Nat), p.length = t.length → argmaxRows p = some a →
    argmaxRows t = some b → ∀ acc : K, catLoopCC (p.zip t) acc =
      some (acc - ((a.length : K) - ((a.zip b).countP fun q => decide (q.1 = q.2) : Nat)))
  | [], [], a, b, _, ha, hb, acc => by
    simp only [argmaxRows, List.mapM_nil] at ha hb
    cases ha; cases hb
    simp [catLoopCC]
  | r :: p, s :: t, a, b, hl, ha, hb, acc => by
    simp only [argmaxRows, List.mapM_cons] at ha hb
    cases hr : argmax? r with
    | none => rw [hr] at ha; simp at ha
    | some i =>
      cases hs : argmax? s with
      | none => rw [hs] at hb; simp at hb
      | some j =>
        cases hp : List.mapM argmax? p with
        | none => rw [hr, hp] at ha; simp at ha
        | some a' =>
          cases ht : List.mapM argmax? t with
          | none => rw [hs, ht] at hb; simp at hb
          | some b' =>
            rw [hr, hp] at ha; rw [hs, ht] at hb
            simp only [Option.pure_def, Option.bind_eq_bind, Option.bind_some, Option.some.injEq] at ha hb
            subst ha hb
            rw [List.zip_cons_cons, catLoopCC, hr, hs]
            simp only
            rw [catLoopCC_eq p t a' b' (by simpa using hl) hp ht]
            simp only [List.zip_cons_cons, List.countP_cons, List.length_cons]
            by_cases hij : i = j
            · subst hij; simp
            · simp [hij, Ne.symm hij]; ring

/-- C57: on matrices of the same shape without empty rows the C++ implementation returns the same value; other shapes it refuses,
also those that the Python implementation broadcasts. -/
theorem C57_cc (pred y : List (List K)) :
    (pred.map List.length = y.map List.length → (∀ r ∈ pred, r ≠ []) → categoricalAccuracyCC pred y = categoricalAccuracy pred y) ∧
    (pred.map List.length ≠ y.map List.length → categoricalAccuracyCC pred y = .error .valueError) := by
  refine ⟨fun h hp => ?_, fun h => ?_⟩
  · have hlen : pred.length = y.length := by simpa using congrArg List.length h
    have hy : ∀ r ∈ y, r ≠ [] := by
      intro r hr he
      subst he
      have : 0 ∈ y.map List.length := List.mem_map.2 ⟨[], hr, rfl⟩
      rw [← h, List.mem_map] at this
      obtain ⟨s, hs, hs0⟩ := this
      exact hp s hs (List.eq_nil_of_length_eq_zero hs0)
    obtain ⟨a, ha⟩ := mapM_argmax_some pred hp
    obtain ⟨b, hb⟩ := mapM_argmax_some y hy
    have hal := (mapM_argmax pred a ha).1
    have hbl := (mapM_argmax y b hb).1
    unfold categoricalAccuracyCC categoricalAccuracy
    rw [if_neg (by simp [hlen, h]), catLoopCC_eq pred y a b hlen ha hb, ha, hb]
    have hab : a.length = b.length := by omega
    have hz : (a.zip b).length = pred.length := by simp [hab]; omega
    simp only [hab, if_true, hz]
    split
    · rfl
    · congr 2
      rw [hal.symm.trans hab]
      ring
  · unfold categoricalAccuracyCC
    rw [if_pos (Or.inr h)]

example : categoricalAccuracy ([[1, 0], [0, 1], [2, 1]] : List (List ℚ)) [[1, 0]] = .ok (2/3) ∧
    categoricalAccuracyCC ([[1, 0], [0, 1], [2, 1]] : List (List ℚ)) [[1, 0]] = .error .valueError ∧
    categoricalAccuracyCC ([[1/2, 1/2], [0, 1]] : List (List ℚ)) [[1, 0], [1, 0]] = .ok (1/2) := by decide +kernel

/-! ## Score -/

/-- C73 for two-class classifiers that return 0/1 or -1/+1 and labels of the same kind: the score is the fraction of rows with
prediction equal to the label. Missing: more classes, where it is false (`C73_three_classes`). -/
theorem C73_score_partial (neg : Int) (hneg : neg = 0 ∨ neg = -1) (pred y : List Int) (hlen : pred.length = y.length)
    (hne : pred ≠ []) (hp : ∀ c ∈ pred, c = neg ∨ c = 1) (hy : ∀ c ∈ y, c = neg ∨ c = 1) :
    ∃ v : K, score pred y = .ok v ∧ IsFraction v (fun q => decide (q.1 = q.2)) (pred.zip y) := by
  unfold score
  obtain ⟨v, h1, h2⟩ := C56_fraction_partial (pred.map fun c : Int => (c : K)) y (by simpa using hlen) (by simpa using hne)
    (fun c hc => by rcases hy c hc with h | h <;> rcases hneg with h' | h' <;> simp [h, h'])
  refine ⟨v, h1, ?_⟩
  unfold IsFraction at h2 ⊢
  rw [h2, List.zip_map_left, List.filter_map, List.length_map, List.length_map]
  congr 2
  congr 1
  apply List.filter_congr
  intro q hq
  have hq' := List.of_mem_zip (a := q.1) (b := q.2) hq
  have e1 := hp _ hq'.1
  have e2 := hy _ hq'.2
  have t0 : ¬ ((1 : K) / 2 ≤ 0) := by norm_num
  have t1 : (1 : K) / 2 ≤ 1 := by norm_num
  have t2 : ¬ ((1 : K) / 2 ≤ -1) := by norm_num
  simp only [Function.comp, Prod.map]
  rcases hneg with h | h <;> subst h <;> rcases e1 with e1 | e1 <;> rcases e2 with e2 | e2 <;>
    simp only [e1, e2, id, Int.cast_zero, Int.cast_one, Int.cast_neg, t0, t1, t2] <;> decide

/-- C73 is false for three classes: predicting 0 for a row of class 2 scores 1. -/
theorem C73_three_classes : score (K := ℚ) [0] [2] = .ok 1 := by decide +kernel

example : score (K := ℚ) [1, -1, 1, 1] [1, 1, 1, -1] = .ok (1/2) := by decide +kernel

end CML.Metrics
