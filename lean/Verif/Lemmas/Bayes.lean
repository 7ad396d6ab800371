import Verif.Spec.Bayes
import Mathlib.Tactic.Linarith
import Mathlib.Tactic.Ring
import Mathlib.Tactic.FieldSimp
import Mathlib.Tactic.Positivity
import Mathlib.Tactic.NormNum
import Mathlib.Algebra.BigOperators.Group.Finset.Basic
import Mathlib.Algebra.Order.BigOperators.Group.List
import Mathlib.Algebra.BigOperators.Group.Multiset.Basic
import Mathlib.Algebra.BigOperators.Group.Finset.Piecewise
import Mathlib.Algebra.BigOperators.Field

set_option linter.unusedSectionVars false

/-! # Lemmas on the Bayes classifiers -/

namespace CML.Bayes

variable {V : Type*} [DecidableEq V]

lemma logB_mul (p q : ℝ) : logB (p * q) = logB p + logB q := by
  unfold logB
  by_cases hp : p = 0
  · simp [hp]
  by_cases hq : q = 0
  · simp [hq]
  rw [if_neg (mul_ne_zero hp hq), if_neg hp, if_neg hq, Real.log_mul hp hq, WithBot.coe_add]

lemma logB_one : logB 1 = 0 := by simp [logB]

lemma logB_lt {p q : ℝ} (hp : 0 ≤ p) (hq : 0 ≤ q) : logB p < logB q ↔ p < q := by
  unfold logB
  by_cases hp0 : p = 0
  · by_cases hq0 : q = 0
    · simp [hp0, hq0]
    · simp [hp0, hq0, lt_of_le_of_ne hq (Ne.symm hq0)]
  have hp' := lt_of_le_of_ne hp (Ne.symm hp0)
  by_cases hq0 : q = 0
  · simp [hp0, hq0, hp]
  rw [if_neg hp0, if_neg hq0, WithBot.coe_lt_coe]
  exact Real.log_lt_log_iff hp' (lt_of_le_of_ne hq (Ne.symm hq0))

/-- The score is the logarithm of the product of the factors. -/
lemma score_prod (l : List ℝ) (p : ℝ) : score (some (logB p)) (l.map some) = some (logB (p * l.prod)) := by
  induction l generalizing p with
  | nil => simp [score]
  | cons q l ih =>
    have := ih (p * q)
    unfold score at this ⊢
    rw [List.map_cons, List.foldl_cons]
    show List.foldl addLog (some (logB p + logB q)) _ = _
    rw [← logB_mul, this, List.prod_cons, mul_assoc]

lemma label_prod {a b : ℝ} (ha : 0 ≤ a) (hb : 0 ≤ b) : label (some (logB a)) (some (logB b)) = if b < a then 0 else 1 := by
  unfold label
  simp only [logB_lt hb ha]

lemma prod_nonneg {l : List ℝ} (h : ∀ p ∈ l, 0 ≤ p) : 0 ≤ l.prod := by
  induction l with
  | nil => simp
  | cons a l ih =>
    rw [List.prod_cons]
    exact mul_nonneg (h a List.mem_cons_self) (ih fun p hp => h p (List.mem_cons_of_mem _ hp))

lemma ratio_pos {a b : Nat} (ha : 0 < a) (hb : 0 < b) : 0 < ratio a b :=
  div_pos (by exact_mod_cast ha) (by exact_mod_cast hb)

lemma ratio_nonneg (a b : Nat) : 0 ≤ ratio a b := div_nonneg (Nat.cast_nonneg _) (Nat.cast_nonneg _)

lemma ratio_le_one {a b : Nat} (h : a ≤ b) : ratio a b ≤ 1 :=
  div_le_one_of_le₀ (by exact_mod_cast h) (Nat.cast_nonneg _)

lemma select_eq {y : List Int} {c : Int} : ∀ (l : List V), (select y c l).length ≤ y.length ∧ ∀ v ∈ select y c l, v ∈ l := by
  intro l
  constructor
  · unfold select
    rw [List.length_map]
    refine le_trans (List.length_filter_le _ _) ?_
    rw [List.length_zip]; exact min_le_right _ _
  · intro v hv
    obtain ⟨q, hq, rfl⟩ := List.mem_map.1 hv
    exact (List.of_mem_zip (a := q.1) (b := q.2) (List.mem_filter.1 hq).1).1

lemma count_select (y : List Int) (c : Int) (v : V) (l : List V) : (select y c l).count v = countIn l y c v := by
  unfold select countIn
  rw [List.count_eq_length_filter, List.filter_map, List.length_map, List.filter_filter]
  congr 1
  apply List.filter_congr
  intro q _
  rw [Bool.eq_iff_iff]; simp

/-- Sum of the counts over a set of values that contains all of them. -/
lemma sum_count (s : Finset V) (l : List V) (h : ∀ v ∈ l, v ∈ s) : ∑ v ∈ s, l.count v = l.length := by
  have := Multiset.sum_count_eq_card (s := s) (m := (l : Multiset V)) (by simpa using h)
  simpa using this

lemma lookup_zip {α : Type*} : ∀ (ks : List V) (vs : List α), ks.Nodup → ks.length = vs.length →
    ∀ (i : Nat) (k : V), ks[i]? = some k → (ks.zip vs).lookup k = vs[i]?
  | [], _, _, _, i, k, h => by simp at h
  | k' :: ks, [], _, hl, _, _, _ => by simp at hl
  | k' :: ks, v :: vs, hn, hl, i, k, h => by
    rw [List.zip_cons_cons, List.lookup_cons]
    rcases i with _ | i
    · simp only [List.getElem?_cons_zero, Option.some.injEq] at h
      simp [h]
    · simp only [List.getElem?_cons_succ] at h ⊢
      have hne : k ≠ k' := by
        rintro rfl
        exact (List.nodup_cons.1 hn).1 (List.mem_of_getElem? h)
      rw [beq_false_of_ne hne]
      exact lookup_zip ks vs (List.nodup_cons.1 hn).2 (by simpa using hl) i k h

lemma lookup_map {α : Type*} (f : V → α) : ∀ (ks : List V) (k : V), k ∈ ks → (ks.map fun u => (u, f u)).lookup k = some (f k)
  | [], k, h => by simp at h
  | k' :: ks, k, h => by
    rw [List.map_cons, List.lookup_cons]
    by_cases hk : k = k'
    · simp [hk]
    · rw [beq_false_of_ne hk]
      exact lookup_map f ks k (by simpa [hk] using h)

end CML.Bayes
