import Verif.Model.Entropy
import Verif.Spec.Criteria
import Verif.Lemmas.TreeCriteria
import Mathlib.Algebra.BigOperators.Ring.Finset
import Mathlib.Algebra.BigOperators.Field
import Mathlib.Algebra.Order.BigOperators.Group.Finset
import Mathlib.Algebra.Order.Chebyshev
import Mathlib.Algebra.BigOperators.Group.Finset.Basic
import Mathlib.Data.List.ProdSigma
import Mathlib.Tactic.LinearCombination
import Mathlib.Tactic.Linarith

set_option linter.unusedSectionVars false

/-! # Lemmas about impurity measures -/

namespace CML.DTree
open Finset

section core
variable {V C : Type*}

/-- The Gini decomposition. -/
theorem gini_gap {K : Type*} [Field K] [LinearOrder K] [IsStrictOrderedRing K] (A : Finset V) (L : Finset C)
    (N : V → C → K) (nv : V → K) (nc : C → K) (n : K) (hn : 0 < n) (hv : ∀ v ∈ A, 0 < nv v)
    (hnv : ∀ v ∈ A, nv v = ∑ c ∈ L, N v c) (hnc : ∀ c ∈ L, nc c = ∑ v ∈ A, N v c) (hnn : n = ∑ v ∈ A, nv v) :
    (1 - ∑ c ∈ L, (nc c / n) ^ 2) - ∑ v ∈ A, nv v / n * (1 - ∑ c ∈ L, (N v c / nv v) ^ 2) =
      ∑ v ∈ A, ∑ c ∈ L, nv v / n * (N v c / nv v - nc c / n) ^ 2 := by
  have e : ∀ v ∈ A, ∀ c ∈ L, nv v / n * (N v c / nv v - nc c / n) ^ 2 =
      nv v / n * (N v c / nv v) ^ 2 - 2 * (nc c / n / n) * N v c + nv v * ((nc c / n) ^ 2 / n) := by
    intro v hv' c _
    have h1 := (hv v hv').ne'
    have h2 := hn.ne'
    field_simp; ring
  rw [sum_congr rfl fun v hv => sum_congr rfl fun c hc => e v hv c hc]
  simp only [sum_add_distrib, sum_sub_distrib, mul_sub, mul_one]
  have h1 : ∑ v ∈ A, nv v / n = 1 := by rw [← sum_div, ← hnn, div_self hn.ne']
  have h2 : ∑ v ∈ A, ∑ c ∈ L, 2 * (nc c / n / n) * N v c = 2 * ∑ c ∈ L, (nc c / n) ^ 2 := by
    rw [sum_comm, mul_sum]
    refine sum_congr rfl fun c hc => ?_
    rw [← mul_sum, ← hnc c hc]; ring
  have h3 : ∑ v ∈ A, ∑ c ∈ L, nv v * ((nc c / n) ^ 2 / n) = ∑ c ∈ L, (nc c / n) ^ 2 := by
    simp only [← mul_sum, ← sum_mul, ← hnn]
    rw [← sum_div]; have := hn.ne'; field_simp
  rw [h1, h2, h3]
  have h4 : ∀ v ∈ A, nv v / n * ∑ c ∈ L, (N v c / nv v) ^ 2 = ∑ c ∈ L, nv v / n * (N v c / nv v) ^ 2 := fun v _ => mul_sum _ _ _
  rw [sum_congr rfl h4]
  ring

/-- One cell of the entropy decomposition. -/
theorem cell_le (a p q n : ℝ) (ha : 0 ≤ a) (hp : 0 ≤ p) (hq : 0 ≤ q) (hn : 0 < n) (hap : a ≤ p) (haq : a ≤ q) :
    a * (Real.log (q / n) - Real.log (a / p)) ≤ p * q / n - a ∧
      (a * (Real.log (q / n) - Real.log (a / p)) = p * q / n - a ↔ a * n = p * q) := by
  rcases ha.eq_or_lt with h0 | h0
  · subst h0
    refine ⟨by simp; positivity, ?_⟩
    simp only [zero_mul, sub_zero]
    constructor
    · intro h
      have := hn.ne'
      field_simp at h
      linarith
    · intro h; rw [← h]; simp
  · have hp0 : 0 < p := lt_of_lt_of_le h0 hap
    have hq0 : 0 < q := lt_of_lt_of_le h0 haq
    have ht : 0 < p * q / (n * a) := by positivity
    have e : Real.log (q / n) - Real.log (a / p) = Real.log (p * q / (n * a)) := by
      rw [← Real.log_div (by positivity) (by positivity)]
      congr 1; field_simp
    have e2 : a * (p * q / (n * a) - 1) = p * q / n - a := by field_simp
    rw [e, ← e2]
    refine ⟨mul_le_mul_of_nonneg_left (Real.log_le_sub_one_of_pos ht) h0.le, ?_⟩
    rw [mul_right_inj' h0.ne']
    constructor
    · intro h
      by_contra hne
      have : p * q / (n * a) ≠ 1 := by
        intro h1
        rw [div_eq_one_iff_eq (by positivity)] at h1
        exact hne (by linarith)
      exact absurd h (ne_of_lt (Real.log_lt_sub_one_of_pos ht this))
    · intro h
      have : p * q / (n * a) = 1 := by rw [← h, div_eq_one_iff_eq (by positivity)]; ring
      rw [this]; simp

/-- The entropy decomposition (natural logarithm): conditioning does not increase it, with equality iff independent. -/
theorem entropy_gap (A : Finset V) (L : Finset C)
    (N : V → C → ℝ) (nv : V → ℝ) (nc : C → ℝ) (n : ℝ) (hn : 0 < n) (hN : ∀ v ∈ A, ∀ c ∈ L, 0 ≤ N v c)
    (hv : ∀ v ∈ A, 0 < nv v)
    (hnv : ∀ v ∈ A, nv v = ∑ c ∈ L, N v c) (hnc : ∀ c ∈ L, nc c = ∑ v ∈ A, N v c) (hnn : n = ∑ v ∈ A, nv v) :
    ∑ v ∈ A, nv v / n * ∑ c ∈ L, -(N v c / nv v) * Real.log (N v c / nv v) ≤ ∑ c ∈ L, -(nc c / n) * Real.log (nc c / n) ∧
    (∑ v ∈ A, nv v / n * ∑ c ∈ L, -(N v c / nv v) * Real.log (N v c / nv v) = ∑ c ∈ L, -(nc c / n) * Real.log (nc c / n) ↔
      ∀ v ∈ A, ∀ c ∈ L, N v c * n = nv v * nc c) := by
  have hle1 : ∀ v ∈ A, ∀ c ∈ L, N v c ≤ nv v := fun v hv' c hc => by
    rw [hnv v hv']; exact single_le_sum (fun c hc => hN v hv' c hc) hc
  have hle2 : ∀ v ∈ A, ∀ c ∈ L, N v c ≤ nc c := fun v hv' c hc => by
    rw [hnc c hc]; exact single_le_sum (f := fun v => N v c) (fun v hv => hN v hv c hc) hv'
  have hnc0 : ∀ c ∈ L, 0 ≤ nc c := fun c hc => by rw [hnc c hc]; exact sum_nonneg fun v hv => hN v hv c hc
  have hcell := fun v hv' c hc => cell_le (N v c) (nv v) (nc c) n (hN v hv' c hc) (hv v hv').le (hnc0 c hc) hn
    (hle1 v hv' c hc) (hle2 v hv' c hc)
  have hz : ∑ v ∈ A, ∑ c ∈ L, (nv v * nc c / n - N v c) = 0 := by
    have h1 : ∑ c ∈ L, nc c = n := by
      rw [sum_congr rfl hnc, sum_comm, hnn]
      exact (sum_congr rfl fun v hv' => hnv v hv').symm
    have h2 : ∑ v ∈ A, ∑ c ∈ L, N v c = n := by rw [hnn]; exact (sum_congr rfl fun v hv' => hnv v hv').symm
    simp only [sum_sub_distrib]
    rw [h2]
    have : ∑ v ∈ A, ∑ c ∈ L, nv v * nc c / n = n := by
      simp only [← sum_div, ← mul_sum, ← sum_mul, ← hnn, h1]
      have := hn.ne'; field_simp
    rw [this]; ring
  have hd : n * (∑ v ∈ A, nv v / n * ∑ c ∈ L, -(N v c / nv v) * Real.log (N v c / nv v) -
      ∑ c ∈ L, -(nc c / n) * Real.log (nc c / n)) =
      ∑ v ∈ A, ∑ c ∈ L, N v c * (Real.log (nc c / n) - Real.log (N v c / nv v)) := by
    have a1 : n * ∑ v ∈ A, nv v / n * ∑ c ∈ L, -(N v c / nv v) * Real.log (N v c / nv v) =
        -∑ v ∈ A, ∑ c ∈ L, N v c * Real.log (N v c / nv v) := by
      rw [mul_sum, ← sum_neg_distrib]
      refine sum_congr rfl fun v hv' => ?_
      rw [mul_sum, mul_sum, ← sum_neg_distrib]
      refine sum_congr rfl fun c _ => ?_
      have h1 := (hv v hv').ne'
      have h2 := hn.ne'
      field_simp
    have a2 : n * ∑ c ∈ L, -(nc c / n) * Real.log (nc c / n) = -∑ v ∈ A, ∑ c ∈ L, N v c * Real.log (nc c / n) := by
      rw [sum_comm, mul_sum, ← sum_neg_distrib]
      refine sum_congr rfl fun c hc => ?_
      rw [← sum_mul, ← hnc c hc]
      have h2 := hn.ne'
      field_simp
    simp only [mul_sub, sum_sub_distrib] at *
    rw [a1, a2]; ring
  have hle : ∑ v ∈ A, ∑ c ∈ L, N v c * (Real.log (nc c / n) - Real.log (N v c / nv v)) ≤
      ∑ v ∈ A, ∑ c ∈ L, (nv v * nc c / n - N v c) :=
    sum_le_sum fun v hv' => sum_le_sum fun c hc => (hcell v hv' c hc).1
  constructor
  · rw [hz, ← hd] at hle
    have := nonpos_of_mul_nonpos_right hle hn
    linarith
  · constructor
    · intro heq
      rw [heq, sub_self, mul_zero] at hd
      have h1 := (sum_eq_sum_iff_of_le (fun v hv' => sum_le_sum fun c hc => (hcell v hv' c hc).1)).1 (hd.symm.trans hz.symm)
      intro v hv' c hc
      exact ((hcell v hv' c hc).2).1
        ((sum_eq_sum_iff_of_le (fun c hc => (hcell v hv' c hc).1)).1 (h1 v hv') c hc)
    · intro h
      have h1 : ∑ v ∈ A, ∑ c ∈ L, N v c * (Real.log (nc c / n) - Real.log (N v c / nv v)) = 0 := by
        rw [← hz]
        exact sum_congr rfl fun v hv' => sum_congr rfl fun c hc => ((hcell v hv' c hc).2).2 (h v hv' c hc)
      rw [h1] at hd
      have := (mul_eq_zero.1 hd).resolve_left hn.ne'
      linarith

end core

/-! ## From lists to finite sums -/

theorem sum_pyUnique {α : Type*} [DecidableEq α] {M : Type*} [AddCommMonoid M] (l : List α) (f : α → M) :
    ((pyUnique l).map f).sum = ∑ c ∈ l.toFinset, f c := by
  rw [← List.sum_toFinset f (nodup_pyUnique l)]
  refine sum_congr ?_ fun _ _ => rfl
  ext a; simp [mem_pyUnique]

theorem sum_pyUnique' {α : Type*} [DecidableEq α] {M : Type*} [AddCommMonoid M] (l : List α) (S : Finset α)
    (hS : ∀ a ∈ l, a ∈ S) (f : α → M) (hf : ∀ a, a ∉ l → f a = 0) : ((pyUnique l).map f).sum = ∑ c ∈ S, f c := by
  rw [sum_pyUnique]
  refine sum_subset (fun a ha => hS a (List.mem_toFinset.1 ha)) fun a _ ha => hf a ?_
  rwa [List.mem_toFinset] at ha

theorem length_eq_sum_count {α : Type*} [DecidableEq α] (l : List α) (S : Finset α) (hS : ∀ a ∈ l, a ∈ S) :
    l.length = ∑ c ∈ S, l.count c := by
  induction l with
  | nil => simp
  | cons a l ih =>
    have ha := hS a (by simp)
    rw [List.length_cons, ih fun b hb => hS b (by simp [hb])]
    simp only [List.count_cons, sum_add_distrib]
    simp [ha]

/-- The labels of one group. -/
def group {V : Type*} [DecidableEq V] (P : List (V × Int)) (v : V) : List Int := (P.filter fun p => v = p.1).map Prod.snd

theorem group_count {V : Type*} [DecidableEq V] (P : List (V × Int)) (v : V) (c : Int) :
    (group P v).count c = P.count (v, c) := by
  induction P with
  | nil => simp [group]
  | cons p P ih =>
    obtain ⟨u, b⟩ := p
    unfold group at ih ⊢
    rw [List.filter_cons]
    by_cases h : v = u
    · subst h
      simp only [decide_true, if_true, List.map_cons, List.count_cons, ih]
      congr 1
      simp
    · simp only [h, decide_false, Bool.false_eq_true, if_false, ih, List.count_cons]
      have : ¬ u = v := fun h' => h h'.symm
      simp [this]

theorem sum_group_count {V : Type*} [DecidableEq V] (P : List (V × Int)) (A : Finset V) (hA : ∀ p ∈ P, p.1 ∈ A) (c : Int) :
    (P.map Prod.snd).count c = ∑ v ∈ A, (group P v).count c := by
  simp only [group_count]
  induction P with
  | nil => simp
  | cons p P ih =>
    have hp := hA p (by simp)
    obtain ⟨u, b⟩ := p
    rw [List.map_cons, List.count_cons, ih fun q hq => hA q (by simp [hq])]
    simp only [List.count_cons, sum_add_distrib]
    congr 1
    simp only [beq_iff_eq, Prod.mk.injEq]
    by_cases hb : b = c
    · simp only [hb, and_true, if_true]
      rw [sum_ite_eq A u]; simp only at hp; simp [hp]
    · simp [hb]

theorem group_pos {V : Type*} [DecidableEq V] {P : List (V × Int)} {v : V} (h : ∃ p ∈ P, p.1 = v) : 0 < (group P v).length := by
  obtain ⟨p, hp, rfl⟩ := h
  unfold group
  rw [List.length_map, List.length_pos_iff]
  exact List.ne_nil_of_mem (List.mem_filter.2 ⟨hp, by simp⟩)

section
variable {K : Type*} [Field K] [LinearOrder K] [IsStrictOrderedRing K]

theorem gini_eq (y : List Int) (S : Finset Int) (hS : ∀ a ∈ y, a ∈ S) :
    gini (K := K) y = 1 - ∑ c ∈ S, ((y.count c : K) / (y.length : K)) ^ 2 := by
  unfold gini
  rw [sum_pyUnique' y S hS]
  intro a ha; rw [List.count_eq_zero_of_not_mem ha]; simp

theorem entropy_eq (y : List Int) (S : Finset Int) (hS : ∀ a ∈ y, a ∈ S) :
    entropy y = (∑ c ∈ S, -((y.count c : ℝ) / (y.length : ℝ)) * Real.log ((y.count c : ℝ) / (y.length : ℝ))) / Real.log 2 := by
  unfold entropy
  rw [sum_pyUnique' y S hS, sum_div]
  · refine sum_congr rfl fun c _ => ?_
    unfold Real.logb; ring
  · intro a ha; rw [List.count_eq_zero_of_not_mem ha]; simp

variable {V : Type*} [DecidableEq V]

/-- The hypotheses of the two decompositions for a list of pairs. -/
theorem table (P : List (V × Int)) (hP : P ≠ []) (F : Type*) [Field F] [LinearOrder F] [IsStrictOrderedRing F] :
    let A := (P.map Prod.fst).toFinset
    let L := (P.map Prod.snd).toFinset
    (0 : F) < ((P.map Prod.snd).length : F) ∧
    (∀ v ∈ A, (0 : F) < ((group P v).length : F)) ∧
    (∀ v ∈ A, ((group P v).length : F) = ∑ c ∈ L, ((group P v).count c : F)) ∧
    (∀ c ∈ L, ((P.map Prod.snd).count c : F) = ∑ v ∈ A, ((group P v).count c : F)) ∧
    ((P.map Prod.snd).length : F) = ∑ v ∈ A, ((group P v).length : F) := by
  intro A L
  have hsub : ∀ v, ∀ a ∈ group P v, a ∈ L := by
    intro v a ha
    unfold group at ha
    obtain ⟨p, hp, rfl⟩ := List.mem_map.1 ha
    exact List.mem_toFinset.2 (List.mem_map.2 ⟨p, List.mem_of_mem_filter hp, rfl⟩)
  have hA : ∀ p ∈ P, p.1 ∈ A := fun p hp => List.mem_toFinset.2 (List.mem_map.2 ⟨p, hp, rfl⟩)
  have h3 : ∀ v, (group P v).length = ∑ c ∈ L, (group P v).count c := fun v => length_eq_sum_count _ _ (hsub v)
  refine ⟨?_, ?_, ?_, ?_, ?_⟩
  · rw [List.length_map, Nat.cast_pos, List.length_pos_iff]; exact hP
  · intro v hv
    obtain ⟨p, hp, rfl⟩ := List.mem_map.1 (List.mem_toFinset.1 hv)
    exact_mod_cast group_pos ⟨p, hp, rfl⟩
  · intro v _; exact_mod_cast h3 v
  · intro c _; exact_mod_cast sum_group_count P A hA c
  · have h1 : (P.map Prod.snd).length = ∑ c ∈ L, (P.map Prod.snd).count c :=
      length_eq_sum_count _ _ fun a ha => List.mem_toFinset.2 ha
    have : (P.map Prod.snd).length = ∑ v ∈ A, (group P v).length := by
      rw [h1, sum_congr rfl fun c _ => sum_group_count P A hA c, sum_comm]
      exact (sum_congr rfl fun v _ => h3 v).symm
    exact_mod_cast this

theorem group_subset (P : List (V × Int)) (v : V) : ∀ a ∈ group P v, a ∈ (P.map Prod.snd).toFinset := by
  intro a ha
  unfold group at ha
  obtain ⟨p, hp, rfl⟩ := List.mem_map.1 ha
  exact List.mem_toFinset.2 (List.mem_map.2 ⟨p, List.mem_of_mem_filter hp, rfl⟩)

theorem discValue_eq (imp : List Int → K) (D : List V) (y : List Int) (h : D.length = y.length) :
    discValue imp D y = ∑ v ∈ ((D.zip y).map Prod.fst).toFinset,
      ((group (D.zip y) v).length : K) / (((D.zip y).map Prod.snd).length : K) * imp (group (D.zip y) v) := by
  have e1 : (D.zip y).map Prod.fst = D := List.map_fst_zip (by omega)
  have e2 : (D.zip y).map Prod.snd = y := List.map_snd_zip (by omega)
  rw [e1, e2]
  unfold discValue
  rw [sum_pyUnique]; rfl

theorem independent_iff (D : List V) (y : List Int) (h : D.length = y.length) :
    Independent D y ↔ ∀ v ∈ ((D.zip y).map Prod.fst).toFinset, ∀ c ∈ ((D.zip y).map Prod.snd).toFinset,
      ((group (D.zip y) v).count c) * ((D.zip y).map Prod.snd).length =
        (group (D.zip y) v).length * ((D.zip y).map Prod.snd).count c := by
  have e1 : (D.zip y).map Prod.fst = D := List.map_fst_zip (by omega)
  have e2 : (D.zip y).map Prod.snd = y := List.map_snd_zip (by omega)
  have e3 : ∀ v, (group (D.zip y) v).length = D.count v := by
    intro v
    unfold group
    rw [List.length_map, ← List.countP_eq_length_filter, ← e1, List.count, List.countP_map, e1]
    refine List.countP_congr fun p _ => ?_
    simp only [decide_eq_true_eq, Function.comp_apply, beq_iff_eq]
    exact eq_comm
  rw [e1, e2]
  simp only [group_count, e3]
  constructor
  · intro hI v _ c _; exact hI v c
  · intro hI v c
    by_cases hv : v ∈ D
    · by_cases hc : c ∈ y
      · exact hI v (List.mem_toFinset.2 hv) c (List.mem_toFinset.2 hc)
      · rw [List.count_eq_zero_of_not_mem hc, List.count_eq_zero_of_not_mem (fun hm => hc (List.of_mem_zip hm).2)]; simp
    · rw [List.count_eq_zero_of_not_mem hv, List.count_eq_zero_of_not_mem (fun hm => hv (List.of_mem_zip hm).1)]; simp

end

end CML.DTree
