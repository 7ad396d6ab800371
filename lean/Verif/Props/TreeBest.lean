import Verif.Props.Tree
import Mathlib.Algebra.BigOperators.Group.Finset.Basic
import Mathlib.Algebra.Order.BigOperators.Group.Finset
import Mathlib.Data.Fintype.Pi

set_option linter.unusedSectionVars false

/-!
# Property C301: no classifier makes fewer errors on the training set than the unpruned tree

generators.py:282-367 and decision_tree_classifier.py:126-231.
-/

namespace CML.DTree

universe u w
variable {V : Type u} [DecidableEq V] {K : Type w} [LinearOrder K] {m : Nat}

lemma count_filter_pair (p : Row V m → Bool) (L : List (Row V m × Int)) (r : Row V m) (d : Int) (hp : p r = true) :
    (L.filter fun q => p q.1).count (r, d) = L.count (r, d) := List.count_filter (by simpa using hp)

theorem generate_frequent (o : Oracle V K m) (hm : MajOK o.maj) (full : List (Row V m)) : ∀ (fuel : Nat) (cols : List (Fin m))
    (xs : List (Row V m)) (ys : List Int) (t : Tree V K m), generate o full fuel cols xs ys = .ok t →
    xs.length = ys.length → (∀ r ∈ xs, r ∈ full) → (∀ a, a ∉ cols → ∀ r ∈ xs, ∀ s ∈ xs, r a = s a) →
    ∀ q ∈ xs.zip ys, ∃ c, predict o.num q.1 t = .ok c ∧ ∀ d, (xs.zip ys).count (q.1, d) ≤ (xs.zip ys).count (q.1, c) := by
  intro fuel
  induction fuel with
  | zero => intro cols xs ys t h; simp [generate] at h
  | succ fuel ih =>
    intro cols xs ys t h hlen hfull hcols q hq
    have hqm := List.of_mem_zip (a := q.1) (b := q.2) hq
    have hsub : ∀ p : Row V m → Bool, p q.1 = true → ∀ cols' t', (∀ a, a ∉ cols' → ∀ r ∈ xs.filter p, ∀ s ∈ xs.filter p, r a = s a) →
        generate o full fuel cols' (xs.filter p) (selY p xs ys) = .ok t' →
        ∃ c, predict o.num q.1 t' = .ok c ∧ ∀ d, (xs.zip ys).count (q.1, d) ≤ (xs.zip ys).count (q.1, c) := by
      intro p hp cols' t' hc' ht'
      have := ih cols' _ _ t' ht' (length_selY p xs ys hlen) (fun r hr => hfull r (List.mem_of_mem_filter hr)) hc' q
        (by rw [zip_filter_selY p xs ys hlen, List.mem_filter]; exact ⟨hq, hp⟩)
      obtain ⟨c, h1, h2⟩ := this
      refine ⟨c, h1, fun d => ?_⟩
      have := h2 d
      rwa [zip_filter_selY p xs ys hlen, count_filter_pair p _ _ _ hp, count_filter_pair p _ _ _ hp] at this
    rcases generate_cases h with ⟨c, hc, hone, rfl⟩ | ⟨c, he, hone, hc, rfl⟩ | ⟨a, t₀, g, l, -, -, -, hg, hl, rfl⟩ |
      ⟨a, br, -, -, -, hbr, rfl⟩
    · refine ⟨c, by rw [predict], fun d => ?_⟩
      by_cases hd : d = c
      · rw [hd]
      · rw [List.count_eq_zero.2]
        · exact Nat.zero_le _
        · exact fun hmem => hd (pyUnique_length_eq_one hone d (List.of_mem_zip hmem).2 c hc)
    · refine ⟨c, by rw [predict], fun d => ?_⟩
      rcases he with rfl | rfl
      · simp at hq
      · have hall : ∀ r ∈ xs, r = q.1 := fun r hr => funext fun a => hcols a (by simp) r hr q.1 hqm.1
        have hcnt : ∀ d, (xs.zip ys).count (q.1, d) = ys.count d := by
          intro d
          conv_rhs => rw [← map_snd_zip hlen]
          rw [List.count_eq_countP, List.count_eq_countP, List.countP_map]
          refine List.countP_congr fun p hp => ?_
          have := hall p.1 (List.of_mem_zip (a := p.1) (b := p.2) hp).1
          simp [Prod.ext_iff, this]
        rw [hcnt, hcnt]
        obtain ⟨c', h1, -, h3⟩ := hm.2 ys (List.ne_nil_of_mem hqm.2)
        rw [hc] at h1
        cases h1
        exact h3 d
    · rw [predict]
      split
      · rename_i hge
        exact hsub _ (by simpa using hge) _ _
          (fun b hb r hr s hs => hcols b hb r (List.mem_of_mem_filter hr) s (List.mem_of_mem_filter hs)) hg
      · rename_i hlt
        exact hsub _ (by simpa using hlt) _ _
          (fun b hb r hr s hs => hcols b hb r (List.mem_of_mem_filter hr) s (List.mem_of_mem_filter hs)) hl
    · rw [predict]
      obtain ⟨t', ht', hp⟩ := genForest_predict o.num _ q.1 (q.1 a) _ _ hbr
        (mem_pyUnique.2 (List.mem_map.2 ⟨q.1, hfull _ hqm.1, rfl⟩))
      rw [hp]
      have hne : selY (fun r => decide (r a = q.1 a)) xs ys ≠ [] := by
        apply List.ne_nil_of_mem (a := q.2)
        simp only [selY, List.mem_map, List.mem_filter]
        exact ⟨q, ⟨hq, by simp⟩, rfl⟩
      rw [if_neg hne] at ht'
      refine hsub _ (by simp) _ _ ?_ ht'
      intro b hb r hr s hs
      simp only [List.mem_filter, decide_eq_true_eq] at hr hs
      by_cases hba : b = a
      · subst hba; rw [hr.2, hs.2]
      · exact hcols b (fun hbc => hb (by simp [hbc, hba])) r hr.1 s hs.1

/-- C301: whenever training without pruning completes, the tree answers every row of the training set, and with a label that is most frequent among the
training samples equal to that row. -/
theorem C301_most_frequent (o : Oracle V K m) (hm : MajOK o.maj) (limit : Nat) (xs : List (Row V m)) (ys : List Int) (t : Tree V K m)
    (hlen : xs.length = ys.length) (hfit : fit o limit xs ys = .ok t) (r : Row V m) (hr : r ∈ xs) :
    ∃ c, predict o.num r t = .ok c ∧ ∀ d, (xs.zip ys).count (r, d) ≤ (xs.zip ys).count (r, c) := by
  obtain ⟨i, hi, rfl⟩ := List.getElem_of_mem hr
  have hq : (xs[i], ys[i]'(hlen ▸ hi)) ∈ xs.zip ys := by
    rw [← List.getElem_zip (i := i) (h := by rw [List.length_zip]; omega)]
    exact List.getElem_mem _
  exact generate_frequent o hm xs _ _ _ _ _ hfit hlen (fun _ h => h) (fun a ha => absurd (List.mem_finRange a) ha) _ hq

lemma countP_answers (h : Row V m → Int) (L : List (Row V m × Int)) (S : Finset (Row V m)) (hS : ∀ q ∈ L, q.1 ∈ S) :
    L.countP (fun q => decide (h q.1 = q.2)) = ∑ r ∈ S, L.count (r, h r) := by
  induction L with
  | nil => simp
  | cons q L ih =>
    rw [List.countP_cons, ih fun p hp => hS p (by simp [hp])]
    have : ∀ r, (q :: L).count (r, h r) = L.count (r, h r) + if q = (r, h r) then 1 else 0 := fun r => by
      rw [List.count_cons]; simp
    rw [Finset.sum_congr rfl fun r _ => this r, Finset.sum_add_distrib]
    congr 1
    by_cases hq : h q.1 = q.2
    · rw [Finset.sum_eq_single_of_mem q.1 (hS q (by simp))]
      · simp [hq]
      · intro r _ hr
        rw [if_neg]
        rintro rfl
        exact hr rfl
    · rw [Finset.sum_eq_zero]
      · simp [hq]
      · intro r _
        rw [if_neg]
        rintro rfl
        exact hq rfl

/-- C301: no function of the rows answers more of the training samples correctly than the tree. -/
theorem C301_best (o : Oracle V K m) (hm : MajOK o.maj) (limit : Nat) (xs : List (Row V m)) (ys : List Int) (t : Tree V K m)
    (hlen : xs.length = ys.length) (hfit : fit o limit xs ys = .ok t) (h : Row V m → Int) :
    (xs.zip ys).countP (fun q => decide (h q.1 = q.2)) ≤ (xs.zip ys).countP (fun q => decide (predict o.num q.1 t = .ok q.2)) := by
  have key : ∀ r : Row V m, ∃ c, r ∈ xs → predict o.num r t = .ok c ∧ ∀ d, (xs.zip ys).count (r, d) ≤ (xs.zip ys).count (r, c) := by
    intro r
    by_cases hr : r ∈ xs
    · obtain ⟨c, hc⟩ := C301_most_frequent o hm limit xs ys t hlen hfit r hr
      exact ⟨c, fun _ => hc⟩
    · exact ⟨0, fun h => absurd h hr⟩
  choose g hg using key
  have e : (xs.zip ys).countP (fun q => decide (predict o.num q.1 t = .ok q.2)) = (xs.zip ys).countP (fun q => decide (g q.1 = q.2)) := by
    refine List.countP_congr fun q hq => ?_
    rw [(hg q.1 (List.of_mem_zip (a := q.1) (b := q.2) hq).1).1]
    simp
  have hS : ∀ q ∈ xs.zip ys, q.1 ∈ xs.toFinset := fun q hq => List.mem_toFinset.2 (List.of_mem_zip (a := q.1) (b := q.2) hq).1
  rw [e, countP_answers h _ _ hS, countP_answers g _ _ hS]
  exact Finset.sum_le_sum fun r hr => (hg r (List.mem_toFinset.1 hr)).2 _

/-- C301: in particular no single label is more often right on the training set. -/
theorem C301_beats_majority (o : Oracle V K m) (hm : MajOK o.maj) (limit : Nat) (xs : List (Row V m)) (ys : List Int) (t : Tree V K m)
    (hlen : xs.length = ys.length) (hfit : fit o limit xs ys = .ok t) (c : Int) :
    ys.count c ≤ (xs.zip ys).countP (fun q => decide (predict o.num q.1 t = .ok q.2)) := by
  refine le_trans (le_of_eq ?_) (C301_best o hm limit xs ys t hlen hfit fun _ => c)
  conv_lhs => rw [← map_snd_zip hlen]
  rw [List.count_eq_countP, List.countP_map]
  exact List.countP_congr fun p _ => by simp only [Function.comp, decide_eq_true_eq, beq_iff_eq]; exact eq_comm

/-- C301 for discrete attributes: training completes on every table (recursion limit above the number of attributes), and its tree makes as few training errors as
any function of the rows. -/
theorem C301_discrete (o : Oracle V K m) (hm : MajOK o.maj) (hs : DiscreteSplits o) (limit : Nat) (hl : m < limit) (xs : List (Row V m)) (ys : List Int)
    (hlen : xs.length = ys.length) (hys : ys ≠ []) :
    ∃ t, fit o limit xs ys = .ok t ∧ ∀ h : Row V m → Int,
      (xs.zip ys).countP (fun q => decide (h q.1 = q.2)) ≤ (xs.zip ys).countP (fun q => decide (predict o.num q.1 t = .ok q.2)) := by
  obtain ⟨t, ht⟩ := C23_discrete_succeeds o hm hs limit hl xs ys hys
  exact ⟨t, ht, C301_best o hm limit xs ys t hlen ht⟩

/-- Four discrete samples of which three are equal with different labels: training completes, three of four are right. -/
example : (fit (criterionOracle gini id (fun _ => false) majFirst id : Oracle ℚ ℚ 1) 10 [![1], ![1], ![1], ![2]] [0, 5, 5, 7]).map (fun t =>
    ([![1], ![1], ![1], ![2]].zip [0, 5, 5, 7]).countP fun q => decide (predict id q.1 t = .ok q.2)) = .ok 3 := by
  decide +kernel

end CML.DTree
