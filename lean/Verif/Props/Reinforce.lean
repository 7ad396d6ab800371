import Verif.Props.BayesTwice
import Verif.Props.NBObject

set_option linter.unusedSectionVars false

/-! # Property C337: a naive Bayes classifier that is right on a sample and is trained on it too

naive_bayes_classifier.py:60-144, 191-232, ops.py:352-378, 501-547.
-/

namespace CML.Bayes

variable {V : Type} [DecidableEq V]

/-- The estimate of a conditional probability from `a` of `t` samples and `k` values. -/
private noncomputable def est (s : Bool) (a t k : Nat) : ℝ := if s then ratio (a + 1) (t + k) else ratio a t

private lemma est_nonneg (s : Bool) (a t k : Nat) : 0 ≤ est s a t k := by
  unfold est; split <;> exact ratio_nonneg _ _

private lemma ratio_more {a t : Nat} (ht : 0 < t) (h : a ≤ t) : ratio a t ≤ ratio (a + 1) (t + 1) := by
  unfold ratio
  have h1 : (0 : ℝ) < t := by exact_mod_cast ht
  have h2 : (a : ℝ) ≤ t := by exact_mod_cast h
  push_cast
  rw [div_le_div_iff₀ h1 (by linarith)]
  nlinarith

private lemma est_more (s : Bool) {a t k : Nat} (ht : 0 < t) (hk : 0 < k) (h : a ≤ t) : est s a t k ≤ est s (a + 1) (t + 1) k := by
  unfold est
  cases s
  · simpa using ratio_more ht h
  · have := ratio_more (a := a + 1) (t := t + k) (by omega) (by omega)
    simp only [if_true]
    rwa [show t + 1 + k = t + k + 1 by omega]

private lemma select_count (y : List Int) (c : Int) : ∀ (l : List V), l.length = y.length → (select y c l).length = y.count c := by
  intro l hl
  unfold select
  rw [List.length_map]
  induction l generalizing y with
  | nil => cases y with
    | nil => rfl
    | cons b y => simp at hl
  | cons a l ih =>
    cases y with
    | nil => simp at hl
    | cons b y =>
      have := ih y (by simpa using hl)
      by_cases hb : b = c
      · simp [hb, this]
      · simp [hb, this]

private lemma disc_factor (order : List V → List V) (fl : ℝ → ℝ) (s : Bool) (y : List Int) (c : Int) (hc : c ∈ y) (l : List V) (v : V) (hv : v ∈ l) (hl : l.length = y.length)
    (ho : order l = pyUnique l) (st : Stored V) (h : nbColumn order y c (.disc l) = .ok st) :
    factor fl s st (.disc v) = .ok (some (est s (countIn l y c v) (y.count c) (pyUnique l).length)) := by
  simp only [nbColumn] at h
  split at h
  · simp at h
  · simp only [Except.ok.injEq] at h
    subst h
    have hp := List.count_pos_iff.2 hc
    simp only [factor, C41_counts_partial order l y c ho v hv, select_count y c l hl, condProb, est]
    cases s
    · simp [hp.ne']
    · simp [hp.ne']

/-- A table of discrete columns and a row of values that occur in them. -/
private def Fits (order : List V → List V) (y : List Int) (l : List V) (v : V) : Prop := v ∈ l ∧ l.length = y.length ∧ order l = pyUnique l

private lemma disc_factors (order : List V → List V) (fl : ℝ → ℝ) (s : Bool) (y : List Int) (c : Int) (hc : c ∈ y) : ∀ (cols : List (List V)) (x : List V),
    List.Forall₂ (Fits order y) cols x → ∀ ss, (cols.map Col.disc).mapM (nbColumn order y c) = .ok ss →
    factors fl s ss (x.map Cell.disc) = .ok ((List.zipWith (fun l v => est s (countIn l y c v) (y.count c) (pyUnique l).length) cols x).map some)
  | [], _, h, ss, hs => by
    cases h
    simp only [List.map_nil, List.mapM_nil] at hs
    cases hs; rfl
  | l :: cols, _, h, ss, hs => by
    cases h with
    | @cons _ v _ x h1 h2 =>
      rw [List.map_cons, List.mapM_cons] at hs
      cases e1 : nbColumn order y c (.disc l) with
      | error e => rw [e1] at hs; cases hs
      | ok st =>
        rw [e1] at hs
        cases e2 : (cols.map Col.disc).mapM (nbColumn order y c) with
        | error e => rw [e2] at hs; cases hs
        | ok rest =>
          rw [e2] at hs
          cases hs
          simp only [List.map_cons, factors, disc_factor order fl s y c hc l v h1.1 h1.2.1 h1.2.2 st e1, disc_factors order fl s y c hc cols x h2 rest e2, List.zipWith_cons_cons]

/-- The product of the estimates for one class. -/
private noncomputable def likelihood (s : Bool) (y : List Int) (c : Int) (cols : List (List V)) (x : List V) : ℝ :=
  (List.zipWith (fun l v => est s (countIn l y c v) (y.count c) (pyUnique l).length) cols x).prod

private lemma zip_nonneg (s : Bool) (y : List Int) (c : Int) : ∀ (cols : List (List V)) (x : List V),
    ∀ p ∈ List.zipWith (fun l v => est s (countIn l y c v) (y.count c) (pyUnique l).length) cols x, 0 ≤ p
  | [], _, p, hp => by simp at hp
  | _ :: _, [], p, hp => by simp at hp
  | l :: cols, v :: x, p, hp => by
    rw [List.zipWith_cons_cons, List.mem_cons] at hp
    rcases hp with rfl | hp
    · exact est_nonneg _ _ _ _
    · exact zip_nonneg s y c cols x p hp

private lemma likelihood_nonneg (s : Bool) (y : List Int) (c : Int) (cols : List (List V)) (x : List V) : 0 ≤ likelihood s y c cols x :=
  prod_nonneg (zip_nonneg s y c cols x)

private lemma disc_predict (order : List V → List V) (fl : ℝ → ℝ) (s : Bool) (y : List Int) (h0 : 0 ∈ y) (h1 : 1 ∈ y) (cols : List (List V)) (x : List V)
    (hx : List.Forall₂ (Fits order y) cols x) (m : NB V) (hm : nbFit order (cols.map Col.disc) y s = .ok m) (p : ℝ × ℝ) (hp : prior y.length y s = .ok p) :
    nbPredict fl s m (x.map Cell.disc) = .ok (if p.2 * likelihood s y 1 cols x < p.1 * likelihood s y 0 cols x then 0 else 1) := by
  obtain ⟨p0, p1, hp', q0, q1, -⟩ := C37_distribution y (List.ne_nil_of_mem h0) s
  rw [hp] at hp'
  cases hp'
  unfold nbFit at hm
  rw [hp] at hm
  simp only at hm
  cases e0 : (cols.map Col.disc).mapM (nbColumn order y 0) with
  | error e => rw [e0] at hm; cases hm
  | ok a =>
    cases e1 : (cols.map Col.disc).mapM (nbColumn order y 1) with
    | error e => rw [e0, e1] at hm; cases hm
    | ok b =>
      rw [e0, e1] at hm
      cases hm
      exact C42_label_partial fl s _ _ _ _ (disc_factors order fl s y 0 h0 cols x hx a e0) (disc_factors order fl s y 1 h1 cols x hx b e1) q0 q1
        (zip_nonneg s y 0 cols x) (zip_nonneg s y 1 cols x)

private lemma countIn_snoc (l : List V) (y : List Int) (hl : l.length = y.length) (c c' : Int) (v : V) :
    countIn (l ++ [v]) (y ++ [c']) c v = countIn l y c v + if c' = c then 1 else 0 := by
  unfold countIn
  rw [List.zip_append hl, List.filter_append, List.length_append]
  congr 1
  by_cases h : c' = c <;> simp [h]

private lemma unique_snoc (l : List V) (v : V) (hv : v ∈ l) : (pyUnique (l ++ [v])).length = (pyUnique l).length := by
  rw [← card_unique, ← card_unique]
  congr 1
  ext a
  simp only [List.mem_toFinset, List.mem_append, List.mem_singleton]
  exact ⟨fun h => h.elim id fun h => h ▸ hv, Or.inl⟩

private lemma countIn_le (l : List V) (y : List Int) (c : Int) (v : V) (hl : l.length = y.length) : countIn l y c v ≤ y.count c := by
  rw [← count_select, ← select_count y c l hl]
  exact List.count_le_length

private lemma likelihood_other (order : List V → List V) (s : Bool) (y : List Int) (c c' : Int) (hc : c' ≠ c) : ∀ (cols : List (List V)) (x : List V),
    List.Forall₂ (Fits order y) cols x → likelihood s (y ++ [c']) c (List.zipWith (fun l v => l ++ [v]) cols x) x = likelihood s y c cols x
  | [], _, h => by cases h; rfl
  | l :: cols, _, h => by
    cases h with
    | @cons _ v _ x h1 h2 =>
      have ih := likelihood_other order s y c c' hc cols x h2
      unfold likelihood at ih ⊢
      simp only [List.zipWith_cons_cons, List.prod_cons, ih]
      congr 2
      · rw [countIn_snoc l y h1.2.1, if_neg hc]; rfl
      · simp [List.count_append, hc]
      · exact unique_snoc l v h1.1

private lemma likelihood_same (order : List V → List V) (s : Bool) (y : List Int) (c : Int) (hc : c ∈ y) : ∀ (cols : List (List V)) (x : List V),
    List.Forall₂ (Fits order y) cols x → likelihood s y c cols x ≤ likelihood s (y ++ [c]) c (List.zipWith (fun l v => l ++ [v]) cols x) x
  | [], _, h => by cases h; exact le_refl _
  | l :: cols, _, h => by
    cases h with
    | @cons _ v _ x h1 h2 =>
      have ih := likelihood_same order s y c hc cols x h2
      have h0 := likelihood_nonneg s y c cols x
      unfold likelihood at ih h0 ⊢
      simp only [List.zipWith_cons_cons, List.prod_cons]
      refine mul_le_mul ?_ ih h0 (est_nonneg _ _ _ _)
      rw [countIn_snoc l y h1.2.1, if_pos rfl, unique_snoc l v h1.1, List.count_append, List.count_singleton_self]
      refine est_more s (List.count_pos_iff.2 hc) ?_ (countIn_le l y c v h1.2.1)
      exact List.length_pos_of_mem (mem_pyUnique.2 h1.1)

private lemma fits_snoc (order : List V → List V) (y : List Int) (c : Int) : ∀ (cols : List (List V)) (x : List V), List.Forall₂ (Fits order y) cols x →
    (∀ l ∈ List.zipWith (fun l v => l ++ [v]) cols x, order l = pyUnique l) → List.Forall₂ (Fits order (y ++ [c])) (List.zipWith (fun l v => l ++ [v]) cols x) x
  | [], _, h, _ => by cases h; exact .nil
  | l :: cols, _, h, ho => by
    cases h with
    | @cons _ v _ x h1 h2 =>
      rw [List.zipWith_cons_cons] at ho ⊢
      exact .cons ⟨by simp, by simp [h1.2.1], ho _ List.mem_cons_self⟩ (fits_snoc order y c cols x h2 fun l hl => ho l (List.mem_cons_of_mem _ hl))

private lemma prior_value (s : Bool) (y : List Int) (h01 : ∀ c ∈ y, c = 0 ∨ c = 1) (h0 : 0 ∈ y) (h1 : 1 ∈ y) :
    prior y.length y s = .ok (est s (y.count 0) y.length 2, 1 - est s (y.count 0) y.length 2) := by
  have hl := List.length_pos_of_mem h0
  unfold prior est
  rw [unique_two h01 h0 h1]
  cases s
  · simp only [Bool.false_eq_true, if_false]; rw [if_neg (by omega)]
  · simp only [if_true]; rw [if_neg (by omega)]

private lemma est_fewer (s : Bool) (a t k : Nat) (ht : 0 < t) : est s a (t + 1) k ≤ est s a t k := by
  have key : ∀ a t : Nat, 0 < t → ratio a (t + 1) ≤ ratio a t := by
    intro a t ht
    unfold ratio
    exact div_le_div_of_nonneg_left (Nat.cast_nonneg _) (by exact_mod_cast ht) (by push_cast; linarith)
  unfold est
  cases s
  · simpa using key a t ht
  · simp only [if_true]
    rw [show t + 1 + k = t + k + 1 by omega]
    exact key _ _ (by omega)

/-- **C337** (discrete attributes whose values appear in the order of their frequencies, before and after). A row `x` of values that occur in the training data is answered by class `c`; a
classifier trained on the same data and on the sample `(x, c)` answers it by `c`. Missing: the same for continuous attributes, which is false (`C337_witness`); for other orders the counts are
attached to the wrong values (C41). -/
theorem C337_discrete_partial (order : List V → List V) (fl : ℝ → ℝ) (s : Bool) (cols : List (List V)) (x : List V) (y : List Int) (h01 : ∀ c ∈ y, c = 0 ∨ c = 1) (h0 : 0 ∈ y) (h1 : 1 ∈ y)
    (hx : List.Forall₂ (fun l v => v ∈ l) cols x) (hlen : ∀ l ∈ cols, l.length = y.length) (ho : ∀ l ∈ cols, order l = pyUnique l)
    (ho' : ∀ l ∈ List.zipWith (fun l v => l ++ [v]) cols x, order l = pyUnique l) (m : NB V) (hm : nbFit order (cols.map Col.disc) y s = .ok m) (c : Int)
    (hc : nbPredict fl s m (x.map Cell.disc) = .ok c) :
    ∃ m', nbFit order ((List.zipWith (fun l v => l ++ [v]) cols x).map Col.disc) (y ++ [c]) s = .ok m' ∧ nbPredict fl s m' (x.map Cell.disc) = .ok c := by
  have hf : List.Forall₂ (Fits order y) cols x := by
    clear hm ho' hc
    induction hx with
    | nil => exact .nil
    | @cons l v cols x h hx ih =>
      exact .cons ⟨h, hlen _ List.mem_cons_self, ho _ List.mem_cons_self⟩
        (ih (fun l hl => hlen l (List.mem_cons_of_mem _ hl)) fun l hl => ho l (List.mem_cons_of_mem _ hl))
  have hn := List.length_pos_of_mem h0
  rw [disc_predict order fl s y h0 h1 cols x hf m hm _ (prior_value s y h01 h0 h1)] at hc
  simp only [Except.ok.injEq] at hc
  have hc01 : c = 0 ∨ c = 1 := by rw [← hc]; split <;> simp
  have hy01 : ∀ a ∈ y ++ [c], a = 0 ∨ a = 1 := by
    intro a ha
    rcases List.mem_append.1 ha with h | h
    · exact h01 a h
    · rw [List.mem_singleton.1 h]; exact hc01
  have g0 : 0 ∈ y ++ [c] := by simp [h0]
  have g1 : 1 ∈ y ++ [c] := by simp [h1]
  have hcols : ∀ c' : List (List V), ∀ x : List V, List.Forall₂ (Fits order y) c' x → (∀ l ∈ c', (pyUnique l).length ≠ 1) →
      ∀ l ∈ List.zipWith (fun l v => l ++ [v]) c' x, (pyUnique l).length ≠ 1 := by
    intro c' x h
    induction h with
    | nil => simp
    | @cons l v c' x h _ ih =>
      intro hu
      rw [List.zipWith_cons_cons, List.forall_mem_cons]
      exact ⟨by rw [unique_snoc l v h.1]; exact hu _ List.mem_cons_self, ih fun l hl => hu l (List.mem_cons_of_mem _ hl)⟩
  have hone : ∀ l ∈ cols, (pyUnique l).length ≠ 1 := by
    intro l hl he
    unfold nbFit at hm
    rw [prior_value s y h01 h0 h1] at hm
    simp only at hm
    cases e0 : (cols.map Col.disc).mapM (nbColumn order y 0) with
    | error e => rw [e0] at hm; cases hm
    | ok a =>
      obtain ⟨j, hj⟩ := List.mem_iff_getElem?.1 hl
      obtain ⟨b, hb, -⟩ := (mapM_get _ _ _ e0).2 j (.disc l) (by rw [List.getElem?_map, hj]; rfl)
      simp only [nbColumn] at hb
      rw [if_pos he] at hb
      cases hb
  obtain ⟨m', hm'⟩ := C80_fit_partial order ((List.zipWith (fun l v => l ++ [v]) cols x).map Col.disc) (y ++ [c]) (by simp) s (by
    intro l hl
    obtain ⟨l', hl', e⟩ := List.mem_map.1 hl
    cases e
    exact hcols cols x hf hone l hl')
  refine ⟨m', hm', ?_⟩
  rw [disc_predict order fl s (y ++ [c]) g0 g1 _ x (fits_snoc order y c cols x hf ho') m' hm' _ (prior_value s _ hy01 g0 g1)]
  have n0 := likelihood_nonneg s y 0 cols x
  have n1 := likelihood_nonneg s y 1 cols x
  have hbound : ∀ a t : Nat, 0 < t → a ≤ t → 0 ≤ est s a t 2 ∧ est s a t 2 ≤ 1 := by
    intro a t ht hat
    refine ⟨est_nonneg _ _ _ _, ?_⟩
    unfold est
    split
    · exact ratio_le_one (by omega)
    · exact ratio_le_one hat
  have hcnt : y.count 0 ≤ y.length := List.count_le_length
  obtain ⟨b1, b2⟩ := hbound _ _ hn hcnt
  rcases hc01 with rfl | rfl
  · have hlt : (1 - est s (y.count 0) y.length 2) * likelihood s y 1 cols x < est s (y.count 0) y.length 2 * likelihood s y 0 cols x := by
      by_contra h
      rw [if_neg h] at hc
      exact absurd hc (by decide)
    rw [if_pos]
    rw [likelihood_other order s y 1 0 (by decide) cols x hf]
    have e := est_more s hn (k := 2) (by omega) hcnt
    have e' := likelihood_same order s y 0 h0 cols x hf
    simp only [List.count_append, List.count_singleton_self, List.length_append, List.length_singleton]
    calc (1 - est s (y.count 0 + 1) (y.length + 1) 2) * likelihood s y 1 cols x ≤ (1 - est s (y.count 0) y.length 2) * likelihood s y 1 cols x := by
          exact mul_le_mul_of_nonneg_right (by linarith) n1
      _ < est s (y.count 0) y.length 2 * likelihood s y 0 cols x := hlt
      _ ≤ _ := mul_le_mul e e' n0 (b1.trans e)
  · have hlt : ¬(1 - est s (y.count 0) y.length 2) * likelihood s y 1 cols x < est s (y.count 0) y.length 2 * likelihood s y 0 cols x := by
      intro h
      rw [if_pos h] at hc
      exact absurd hc (by decide)
    rw [if_neg]
    rw [likelihood_other order s y 0 1 (by decide) cols x hf]
    have e := est_fewer s (y.count 0) y.length 2 hn
    have e' := likelihood_same order s y 1 h1 cols x hf
    have hz : ([1] : List Int).count 0 = 0 := by decide
    simp only [List.count_append, hz, add_zero, List.length_append, List.length_singleton]
    push Not at hlt ⊢
    calc est s (y.count 0) (y.length + 1) 2 * likelihood s y 0 cols x ≤ est s (y.count 0) y.length 2 * likelihood s y 0 cols x := mul_le_mul_of_nonneg_right e n0
      _ ≤ (1 - est s (y.count 0) y.length 2) * likelihood s y 1 cols x := hlt
      _ ≤ _ := mul_le_mul (by linarith) e' n1 (by linarith [(hbound (y.count 0) (y.length + 1) (by omega) (by omega)).2])

/-- Non-vacuity of `C337_discrete_partial`. -/
example (fl : ℝ → ℝ) : ∃ m m', nbFit pyUnique [Col.disc ["b", "b", "b", "a"]] [0, 0, 0, 1] true = .ok m ∧ nbPredict fl true m [.disc "b"] = .ok 0 ∧
    nbFit pyUnique [Col.disc ["b", "b", "b", "a", "b"]] [0, 0, 0, 1, 0] true = .ok m' ∧ nbPredict fl true m' [.disc "b"] = .ok 0 := by
  obtain ⟨m, hm⟩ := C80_fit_partial (V := String) pyUnique ([["b", "b", "b", "a"]].map Col.disc) [0, 0, 0, 1] (by simp) true (by
    intro l hl
    simp only [List.map_cons, List.map_nil, List.mem_singleton, Col.disc.injEq] at hl
    subst hl
    decide)
  have hp := disc_predict pyUnique fl true [0, 0, 0, 1] (by decide) (by decide) [["b", "b", "b", "a"]] ["b"] (.cons ⟨by decide, rfl, rfl⟩ .nil) m hm _
    (prior_value true _ (by decide) (by decide) (by decide))
  have h0 : likelihood true [0, 0, 0, 1] 0 [["b", "b", "b", "a"]] ["b"] = 4 / 5 := by
    have : likelihood true [0, 0, 0, 1] 0 [["b", "b", "b", "a"]] ["b"] = ratio 4 5 * 1 := rfl
    rw [this]; norm_num [ratio]
  have h1 : likelihood true [0, 0, 0, 1] 1 [["b", "b", "b", "a"]] ["b"] = 1 / 3 := by
    have : likelihood true [0, 0, 0, 1] 1 [["b", "b", "b", "a"]] ["b"] = ratio 1 3 * 1 := rfl
    rw [this]; norm_num [ratio]
  have h2 : est true (([0, 0, 0, 1] : List Int).count 0) ([0, 0, 0, 1] : List Int).length 2 = 2 / 3 := by
    have : est true (([0, 0, 0, 1] : List Int).count 0) ([0, 0, 0, 1] : List Int).length 2 = ratio 4 6 := rfl
    rw [this]; norm_num [ratio]
  rw [h0, h1, h2, if_pos (by norm_num)] at hp
  obtain ⟨m', h3, h4⟩ := C337_discrete_partial pyUnique fl true [["b", "b", "b", "a"]] ["b"] [0, 0, 0, 1] (by decide) (by decide) (by decide) (.cons (by decide) .nil) (by decide)
    (by intro l _; rfl) (by intro l _; rfl) m hm 0 hp
  exact ⟨m, m', hm, hp, h3, h4⟩

private lemma mv (l : List ℝ) (n m v : ℝ) (hl : l ≠ []) (hn : (l.length : ℝ) = n) (h0 : n ≠ 0) (hm : l.sum = n * m) (hv : (l.map fun a => (a - m) ^ 2).sum = n * v) :
    meanVar l = some (m, v) := by
  unfold meanVar
  rw [if_neg hl]
  have e1 : l.sum / n = m := by rw [hm]; field_simp
  simp only [hn, e1, hv]
  congr 2
  field_simp

/-- **C337** (violated). The values -6 and 6 belong to class 0, 11 and 25 to class 1. The fitted classifier answers 18 by 0; a classifier trained on the same data and on the sample (18, 0)
answers it by 1. (The variance is used as the standard deviation, C77, so that the new sample lowers the density more than it raises the prior.) -/
theorem C337_witness (order : List V → List V) (s : Bool) : ∃ m m' : NB V,
    nbFit order [Col.cont [-6, 6, 11, 25]] [0, 0, 1, 1] s = .ok m ∧ nbPredict id s m [.cont 18] = .ok 0 ∧
    nbFit order [Col.cont [-6, 6, 11, 25, 18]] [0, 0, 1, 1, 0] s = .ok m' ∧ nbPredict id s m' [.cont 18] = .ok 1 := by
  have a0 : select ([0, 0, 1, 1] : List Int) 0 ([-6, 6, 11, 25] : List ℝ) = [-6, 6] := by simp [select]
  have a1 : select ([0, 0, 1, 1] : List Int) 1 ([-6, 6, 11, 25] : List ℝ) = [11, 25] := by simp [select]
  have b0 : select ([0, 0, 1, 1, 0] : List Int) 0 ([-6, 6, 11, 25, 18] : List ℝ) = [-6, 6, 18] := by simp [select]
  have b1 : select ([0, 0, 1, 1, 0] : List Int) 1 ([-6, 6, 11, 25, 18] : List ℝ) = [11, 25] := by simp [select]
  have m0 : meanVar ([-6, 6] : List ℝ) = some (0, 36) := mv _ 2 _ _ (by simp) (by simp) (by norm_num) (by norm_num) (by norm_num)
  have m1 : meanVar ([11, 25] : List ℝ) = some (18, 49) := mv _ 2 _ _ (by simp) (by simp) (by norm_num) (by norm_num) (by norm_num)
  have m2 : meanVar ([-6, 6, 18] : List ℝ) = some (6, 96) := mv _ 3 _ _ (by simp) (by simp) (by norm_num) (by norm_num) (by norm_num)
  have hd : ∀ x m v : ℝ, 0 < v → density id x m v = some (1 / (√(2 * Real.pi) * v) * Real.exp (-(x - m) ^ 2 / (2 * v ^ 2))) := by
    intro x m v hv
    have hpos : 0 < 1 / (√(2 * Real.pi) * v) * Real.exp (-(x - m) ^ 2 / (2 * v ^ 2)) := by positivity
    simp only [density, id_eq]
    rw [if_neg hv.ne', if_neg hpos.ne']
  have pa := prior_value s [0, 0, 1, 1] (by decide) (by decide) (by decide)
  have pb := prior_value s [0, 0, 1, 1, 0] (by decide) (by decide) (by decide)
  refine ⟨⟨est s 2 4 2, 1 - est s 2 4 2, [.cont (some (0, 36))], [.cont (some (18, 49))]⟩,
    ⟨est s 3 5 2, 1 - est s 3 5 2, [.cont (some (6, 96))], [.cont (some (18, 49))]⟩, ?_, ?_, ?_, ?_⟩
  · unfold nbFit
    rw [pa]
    simp only [List.mapM_cons, List.mapM_nil, nbColumn, a0, a1, m0, m1]
    rfl
  · rw [C42_label_partial id s _ _ [1 / (√(2 * Real.pi) * 36) * Real.exp (-(18 - 0) ^ 2 / (2 * 36 ^ 2))] [1 / (√(2 * Real.pi) * 49) * Real.exp (-(18 - 18) ^ 2 / (2 * 49 ^ 2))]
      (by simp only [factors, factor, hd _ _ _ (show (0 : ℝ) < 36 by norm_num)]; rfl) (by simp only [factors, factor, hd _ _ _ (show (0 : ℝ) < 49 by norm_num)]; rfl)
      (est_nonneg _ _ _ _) (by cases s <;> norm_num [est, ratio]) (by intro p hp; simp only [List.mem_singleton] at hp; subst hp; positivity)
      (by intro p hp; simp only [List.mem_singleton] at hp; subst hp; positivity)]
    rw [if_pos]
    have he : (7 : ℝ) / 8 ≤ Real.exp (-(18 - 0) ^ 2 / (2 * 36 ^ 2)) := by
      have := Real.add_one_le_exp (-(18 - 0) ^ 2 / (2 * 36 ^ 2) : ℝ)
      norm_num at this ⊢
      linarith
    have h1 : Real.exp (-(18 - 18) ^ 2 / (2 * 49 ^ 2) : ℝ) = 1 := by norm_num
    have hr : 0 < √(2 * Real.pi) := by positivity
    simp only [List.prod_cons, List.prod_nil, mul_one, h1]
    have e : (1 : ℝ) - est s 2 4 2 = 1 / 2 ∧ est s 2 4 2 = 1 / 2 := by cases s <;> norm_num [est, ratio]
    rw [e.1, e.2]
    refine mul_lt_mul_of_pos_left ?_ (by norm_num)
    rw [one_div_mul_eq_div, lt_div_iff₀ (by positivity)]
    have : 1 / (√(2 * Real.pi) * 49) * (√(2 * Real.pi) * 36) = 36 / 49 := by field_simp
    rw [this]
    linarith
  · unfold nbFit
    rw [pb]
    simp only [List.mapM_cons, List.mapM_nil, nbColumn, b0, b1, m2, m1]
    rfl
  · rw [C42_label_partial id s _ _ [1 / (√(2 * Real.pi) * 96) * Real.exp (-(18 - 6) ^ 2 / (2 * 96 ^ 2))] [1 / (√(2 * Real.pi) * 49) * Real.exp (-(18 - 18) ^ 2 / (2 * 49 ^ 2))]
      (by simp only [factors, factor, hd _ _ _ (show (0 : ℝ) < 96 by norm_num)]; rfl) (by simp only [factors, factor, hd _ _ _ (show (0 : ℝ) < 49 by norm_num)]; rfl)
      (est_nonneg _ _ _ _) (by cases s <;> norm_num [est, ratio]) (by intro p hp; simp only [List.mem_singleton] at hp; subst hp; positivity)
      (by intro p hp; simp only [List.mem_singleton] at hp; subst hp; positivity)]
    rw [if_neg]
    have he : Real.exp (-(18 - 6) ^ 2 / (2 * 96 ^ 2) : ℝ) ≤ 1 := by
      rw [← Real.exp_zero]; exact Real.exp_le_exp.2 (by norm_num)
    have h1 : Real.exp (-(18 - 18) ^ 2 / (2 * 49 ^ 2) : ℝ) = 1 := by norm_num
    have hr : 0 < √(2 * Real.pi) := by positivity
    have hq : 0 < 1 / √(2 * Real.pi) := by positivity
    simp only [List.prod_cons, List.prod_nil, mul_one, h1]
    rw [not_lt]
    have e49 : 1 / (√(2 * Real.pi) * 49) = 1 / √(2 * Real.pi) * (1 / 49) := by field_simp
    have e96 : 1 / (√(2 * Real.pi) * 96) = 1 / √(2 * Real.pi) * (1 / 96) := by field_simp
    rw [e49, e96]
    generalize 1 / √(2 * Real.pi) = q at hq
    generalize Real.exp (-(18 - 6) ^ 2 / (2 * 96 ^ 2) : ℝ) = t at he
    cases s
    · have e : (1 : ℝ) - est false 3 5 2 = 2 / 5 ∧ est false 3 5 2 = 3 / 5 := by norm_num [est, ratio]
      rw [e.1, e.2]
      nlinarith
    · have e : (1 : ℝ) - est true 3 5 2 = 3 / 7 ∧ est true 3 5 2 = 4 / 7 := by norm_num [est, ratio]
      rw [e.1, e.2]
      nlinarith

end CML.Bayes
