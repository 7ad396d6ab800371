import Verif.Props.Bayes

set_option linter.unusedSectionVars false
set_option linter.unusedSimpArgs false

/-!
# Property C329: a repeated attribute of a naive Bayes classifier

naive_bayes_classifier.py:60-144, 191-232.
-/

namespace CML.Bayes

variable {V : Type} [DecidableEq V]

lemma mapM_get {α β : Type} (f : α → Except PyErr β) : ∀ (l : List α) (r : List β), l.mapM f = .ok r → r.length = l.length ∧
    ∀ (j : Nat) (a : α), l[j]? = some a → ∃ b, f a = .ok b ∧ r[j]? = some b
  | [], r, h => by
    simp only [List.mapM_nil] at h
    cases h
    simp
  | a :: l, r, h => by
    rw [List.mapM_cons] at h
    rcases h1 : f a with e | b
    · rw [h1] at h; cases h
    · rw [h1] at h
      rcases h2 : l.mapM f with e | r'
      · rw [h2] at h; cases h
      · rw [h2] at h
        cases h
        obtain ⟨h3, h4⟩ := mapM_get f l r' h2
        refine ⟨by simp [h3], fun j a' hj => ?_⟩
        cases j with
        | zero => simp only [List.getElem?_cons_zero, Option.some.injEq] at hj; subst hj; exact ⟨b, h1, rfl⟩
        | succ j => simpa using h4 j a' (by simpa using hj)

lemma mapM_snoc {α β : Type} (f : α → Except PyErr β) (l : List α) (a : α) (r : List β) (b : β) (h : l.mapM f = .ok r) (hb : f a = .ok b) :
    (l ++ [a]).mapM f = .ok (r ++ [b]) := by
  rw [List.mapM_append, h]
  simp only [List.mapM_cons, hb, List.mapM_nil]
  rfl

/-- The factors of a row, attribute by attribute. -/
lemma factors_get (fl : ℝ → ℝ) (s : Bool) : ∀ (ss : List (Stored V)) (x : List (Cell V)) (l : List (Option ℝ)), factors fl s ss x = .ok l → l.length = ss.length ∧
    ∀ (j : Nat) (t : Stored V) (c : Cell V), ss[j]? = some t → x[j]? = some c → ∃ p, factor fl s t c = .ok p ∧ l[j]? = some p
  | [], x, l, h => by
    simp only [factors, Except.ok.injEq] at h
    subst h; simp
  | t :: ss, [], l, h => by simp [factors] at h
  | t :: ss, c :: x, l, h => by
    rw [factors] at h
    rcases h1 : factor fl s t c with e | p
    · rw [h1] at h; simp at h
    · rw [h1] at h
      rcases h2 : factors fl s ss x with e | ps
      · rw [h2] at h; simp at h
      · rw [h2] at h
        simp only [Except.ok.injEq] at h
        subst h
        obtain ⟨h3, h4⟩ := factors_get fl s ss x ps h2
        refine ⟨by simp [h3], fun j t' c' ht hc => ?_⟩
        cases j with
        | zero =>
          simp only [List.getElem?_cons_zero, Option.some.injEq] at ht hc
          subst ht hc; exact ⟨p, h1, rfl⟩
        | succ j => simpa using h4 j t' c' (by simpa using ht) (by simpa using hc)

lemma factors_snoc (fl : ℝ → ℝ) (s : Bool) (t : Stored V) (c : Cell V) (p : Option ℝ) (hp : factor fl s t c = .ok p) :
    ∀ (ss : List (Stored V)) (x : List (Cell V)) (l : List (Option ℝ)), ss.length = x.length → factors fl s ss x = .ok l → factors fl s (ss ++ [t]) (x ++ [c]) = .ok (l ++ [p])
  | [], [], l, _, h => by
    simp only [factors, Except.ok.injEq] at h
    subst h
    simp [factors, hp]
  | t' :: ss, c' :: x, l, hl, h => by
    rw [factors] at h
    rw [List.cons_append, List.cons_append, factors]
    rcases h1 : factor fl s t' c' with e | q
    · rw [h1] at h; simp at h
    · rw [h1] at h
      rcases h2 : factors fl s ss x with e | ps
      · rw [h2] at h; simp at h
      · rw [h2] at h
        simp only [Except.ok.injEq] at h
        subst h
        simp only [factors_snoc fl s t c p hp ss x ps (by simpa using hl) h2]
        rfl

/-- **C329** (exact law). A classifier fitted on a table whose attribute `j` is given once more can be fitted exactly as the one without, and it weighs that attribute twice: the factor
of attribute `j` enters both products once more. -/
theorem C329_counted_twice (order : List V → List V) (fl : ℝ → ℝ) (s : Bool) (cols : List (Col V)) (y : List Int) (m : NB V) (hm : nbFit order cols y s = .ok m) (j : Nat) (c : Col V)
    (hj : cols[j]? = some c) (x : List (Cell V)) (v : Cell V) (hx : x.length = cols.length) (hv : x[j]? = some v) (l0 l1 : List ℝ)
    (h0 : factors fl s m.pi0 x = .ok (l0.map some)) (h1 : factors fl s m.pi1 x = .ok (l1.map some))
    (hp0 : 0 ≤ m.p0) (hp1 : 0 ≤ m.p1) (hl0 : ∀ p ∈ l0, 0 ≤ p) (hl1 : ∀ p ∈ l1, 0 ≤ p) :
    ∃ m' f0 f1, nbFit order (cols ++ [c]) y s = .ok m' ∧ l0[j]? = some f0 ∧ l1[j]? = some f1 ∧
      nbPredict fl s m x = .ok (if m.p1 * l1.prod < m.p0 * l0.prod then 0 else 1) ∧
      nbPredict fl s m' (x ++ [v]) = .ok (if m.p1 * l1.prod * f1 < m.p0 * l0.prod * f0 then 0 else 1) := by
  have hm' := hm
  unfold nbFit at hm'
  rcases hp : prior y.length y s with e | ⟨p0, p1⟩
  · rw [hp] at hm'; cases hm'
  rw [hp] at hm'
  rcases ha : cols.mapM (nbColumn order y 0) with e | a
  · rw [ha] at hm'; cases hb : cols.mapM (nbColumn order y 1) <;> rw [hb] at hm' <;> cases hm'
  rcases hb : cols.mapM (nbColumn order y 1) with e | b
  · rw [ha, hb] at hm'; cases hm'
  rw [ha, hb] at hm'
  simp only [Except.ok.injEq] at hm'
  subst hm'
  obtain ⟨la, ga⟩ := mapM_get _ _ _ ha
  obtain ⟨lb, gb⟩ := mapM_get _ _ _ hb
  obtain ⟨s0, hs0, gs0⟩ := ga j c hj
  obtain ⟨s1, hs1, gs1⟩ := gb j c hj
  obtain ⟨-, k0⟩ := factors_get fl s _ _ _ h0
  obtain ⟨-, k1⟩ := factors_get fl s _ _ _ h1
  obtain ⟨q0, hq0, r0⟩ := k0 j s0 v gs0 hv
  obtain ⟨q1, hq1, r1⟩ := k1 j s1 v gs1 hv
  rw [List.getElem?_map, Option.map_eq_some_iff] at r0 r1
  obtain ⟨f0, hf0, rfl⟩ := r0
  obtain ⟨f1, hf1, rfl⟩ := r1
  have hfit : nbFit order (cols ++ [c]) y s = .ok ⟨p0, p1, a ++ [s0], b ++ [s1]⟩ := by
    unfold nbFit
    rw [hp]
    simp only [mapM_snoc _ _ _ _ _ ha hs0, mapM_snoc _ _ _ _ _ hb hs1]
  refine ⟨_, f0, f1, hfit, hf0, hf1, C42_label_partial fl s _ x l0 l1 h0 h1 hp0 hp1 hl0 hl1, ?_⟩
  have e0 := factors_snoc fl s s0 v _ hq0 _ _ _ (by simp only; omega) h0
  have e1 := factors_snoc fl s s1 v _ hq1 _ _ _ (by simp only; omega) h1
  have := C42_label_partial fl s ⟨p0, p1, a ++ [s0], b ++ [s1]⟩ (x ++ [v]) (l0 ++ [f0]) (l1 ++ [f1]) (by simpa using e0) (by simpa using e1) hp0 hp1
    (by
      intro p hp'
      rcases List.mem_append.1 hp' with h | h
      · exact hl0 p h
      · rw [List.mem_singleton.1 h]; exact hl0 _ (List.mem_of_getElem? hf0))
    (by
      intro p hp'
      rcases List.mem_append.1 hp' with h | h
      · exact hl1 p h
      · rw [List.mem_singleton.1 h]; exact hl1 _ (List.mem_of_getElem? hf1))
  rw [this]
  simp only [List.prod_append, List.prod_cons, List.prod_nil, mul_one, ← mul_assoc]

/-- **C329** (what holds). The repetition changes no answer that the attribute itself supports: if its factor for the answered class is not the smaller one (and is positive, for
class 0), both classifiers answer alike. Missing: rows where the attribute speaks against the answer; there the property is false (`C329_witness`). -/
theorem C329_supported_partial (order : List V → List V) (fl : ℝ → ℝ) (s : Bool) (cols : List (Col V)) (y : List Int) (m : NB V) (hm : nbFit order cols y s = .ok m) (j : Nat) (c : Col V)
    (hj : cols[j]? = some c) (x : List (Cell V)) (v : Cell V) (hx : x.length = cols.length) (hv : x[j]? = some v) (l0 l1 : List ℝ)
    (h0 : factors fl s m.pi0 x = .ok (l0.map some)) (h1 : factors fl s m.pi1 x = .ok (l1.map some))
    (hp0 : 0 ≤ m.p0) (hp1 : 0 ≤ m.p1) (hl0 : ∀ p ∈ l0, 0 ≤ p) (hl1 : ∀ p ∈ l1, 0 ≤ p)
    (hs : ∀ f0 f1, l0[j]? = some f0 → l1[j]? = some f1 → (nbPredict fl s m x = .ok 0 → f1 ≤ f0 ∧ 0 < f0) ∧ (nbPredict fl s m x = .ok 1 → f0 ≤ f1)) :
    ∃ m', nbFit order (cols ++ [c]) y s = .ok m' ∧ nbPredict fl s m' (x ++ [v]) = nbPredict fl s m x := by
  obtain ⟨m', f0, f1, h2, h3, h4, h5, h6⟩ := C329_counted_twice order fl s cols y m hm j c hj x v hx hv l0 l1 h0 h1 hp0 hp1 hl0 hl1
  refine ⟨m', h2, ?_⟩
  obtain ⟨g0, g1⟩ := hs f0 f1 h3 h4
  have n0 := mul_nonneg hp0 (prod_nonneg hl0)
  have n1 := mul_nonneg hp1 (prod_nonneg hl1)
  have nf0 := hl0 _ (List.mem_of_getElem? h3)
  have nf1 := hl1 _ (List.mem_of_getElem? h4)
  rw [h6, h5]
  by_cases h : m.p1 * l1.prod < m.p0 * l0.prod
  · obtain ⟨g, g'⟩ := g0 (by rw [h5, if_pos h])
    rw [if_pos h, if_pos]
    calc _ ≤ m.p1 * l1.prod * f0 := mul_le_mul_of_nonneg_left g n1
      _ < _ := mul_lt_mul_of_pos_right h g'
  · have g := g1 (by rw [h5, if_neg h])
    rw [if_neg h, if_neg]
    push Not at h ⊢
    exact mul_le_mul h g nf0 n1

/-- **C329** (violated). Six rows of class 0, of which two have the value `a`, and one row `a` of class 1: the classifier answers `a` by 0; with the attribute given twice it answers 1. -/
theorem C329_witness (fl : ℝ → ℝ) :
    let col : Col String := .disc ["b", "b", "b", "b", "a", "a", "a"]
    let y : List Int := [0, 0, 0, 0, 0, 0, 1]
    ∃ m m', nbFit pyUnique [col] y false = .ok m ∧ nbFit pyUnique [col, col] y false = .ok m' ∧
      nbPredict fl false m [.disc "a"] = .ok 0 ∧ nbPredict fl false m' [.disc "a", .disc "a"] = .ok 1 := by
  intro col y
  obtain ⟨m, hm⟩ := C80_fit_partial (V := String) pyUnique [col] y (by simp [y]) false (by
    intro l hl
    simp only [col, List.mem_singleton, Col.disc.injEq] at hl
    subst hl
    decide)
  have em : m = ⟨ratio 6 7, 1 - ratio 6 7, [.disc [("b", 4), ("a", 2)] 6 2], [.disc [("b", 0), ("a", 1)] 1 2]⟩ := by
    have : nbFit pyUnique [col] y false = .ok ⟨ratio 6 7, 1 - ratio 6 7, [.disc [("b", 4), ("a", 2)] 6 2], [.disc [("b", 0), ("a", 1)] 1 2]⟩ := rfl
    rw [this] at hm
    exact (Except.ok.inj hm).symm
  subst em
  have f0 : factors fl false [Stored.disc [("b", 4), ("a", 2)] 6 2] [.disc "a"] = .ok ([ratio 2 6].map some) := rfl
  have f1 : factors fl false [Stored.disc [("b", 0), ("a", 1)] 1 2] [.disc "a"] = .ok ([ratio 1 1].map some) := rfl
  obtain ⟨m', g0, g1, h2, h3, h4, h5, h6⟩ := C329_counted_twice pyUnique fl false [col] y _ hm 0 col rfl [.disc "a"] (.disc "a") rfl rfl [ratio 2 6] [ratio 1 1] f0 f1
    (by norm_num [ratio]) (by norm_num [ratio]) (by norm_num [ratio]) (by norm_num [ratio])
  simp only [List.getElem?_cons_zero, Option.some.injEq] at h3 h4
  subst h3 h4
  refine ⟨_, m', hm, h2, ?_, ?_⟩
  · rw [h5]; norm_num [ratio]
  · simp only [List.singleton_append] at h6; rw [h6]; norm_num [ratio]

/-- Non-vacuity of `C329_supported_partial`: the same classifier and the value `b`. -/
example (fl : ℝ → ℝ) : ∃ m', nbFit pyUnique [Col.disc ["b", "b", "b", "b", "a", "a", "a"], Col.disc ["b", "b", "b", "b", "a", "a", "a"]] [0, 0, 0, 0, 0, 0, 1] false = .ok m' ∧
    nbPredict fl false m' [.disc "b", .disc "b"] = .ok 0 := by
  have f0 : factors fl false [Stored.disc [("b", 4), ("a", 2)] 6 2] [.disc "b"] = .ok ([ratio 4 6].map some) := rfl
  have f1 : factors fl false [Stored.disc [("b", 0), ("a", 1)] 1 2] [.disc "b"] = .ok ([ratio 0 1].map some) := rfl
  have h0 := C42_label_partial fl false ⟨ratio 6 7, 1 - ratio 6 7, [.disc [("b", 4), ("a", 2)] 6 2], [.disc [("b", 0), ("a", 1)] 1 2]⟩ [.disc "b"] [ratio 4 6] [ratio 0 1] f0 f1
    (by norm_num [ratio]) (by norm_num [ratio]) (by norm_num [ratio]) (by norm_num [ratio])
  have h0' : nbPredict fl false ⟨ratio 6 7, 1 - ratio 6 7, [.disc [("b", 4), ("a", 2)] 6 2], [.disc [("b", 0), ("a", 1)] 1 2]⟩ [.disc "b"] = .ok 0 := by
    rw [h0]; norm_num [ratio]
  obtain ⟨m', h1, h2⟩ := C329_supported_partial pyUnique fl false [Col.disc ["b", "b", "b", "b", "a", "a", "a"]] [0, 0, 0, 0, 0, 0, 1]
    ⟨ratio 6 7, 1 - ratio 6 7, [.disc [("b", 4), ("a", 2)] 6 2], [.disc [("b", 0), ("a", 1)] 1 2]⟩ rfl 0 _ rfl [.disc "b"] (.disc "b") rfl rfl [ratio 4 6] [ratio 0 1] f0 f1
    (by norm_num [ratio]) (by norm_num [ratio]) (by norm_num [ratio]) (by norm_num [ratio]) (by
      intro g0 g1 e0 e1
      simp only [List.getElem?_cons_zero, Option.some.injEq] at e0 e1
      subst e0 e1
      rw [h0']
      norm_num [ratio])
  exact ⟨m', h1, h2.trans h0'⟩

end CML.Bayes
