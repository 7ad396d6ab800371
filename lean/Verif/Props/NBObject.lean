import Verif.Props.Bayes

set_option linter.unusedSectionVars false

/-! # Property C131 (the naive Bayes object), more of C77 -/

namespace CML.Bayes

variable {V : Type} [DecidableEq V]

lemma meanVar_spec (l : List ℝ) : (l = [] → meanVar l = none) ∧ (l ≠ [] → ∃ m v, meanVar l = some (m, v) ∧ IsMeanVar l m v) := by
  constructor
  · intro h; simp [meanVar, h]
  · intro h
    have hl : (l.length : ℝ) ≠ 0 := by
      rw [Ne, Nat.cast_eq_zero, List.length_eq_zero_iff]; exact h
    refine ⟨l.sum / l.length, (l.map fun v => (v - l.sum / l.length) ^ 2).sum / l.length, by simp [meanVar, h], h, ?_, ?_⟩
    · field_simp
    · rw [mul_div_cancel₀ _ hl]
      simp only [sq]

/-- C77: what naive Bayes stores for a continuous attribute and a class is the mean and the variance of the values of the class; NaN if
the class has no sample. -/
theorem C77_parameters (order : List V → List V) (l : List ℝ) (y : List Int) (c : Int) :
    (classValues l y c = [] → nbColumn order y c (.cont l) = .ok (.cont none)) ∧
    (classValues l y c ≠ [] → ∃ m v, nbColumn order y c (.cont l) = .ok (.cont (some (m, v))) ∧ IsMeanVar (classValues l y c) m v) := by
  constructor
  · intro h
    simp only [nbColumn]
    rw [(meanVar_spec (select y c l)).1 h]
  · intro h
    obtain ⟨m, v, e, hs⟩ := (meanVar_spec (select y c l)).2 h
    exact ⟨m, v, by simp only [nbColumn, e], hs⟩

/-- C77, one-dependent estimators: mean and variance of the samples that share class and super-parent value, if there are more than two of
them, else of the whole class. -/
theorem C77_one_dependent (sp : List V) (y : List Int) (v : V) (c : Int) (l : List ℝ) (hc : classValues l y c ≠ []) :
    ∃ m s, spodeColumn sp y v c (.cont l) = .cont (some (m, s)) ∧
      let group := ((l.zip (sp.zip y)).filter fun q => q.2 = (v, c)).map Prod.fst
      (2 < group.length → IsMeanVar group m s) ∧ (group.length ≤ 2 → IsMeanVar (classValues l y c) m s) := by
  have hg : ((l.zip (sp.zip y)).filter fun q => q.2 = (v, c)).map Prod.fst = select2 sp y v c l := by
    unfold select2
    congr 2
    funext q
    simp only [Prod.ext_iff]
  by_cases h : (select2 sp y v c l).length ≤ 2
  · obtain ⟨m, s, e, hs⟩ := (meanVar_spec (select y c l)).2 hc
    refine ⟨m, s, by simp only [spodeColumn, if_pos h, e], ?_, fun _ => hs⟩
    rw [hg]; intro h'; omega
  · have hne : select2 sp y v c l ≠ [] := by intro h0; rw [h0] at h; simp at h
    obtain ⟨m, s, e, hs⟩ := (meanVar_spec (select2 sp y v c l)).2 hne
    refine ⟨m, s, by simp only [spodeColumn, if_neg h, e], ?_, ?_⟩
    · rw [hg]; exact fun _ => hs
    · rw [hg]; intro h'; exact absurd h' h

/-- Non-vacuity: a class with values, and a group of three. -/
example : classValues [1, 2, 3, 4] [0, 0, 0, 1] 0 ≠ [] ∧
    2 < ((([1, 2, 3, 4] : List ℝ).zip ((["a", "a", "a", "b"]).zip ([0, 0, 0, 1] : List Int))).filter fun q => q.2 = ("a", 0)).length := by
  constructor
  · simp [classValues]
  · simp

/-! ## C131 -/

lemma lookup_zip_some {β : Type} (v : V) : ∀ (ks : List V) (vs : List β), ks.length ≤ vs.length → v ∈ ks → ∃ b, (ks.zip vs).lookup v = some b
  | [], _, _, h => by simp at h
  | k :: ks, [], hl, _ => by simp at hl
  | k :: ks, b :: vs, hl, h => by
    by_cases e : v = k
    · subst e; exact ⟨b, by simp⟩
    · obtain ⟨b', hb'⟩ := lookup_zip_some v ks vs (by simpa using hl) (by simpa [e] using h)
      exact ⟨b', by simp [List.lookup, beq_false_of_ne e, hb']⟩

lemma lookup_zip_none {β : Type} (v : V) : ∀ (ks : List V) (vs : List β), v ∉ ks → (ks.zip vs).lookup v = none
  | [], _, _ => by simp
  | k :: ks, [], _ => by simp
  | k :: ks, b :: vs, h => by
    have e : v ≠ k := by intro e; exact h (by simp [e])
    have := lookup_zip_none v ks vs (by intro h'; exact h (List.mem_cons_of_mem _ h'))
    simp [List.lookup, beq_false_of_ne e, this]

lemma factor_col (fl : ℝ → ℝ) (smoothing : Bool) (order : List V → List V) (ho : IsValueCounts order) (y : List Int) (c : Int) (col : Col V)
    (s : Stored V) (hs : nbColumn order y c col = .ok s) (x : Cell V) (hk : SameKind col x) :
    (Seen col x → ∃ p, factor fl smoothing s x = .ok p) ∧ (¬Seen col x → factor fl smoothing s x = .error .keyError) := by
  cases col with
  | cont l =>
    cases x with
    | disc v => exact hk.elim
    | cont r =>
      refine ⟨fun _ => ?_, fun h => absurd trivial h⟩
      simp only [nbColumn, Except.ok.injEq] at hs
      subst hs
      cases hm : meanVar (select y c l) with
      | none => exact ⟨none, rfl⟩
      | some q => exact ⟨_, rfl⟩
  | disc l =>
    cases x with
    | cont r => exact hk.elim
    | disc v =>
      simp only [nbColumn] at hs
      split at hs
      · simp at hs
      · simp only [Except.ok.injEq] at hs
        subst hs
        have hmem : v ∈ order l ↔ v ∈ l := by rw [(ho l).1.mem_iff, mem_pyUnique]
        constructor
        · intro h
          obtain ⟨b, hb⟩ := lookup_zip_some v (order l) ((pyUnique l).map fun u => (select y c l).count u)
            (by rw [List.length_map]; exact (ho l).1.length_eq.le) (hmem.2 h)
          exact ⟨condProb b (select y c l).length (pyUnique l).length smoothing, by simp only [factor, nbCounts, hb]⟩
        · intro h
          have := lookup_zip_none v (order l) ((pyUnique l).map fun u => (select y c l).count u) (fun h' => h (hmem.1 h'))
          simp only [factor, nbCounts, this]

lemma factors_cols (fl : ℝ → ℝ) (smoothing : Bool) (order : List V → List V) (ho : IsValueCounts order) (y : List Int) (c : Int) :
    ∀ (cols : List (Col V)) (ss : List (Stored V)), cols.mapM (nbColumn order y c) = .ok ss →
      ss.length = cols.length ∧ ∀ x : List (Cell V), List.Forall₂ SameKind cols x →
        ((∀ p ∈ cols.zip x, Seen p.1 p.2) → ∃ ps, factors fl smoothing ss x = .ok ps) ∧
        ((∃ p ∈ cols.zip x, ¬Seen p.1 p.2) → factors fl smoothing ss x = .error .keyError)
  | [], ss, h => by
    injection h with h
    subst h
    refine ⟨rfl, fun x _ => ⟨fun _ => ⟨[], rfl⟩, fun ⟨p, hp, _⟩ => by simp at hp⟩⟩
  | col :: cols, ss, h => by
    rw [List.mapM_cons] at h
    cases hs : nbColumn order y c col with
    | error e => rw [hs] at h; simp [bind, Except.bind] at h
    | ok s =>
      cases hss : cols.mapM (nbColumn order y c) with
      | error e => rw [hs, hss] at h; simp [bind, Except.bind] at h
      | ok ss' =>
        rw [hs, hss] at h
        simp only [bind, Except.bind, pure, Except.pure, Except.ok.injEq] at h
        subst h
        obtain ⟨hlen, ih⟩ := factors_cols fl smoothing order ho y c cols ss' hss
        refine ⟨by simp [hlen], fun x hx => ?_⟩
        cases hx with
        | @cons _ b _ xs hk hrest =>
          obtain ⟨f1, f2⟩ := factor_col fl smoothing order ho y c col s hs b hk
          obtain ⟨i1, i2⟩ := ih xs hrest
          by_cases hseen : Seen col b
          · obtain ⟨p, hp⟩ := f1 hseen
            constructor
            · intro h
              obtain ⟨ps, hps⟩ := i1 fun q hq => h q (List.mem_cons_of_mem _ hq)
              exact ⟨p :: ps, by simp only [factors, hp, hps]⟩
            · rintro ⟨q, hq, hns⟩
              rw [List.zip_cons_cons, List.mem_cons] at hq
              rcases hq with rfl | hq
              · exact absurd hseen hns
              · simp only [factors, hp, i2 ⟨q, hq, hns⟩]
          · constructor
            · intro h; exact absurd (h (col, b) (by simp)) hseen
            · intro _; simp only [factors, f2 hseen]

lemma label_zero_one (s0 s1 : Option (WithBot ℝ)) : label s0 s1 = 0 ∨ label s0 s1 = 1 := by
  unfold label
  split
  · split
    · exact .inl rfl
    · exact .inr rfl
  · exact .inr rfl

/-- C131: a classifier with attribute names that was fitted answers 0 or 1 for every row whose discrete values all occur in the training
columns; for a row with a discrete value that does not, `KeyError`, whatever the smoothing; for a row of another length, `ValueError`. -/
theorem C131_answers (fl : ℝ → ℝ) (order : List V → List V) (ho : IsValueCounts order) (ns : List String) (cols : List (Col V))
    (y : List Int) (smoothing : Bool) (m : NB V) (hm : nbObjFit order (some ns) cols y smoothing = .ok m) (x : List (Cell V)) :
    (x.length ≠ cols.length → nbObjPredict fl smoothing (some ns) (some m) x = .error .valueError) ∧
    (List.Forall₂ SameKind cols x →
      ((∀ p ∈ cols.zip x, Seen p.1 p.2) → ∃ a, nbObjPredict fl smoothing (some ns) (some m) x = .ok a ∧ (a = 0 ∨ a = 1)) ∧
      ((∃ p ∈ cols.zip x, ¬Seen p.1 p.2) → nbObjPredict fl smoothing (some ns) (some m) x = .error .keyError)) := by
  simp only [nbObjFit] at hm
  split at hm
  · simp at hm
  · rename_i hl
    have hl : ns.length = cols.length := not_not.1 hl
    simp only [nbFit] at hm
    split at hm
    · simp at hm
    · split at hm
      · rename_i a b ha hb
        simp only [Except.ok.injEq] at hm
        subst hm
        constructor
        · intro h
          simp only [nbObjPredict]
          rw [if_pos (by rw [hl]; exact h)]
        · intro hk
          obtain ⟨_, h0⟩ := factors_cols fl smoothing order ho y 0 cols a ha
          obtain ⟨_, h1⟩ := factors_cols fl smoothing order ho y 1 cols b hb
          have hx : ¬ x.length ≠ ns.length := by rw [hl, ← hk.length_eq]; simp
          simp only [nbObjPredict, if_neg hx]
          constructor
          · intro hs
            obtain ⟨f0, e0⟩ := (h0 x hk).1 hs
            obtain ⟨f1, e1⟩ := (h1 x hk).1 hs
            exact ⟨_, by simp only [nbPredict, e0, e1]; rfl, label_zero_one _ _⟩
          · intro hs
            simp only [nbPredict, (h0 x hk).2 hs]
      · simp at hm
      · simp at hm

/-- C131: without attribute names (`attribute_name=None`, the default) the classifier can be fitted, but `predict` raises `TypeError` for every
row; an untrained classifier raises `ValueError`; `fit` with a wrong number of names raises `ValueError`. -/
theorem C131_names (fl : ℝ → ℝ) (order : List V → List V) (cols : List (Col V)) (y : List Int) (smoothing : Bool) (m : NB V)
    (x : List (Cell V)) (names : Option (List String)) (ns : List String) (hns : ns.length ≠ cols.length) :
    nbObjFit order none cols y smoothing = nbFit order cols y smoothing ∧
    nbObjPredict fl smoothing none (some m) x = .error .typeError ∧
    nbObjPredict fl smoothing names none x = .error .valueError ∧
    nbObjFit order (some ns) cols y smoothing = .error .valueError := by
  refine ⟨rfl, rfl, rfl, ?_⟩
  simp only [nbObjFit]
  rw [if_pos hns]

/-- Non-vacuity: a fitted classifier with one discrete and one continuous column, a seen and an unseen value. -/
example (order : List String → List String) : ∃ m, nbObjFit order (some ["colour", "size"]) [.disc ["a", "b", "a"], .cont [1, 2, 4]] [0, 1, 1] true = .ok m ∧
    Seen (.disc ["a", "b", "a"]) (.disc "a") ∧ ¬Seen (.disc ["a", "b", "a"]) (.disc "c") := by
  obtain ⟨m, hm⟩ := C80_fit_partial order [.disc ["a", "b", "a"], .cont [1, 2, 4]] [0, 1, 1] (by simp) true (by
    intro l hl
    simp at hl
    subst hl
    decide)
  exact ⟨m, by simpa [nbObjFit] using hm, by simp [Seen], by simp [Seen]⟩

end CML.Bayes
