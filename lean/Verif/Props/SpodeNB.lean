import Verif.Props.Bayes

set_option linter.unusedSectionVars false

/-! # Property C335: a one-dependent estimator whose super-parent is constant is the naive Bayes classifier

naive_bayes_classifier.py:60-232, semi_naive_bayes_classifiers.py:136-267.
-/

namespace CML.Bayes

variable {V : Type} [DecidableEq V]

lemma const_select {α : Type*} (v : V) (y : List Int) (c : Int) (l : List α) : select2 (List.replicate y.length v) y v c l = select y c l := by
  have hz : (List.replicate y.length v).zip y = y.map fun c => (v, c) := by
    induction y with
    | nil => rfl
    | cons a y ih => simp [List.replicate_succ, ih]
  simp only [select2, select, hz, List.zip_map_right, List.filter_map, List.map_map]
  congr 1
  refine List.filter_congr fun q _ => ?_
  simp

lemma const_unique (v : V) {n : Nat} (hn : n ≠ 0) : pyUnique (List.replicate n v) = [v] := by
  have : (pyUnique (List.replicate n v)).Perm [v] := by
    rw [List.perm_ext_iff_of_nodup (nodup_pyUnique _) (by simp)]
    intro a; rw [mem_pyUnique]; simp [List.mem_replicate]; intro _; omega
  exact List.perm_singleton.1 this

lemma const_select_self (v : V) (y : List Int) (c : Int) : select y c (List.replicate y.length v) = List.replicate (y.count c) v := by
  induction y with
  | nil => rfl
  | cons a y ih =>
    simp only [select] at ih ⊢
    simp only [List.length_cons, List.replicate_succ, List.zip_cons_cons, List.filter_cons, List.count_cons]
    by_cases h : a = c
    · simp [h, ih, List.replicate_succ]
    · simp [h, ih]

lemma zip_self_map {α β : Type*} (f : α → β) : ∀ l : List α, (l.map fun u => (u, f u)) = l.zip (l.map f)
  | [] => rfl
  | a :: l => by simp [zip_self_map f l]

/-- The stored attributes are the same, if the counts are attached to the values in the order in which they were made. -/
lemma const_column (order : List V → List V) (v : V) (y : List Int) (c : Int) (col : Col V) (ho : ∀ l, col = .disc l → order l = pyUnique l) (s : Stored V)
    (h : nbColumn order y c col = .ok s) : spodeColumn (List.replicate y.length v) y v c col = s := by
  cases col with
  | cont l =>
    simp only [nbColumn, Except.ok.injEq] at h
    simp only [spodeColumn, const_select, ite_self]
    exact h
  | disc l =>
    simp only [nbColumn] at h
    split at h
    · simp at h
    · simp only [Except.ok.injEq] at h
      rw [← h]
      simp only [spodeColumn, const_select, nbCounts, ho l rfl]
      congr 1
      exact zip_self_map _ _

lemma const_columns (order : List V → List V) (v : V) (y : List Int) (c : Int) : ∀ (cols : List (Col V)), (∀ l, Col.disc l ∈ cols → order l = pyUnique l) → ∀ ss,
    cols.mapM (nbColumn order y c) = .ok ss → cols.map (spodeColumn (List.replicate y.length v) y v c) = ss
  | [], _, ss, h => by
    simp only [List.mapM_nil] at h
    cases h; rfl
  | col :: cols, ho, ss, h => by
    rw [List.mapM_cons] at h
    cases h1 : nbColumn order y c col with
    | error e => rw [h1] at h; cases h
    | ok s =>
      rw [h1] at h
      cases h2 : cols.mapM (nbColumn order y c) with
      | error e => rw [h2] at h; cases h
      | ok rest =>
        rw [h2] at h
        cases h
        rw [List.map_cons, const_column order v y c col (fun l hl => ho l (by rw [hl]; exact List.mem_cons_self)) s h1,
          const_columns order v y c cols (fun l hl => ho l (List.mem_cons_of_mem _ hl)) rest h2]

/-- A factor one does not change a score. -/
lemma score_one (s : Option (WithBot ℝ)) (p : ℝ) (ps : List (Option ℝ)) : score s (some p :: some 1 :: ps) = score s (some p :: ps) := by
  simp only [score, List.foldl_cons]
  congr 1
  cases s with
  | none => rfl
  | some s => simp [addLog, logB]

lemma score_start (p : ℝ) (ps : List (Option ℝ)) : score (some 0) (some p :: ps) = score (some (logB p)) ps := by
  simp [score, addLog]

/-- The constant column contributes the factor one. -/
lemma const_factor (fl : ℝ → ℝ) (v : V) (y : List Int) (hy : y ≠ []) (c : Int) (hc : c ∈ y) (smoothing : Bool) :
    factor fl smoothing (spodeColumn (List.replicate y.length v) y v c (.disc (List.replicate y.length v))) (.disc v) = .ok (some 1) := by
  have hn : y.length ≠ 0 := fun h => hy (List.length_eq_zero_iff.1 h)
  have hpos : 0 < y.count c := List.count_pos_iff.2 hc
  have h0 : (y.count c : ℝ) ≠ 0 := by exact_mod_cast hpos.ne'
  have h1 : ((y.count c : ℝ) + 1) ≠ 0 := by positivity
  simp only [spodeColumn, const_select, const_select_self, const_unique v hn, List.map_cons, List.map_nil, List.count_replicate_self, List.length_replicate, factor,
    List.lookup, beq_self_eq_true, List.length_singleton, condProb]
  cases smoothing
  · simp [hpos.ne', ratio, h0]
  · simp [ratio, h1]

/-- **C335.** Let every sample have the same value `v` of the super-parent, let both classes occur, and let naive Bayes be fitted on the other attributes (which it can be only without the constant
one: C80). If its counts are attached to the right values (C41), the one-dependent estimator and naive Bayes answer alike: the same label, or the same exception. -/
theorem C335_same_answers (order : List V → List V) (fl : ℝ → ℝ) (v : V) (rest : List (Col V)) (y : List Int) (h01 : ∀ c ∈ y, c = 0 ∨ c = 1) (h0 : 0 ∈ y) (h1 : 1 ∈ y) (smoothing : Bool)
    (ho : ∀ l, Col.disc l ∈ rest → order l = pyUnique l) (m : NB V) (hm : nbFit order rest y smoothing = .ok m) (x : List (Cell V)) :
    let sp := List.replicate y.length v
    spodePredict fl smoothing (spodeFit [] (.disc sp :: rest) sp y smoothing) (.disc v :: x) = nbPredict fl smoothing m x := by
  intro sp
  have hy : y ≠ [] := List.ne_nil_of_mem h0
  have hn : y.length ≠ 0 := fun h => hy (List.length_eq_zero_iff.1 h)
  have hu : (pyUnique y).length = 2 := by
    have := congrArg List.length (sort_two h01 h0 h1)
    simpa using this
  have hcount : y.count 0 + y.count 1 = y.length := by
    clear hm hu hn hy h0 h1 sp
    induction y with
    | nil => rfl
    | cons a y ih =>
      have := ih (fun c hc => h01 c (List.mem_cons_of_mem _ hc))
      rcases h01 a List.mem_cons_self with rfl | rfl <;> simp [List.count_cons] <;> omega
  have hlen : (y.length : ℝ) ≠ 0 := by exact_mod_cast hn
  have hprior : prior y.length y smoothing = .ok (depPrior (y.count 0) y.length 1 smoothing, depPrior (y.count 1) y.length 1 smoothing) := by
    have hc : (y.count 0 : ℝ) + y.count 1 = y.length := by exact_mod_cast hcount
    cases smoothing
    · simp only [prior, depPrior, Bool.false_eq_true, if_false, hn]
      congr 2
      simp only [ratio]
      field_simp
      linarith
    · simp only [prior, depPrior, if_true, hu, Nat.mul_one]
      rw [if_neg (by omega)]
      congr 2
      simp only [ratio]
      push_cast
      have : ((y.length : ℝ) + 2) ≠ 0 := by positivity
      field_simp
      linarith
  unfold nbFit at hm
  rw [hprior] at hm
  simp only at hm
  cases ha : rest.mapM (nbColumn order y 0) with
  | error e => rw [ha] at hm; simp at hm
  | ok a =>
    cases hb : rest.mapM (nbColumn order y 1) with
    | error e => rw [ha, hb] at hm; simp at hm
    | ok b =>
      rw [ha, hb] at hm
      simp only [Except.ok.injEq] at hm
      subst hm
      have ca := const_columns order v y 0 rest ho a ha
      have cb := const_columns order v y 1 rest ho b hb
      have e : spodeFit [] (.disc sp :: rest) sp y smoothing =
          [⟨0, v, depPrior (y.count 0) y.length 1 smoothing, spodeColumn sp y v 0 (.disc sp) :: a⟩, ⟨1, v, depPrior (y.count 1) y.length 1 smoothing, spodeColumn sp y v 1 (.disc sp) :: b⟩] := by
        simp only [spodeFit, spodeEntries, sort_two h01 h0 h1, List.flatMap_cons, List.flatMap_nil, sp, const_unique v hn, List.map_cons, List.map_nil, ca, cb, const_select, const_select_self,
          List.length_replicate, List.length_singleton, List.nil_append, List.append_nil, List.cons_append]
      have f0 := const_factor fl v y hy 0 h0 smoothing
      have f1 := const_factor fl v y hy 1 h1 smoothing
      rw [e]
      simp only [spodePredict, allFactors, entryFactors, factors, sp, f0, f1, nbPredict]
      simp only [show ((1 : Int) = 0) = False by decide, show ((0 : Int) = 1) = False by decide, if_true, if_false]
      cases factors fl smoothing a x with
      | error e => simp
      | ok p0 =>
        cases factors fl smoothing b x with
        | error e => simp
        | ok p1 => simp only [List.append_nil, score_one, score_start]

/-- Naive Bayes itself refuses the constant attribute. -/
theorem C335_constant_refused (order : List V → List V) (v : V) (rest : List (Col V)) (y : List Int) (hy : y ≠ []) (smoothing : Bool) :
    nbFit order (.disc (List.replicate y.length v) :: rest) y smoothing = .error .indexError := by
  have hn : y.length ≠ 0 := fun h => hy (List.length_eq_zero_iff.1 h)
  obtain ⟨p0, p1, hp, -⟩ := C37_distribution y hy smoothing
  unfold nbFit
  rw [hp]
  simp only [List.mapM_cons, nbColumn, const_unique v hn, List.length_singleton, if_true]
  rfl

/-- The hypotheses hold: four samples, one attribute with two values. -/
example : ∃ m, nbFit (fun l => pyUnique l) [.disc ["a", "b", "b", "a"]] [0, 1, 1, 0] true = .ok m ∧ (0 : Int) ∈ [0, 1, 1, 0] ∧ (1 : Int) ∈ [0, 1, 1, 0] := by
  obtain ⟨m, hm⟩ := C80_fit_partial (fun l => pyUnique l) [.disc ["a", "b", "b", "a"]] [0, 1, 1, 0] (by decide) true (by
    intro l hl; simp at hl; subst hl; decide)
  exact ⟨m, hm, by decide, by decide⟩

end CML.Bayes
