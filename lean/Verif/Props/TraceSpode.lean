import Verif.Spec.TraceSpode
import Verif.Props.TraceGMM
import Verif.Props.Bayes
import Verif.Props.Spode

set_option linter.unusedSectionVars false
set_option linter.unusedSimpArgs false

/-!
# Properties C325, C326: histories of calls of the one-dependent estimators

semi_naive_bayes_classifiers.py:109-619.
-/

namespace CML.Failed
open Bayes

variable {V : Type} [DecidableEq V]

/-! ## Elements fitted with one value of `smoothing` -/

lemma ownFactors_uniform (fl : ℝ → ℝ) (s : Bool) (c : Int) (x : List (Cell V)) : ∀ es : List (Entry V),
    ownFactors fl c x (es.map fun e => (e, s)) = allFactors fl s c x es
  | [] => rfl
  | e :: es => by
    simp only [List.map_cons, ownFactors, allFactors, ownFactors_uniform fl s c x es]
    split
    · rcases entryFactors fl s e x with err | ps
      · rfl
      · rcases allFactors fl s c x es with err | qs <;> rfl
    · rfl

lemma answer_uniform (fl : ℝ → ℝ) (s : Bool) (x : List (Cell V)) (es : List (Entry V)) :
    answer fl (es.map fun e => (e, s)) x = spodePredict fl s es x := by
  simp only [answer, spodePredict, ownFactors_uniform]
  rcases allFactors fl s 0 x es with e | a <;> rcases allFactors fl s 1 x es with e' | b <;> rfl

lemma ownFactors_append (fl : ℝ → ℝ) (c : Int) (x : List (Cell V)) : ∀ (as bs : List (Flagged V)) (fa fb : List (Option ℝ)),
    ownFactors fl c x as = .ok fa → ownFactors fl c x bs = .ok fb → ownFactors fl c x (as ++ bs) = .ok (fa ++ fb)
  | [], bs, fa, fb, ha, hb => by
    simp only [ownFactors, Except.ok.injEq] at ha
    subst ha; simpa using hb
  | e :: as, bs, fa, fb, ha, hb => by
    simp only [List.cons_append, ownFactors] at ha ⊢
    by_cases hc : e.1.cat = c
    · rw [if_pos hc] at ha ⊢
      rcases h1 : entryFactors fl e.2 e.1 x with err | ps
      · rw [h1] at ha; simp at ha
      · rw [h1] at ha
        rcases h2 : ownFactors fl c x as with err | qs
        · rw [h2] at ha; simp at ha
        · rw [h2] at ha
          simp only [Except.ok.injEq] at ha
          simp only [ownFactors_append fl c x as bs qs fb h2 hb]
          rw [← ha, List.append_assoc]
    · rw [if_neg hc] at ha ⊢
      exact ownFactors_append fl c x as bs fa fb ha hb

/-! ## SuperParentOneDependentEstimator -/

section spode
variable (emb : List ℝ → List V) (names : List String)

/-- What `fit` does. -/
lemma sp_fit (o : SPState V) (cols : List (Col V)) (y : List Int) :
    (o.fit emb names cols y).1.superName = o.superName ∧ (o.fit emb names cols y).1.smoothing = o.smoothing ∧ (o.fit emb names cols y).1.loaded = o.loaded ∧
    ((o.fit emb names cols y).2 = none → (o.fit emb names cols y).1.trained = true) ∧
    ((o.fit emb names cols y).2 ≠ none → (o.fit emb names cols y).1.trained = o.trained ∧ (o.fit emb names cols y).1.entries = o.entries) := by
  unfold SPState.fit
  split
  · simp
  · dsimp only
    split
    · simp
    · split
      · simp
      · split <;> simp

lemma sp_load (o : SPState V) (n : Option String) (s : Option Bool) (es : Option (List (Flagged V))) :
    (o.load n s es).1.trained = o.trained ∧ (o.load n s es).1.superIndex = o.superIndex ∧ ((o.load n s es).2 = none → (o.load n s es).1.loaded = true) ∧
    ((o.load n s es).2 ≠ none → (o.load n s es).1.loaded = o.loaded ∧ (o.load n s es).1.entries = o.entries) := by
  match n, s, es with
  | none, _, _ => simp [SPState.load]
  | some n, none, _ => simp [SPState.load]
  | some n, some s, none => simp [SPState.load]
  | some n, some s, some es => simp [SPState.load]

/-- Able to predict. -/
def SPState.Able (o : SPState V) : Prop := o.trained = true ∨ o.loaded = true

lemma sp_step (o : SPState V) (c : SPCall V) :
    ((o.step emb names c).1.Able ↔ o.Able ∨ (c.trains ∧ (o.step emb names c).2 = none)) ∧ True := by
  refine ⟨?_, trivial⟩
  cases c with
  | compile n s => simp [SPState.step, SPState.Able, SPCall.trains]
  | badFile e => simp [SPState.step, SPState.Able, SPCall.trains]
  | fit cols y =>
    obtain ⟨-, -, h1, h2, h3⟩ := sp_fit emb names o cols y
    simp only [SPState.step, SPState.Able, SPCall.trains, true_and]
    by_cases h : (o.fit emb names cols y).2 = none
    · simp [h2 h, h]
    · simp [(h3 h).1, h1, h]
  | load n s es =>
    obtain ⟨h1, -, h2, h3⟩ := sp_load o n s es
    simp only [SPState.step, SPState.Able, SPCall.trains, true_and]
    by_cases h : (o.load n s es).2 = none
    · simp [h2 h, h]
    · simp [(h3 h).1, h1, h]

lemma sp_ready (h : List (SPCall V)) : (run (SPState.step emb names) {} h).Able ↔ SPReady emb names h := by
  have := (able_run (SPState.step emb names) SPState.Able (fun _ => True) (fun o c => c.trains ∧ (o.step emb names c).2 = none)
    (fun o c _ => sp_step emb names o c) h {} trivial).2
  rw [this]
  constructor
  · rintro (h | h)
    · simp [SPState.Able] at h
    · exact h
  · exact .inr

/-- **C325** (SuperParentOneDependentEstimator). After any sequence of `compile`, `fit` and `load_weights` calls, some of which may have raised: if no call of `fit` or `load_weights` has
completed, `predict` raises `ValueError` for every row; if one has, `predict` answers every row from the elements it has stored. -/
theorem C325_spode (fl : ℝ → ℝ) (h : List (SPCall V)) (x : List (Cell V)) :
    (¬SPReady emb names h → (run (SPState.step emb names) {} h).predict fl names x = .error .valueError) ∧
    (SPReady emb names h → x.length = names.length →
      (run (SPState.step emb names) {} h).predict fl names x = answer fl (run (SPState.step emb names) {} h).entries x) := by
  constructor
  · intro hn
    rw [← sp_ready, SPState.Able] at hn
    push Not at hn
    unfold SPState.predict
    rw [if_pos ⟨by simpa using hn.1, by simpa using hn.2⟩]
  · intro hr hx
    rw [← sp_ready, SPState.Able] at hr
    unfold SPState.predict
    rw [if_neg, if_neg (by simp [hx])]
    rintro ⟨h1, h2⟩
    rcases hr with hr | hr <;> simp_all

/-- **C325** `fit` on a table with as many columns as names, whose super-parent was compiled and is one of the (distinct) names, completes, whatever happened before. -/
theorem C325_spode_fit (h : List (SPCall V)) (n : String) (s : Bool) (hn : n ∈ names) (hd : names.Nodup) (cols : List (Col V)) (hc : cols.length = names.length) (y : List Int) :
    ((run (SPState.step emb names) {} (h ++ [.compile n s])).fit emb names cols y).2 = none := by
  rw [run_append]
  generalize run (SPState.step emb names) {} h = o
  obtain ⟨i, hi⟩ := List.mem_iff_getElem?.mp hn
  have hf := findIndex_mem n names o.superIndex 0 i hd hi
  rw [Nat.zero_add] at hf
  have hlt : i < cols.length := by rw [hc]; exact (List.getElem?_eq_some_iff.mp hi).1
  simp only [run, SPState.step, SPState.fit]
  rw [if_neg (by simp [hc])]
  split
  · rfl
  · simp only [hf, List.getElem?_eq_getElem hlt]

/-! ### What is stored -/

/-- Nothing has been stored and no super-parent been found. -/
def SPState.Blank (o : SPState V) : Prop := o.entries = [] ∧ o.superIndex = none ∧ o.trained = false ∧ o.loaded = false

lemma findIndex_le (name : Option String) (old : Option Nat) (j : Nat) : ∀ (l : List String) (k : Nat), findIndex name old l k = some j → old = some j ∨ (j < k + l.length)
  | [], k, h => .inl h
  | c :: cs, k, h => by
    rw [findIndex] at h
    rcases findIndex_le name _ j cs (k + 1) h with h1 | h1
    · split at h1
      · injection h1 with h1
        subst h1; right; simp
      · exact .inl h1
    · right; simp only [List.length_cons]; omega

lemma sp_blank_step (o : SPState V) (c : SPCall V) (hb : o.Blank) (hf : ¬(c.trains ∧ (o.step emb names c).2 = none)) : (o.step emb names c).1.Blank := by
  obtain ⟨h1, h2, h3, h4⟩ := hb
  cases c with
  | compile n s => exact ⟨h1, h2, h3, h4⟩
  | badFile e => exact ⟨h1, h2, h3, h4⟩
  | fit cols y =>
    have hne : (o.fit emb names cols y).2 ≠ none := fun he => hf ⟨trivial, he⟩
    obtain ⟨-, -, g1, -, g3⟩ := sp_fit emb names o cols y
    refine ⟨(g3 hne).2.trans h1, ?_, (g3 hne).1.trans h3, g1.trans h4⟩
    simp only [SPState.step]
    revert hne
    unfold SPState.fit
    split
    · exact fun _ => h2
    · rename_i hlen
      dsimp only
      split
      · simp
      · split
        · rename_i hi
          exact fun _ => hi
        · rename_i k hi
          have : k < cols.length := by
            rcases findIndex_le _ _ _ _ _ hi with h | h
            · rw [h2] at h; cases h
            · simp only [ne_eq, not_not] at hlen; omega
          rw [List.getElem?_eq_getElem this]
          simp
  | load n s es =>
    have hne : (o.load n s es).2 ≠ none := fun he => hf ⟨trivial, he⟩
    obtain ⟨g1, g2, -, g3⟩ := sp_load o n s es
    exact ⟨(g3 hne).2.trans h1, g2.trans h2, g1.trans h3, (g3 hne).1.trans h4⟩

lemma sp_blank : ∀ (h : List (SPCall V)) (o : SPState V), o.Blank →
    (¬∃ pre c post, h = pre ++ c :: post ∧ c.trains ∧ ((run (SPState.step emb names) o pre).step emb names c).2 = none) → (run (SPState.step emb names) o h).Blank
  | [], _, hb, _ => hb
  | c :: h, o, hb, hn => by
    refine sp_blank h _ (sp_blank_step emb names o c hb fun hc => hn ⟨[], c, h, rfl, hc.1, hc.2⟩) ?_
    rintro ⟨pre, c', post, rfl, h1, h2⟩
    exact hn ⟨c :: pre, c', post, rfl, h1, h2⟩

/-- **C326** (first training). As long as no `fit` and no `load_weights` has completed, the attempts leave no trace: `compile` and `fit` give an estimator that answers every row as a
new instance compiled and fitted that way does. Missing: the same after completed calls, which is false (`C326_spode_fit_adds`). -/
theorem C326_spode_first_partial (fl : ℝ → ℝ) (h : List (SPCall V)) (hn : ¬SPReady emb names h) (n : String) (s : Bool) (cols : List (Col V)) (y : List Int) (x : List (Cell V)) :
    (run (SPState.step emb names) {} (h ++ [.compile n s, .fit cols y])).predict fl names x =
      (run (SPState.step emb names) {} [.compile n s, .fit cols y]).predict fl names x := by
  rw [run_append]
  have hb := sp_blank emb names h {} ⟨rfl, rfl, rfl, rfl⟩ hn
  generalize run (SPState.step emb names) {} h = o at hb ⊢
  obtain ⟨h1, h2, h3, h4⟩ := hb
  obtain ⟨a, b, c, d, e, f⟩ := o
  simp only at h1 h2 h3 h4
  subst h1 h2 h3 h4
  rfl

/-- **C326** (loading). After `load_weights` of a complete file the estimator answers every row as a new instance that loaded the file, whatever happened before. -/
theorem C326_spode_load_partial (fl : ℝ → ℝ) (h : List (SPCall V)) (n : String) (s : Bool) (es : List (Flagged V)) (x : List (Cell V)) :
    (run (SPState.step emb names) {} (h ++ [.load (some n) (some s) (some es)])).predict fl names x =
      (run (SPState.step emb names) {} [.load (some n) (some s) (some es)]).predict fl names x := by
  rw [run_append]
  simp [run, SPState.step, SPState.load, SPState.predict]

/-- **C326** (compiling). Compiling anew does not change the answers: every stored attribute keeps the smoothing it was fitted with. -/
theorem C326_spode_compile (fl : ℝ → ℝ) (h : List (SPCall V)) (n : String) (s : Bool) (x : List (Cell V)) :
    (run (SPState.step emb names) {} (h ++ [.compile n s])).predict fl names x = (run (SPState.step emb names) {} h).predict fl names x := by
  rw [run_append]
  rfl

/-- **C326** (violated). A completed `fit` only adds to what is stored: after `compile n`, `fit`, where `n` is the `i`-th of the distinct names, the estimator holds what it held before
the call, followed by what this call makes of the `i`-th column. -/
theorem C326_spode_fit_adds (h : List (SPCall V)) (n : String) (s : Bool) (hd : names.Nodup) (i : Nat) (hi : names[i]? = some n) (cols : List (Col V)) (hc : cols.length = names.length)
    (c : Col V) (hci : cols[i]? = some c) (y : List Int) (hy : y ≠ []) :
    (run (SPState.step emb names) {} (h ++ [.compile n s, .fit cols y])).entries =
      (run (SPState.step emb names) {} h).entries ++ madeBy cols (superValues emb c) y s := by
  rw [run_append]
  generalize run (SPState.step emb names) {} h = o
  have hf := findIndex_mem n names o.superIndex 0 i hd hi
  rw [Nat.zero_add] at hf
  simp only [run, SPState.step, SPState.fit]
  rw [if_neg (by simp [hc]), if_neg hy]
  simp only [hf, hci]

/-- **C326** (violated). Compiling a name that the data does not have does not make the next `fit` fail: it uses the column of the super-parent of the previous `fit`, which a new
estimator would refuse with `ValueError`. -/
theorem C326_spode_stale (h : List (SPCall V)) (n : String) (s : Bool) (hd : names.Nodup) (i : Nat) (hi : names[i]? = some n) (cols cols' : List (Col V))
    (hc : cols.length = names.length) (hc' : cols'.length = names.length) (c : Col V) (hci : cols'[i]? = some c) (y y' : List Int) (hy' : y' ≠ []) (n' : String) (s' : Bool)
    (hn : n' ∉ names) :
    (run (SPState.step emb names) {} (h ++ [.compile n s, .fit cols y, .compile n' s', .fit cols' y'])).entries =
      (run (SPState.step emb names) {} (h ++ [.compile n s, .fit cols y])).entries ++ madeBy cols' (superValues emb c) y' s' ∧
    ((run (SPState.step emb names) {} [.compile n' s']).fit emb names cols' y').2 = some .valueError := by
  rw [show h ++ [.compile n s, .fit cols y, .compile n' s', .fit cols' y'] = (h ++ [.compile n s, .fit cols y]) ++ [.compile n' s', .fit cols' y'] by simp, run_append]
  have hnot : ∀ old, findIndex (some n') old names 0 = old := fun old => findIndex_not_mem (some n') names old 0 (fun c hc e => hn (by simp at e; rw [e]; exact hc))
  have key : (run (SPState.step emb names) {} (h ++ [.compile n s, .fit cols y])).superIndex = some i := by
    rw [run_append]
    generalize run (SPState.step emb names) {} h = o
    have hf := findIndex_mem n names o.superIndex 0 i hd hi
    rw [Nat.zero_add] at hf
    simp only [run, SPState.step, SPState.fit]
    rw [if_neg (by simp [hc])]
    split
    · exact hf
    · have hlt : i < cols.length := by rw [hc]; exact (List.getElem?_eq_some_iff.1 hi).1
      simp only [hf, List.getElem?_eq_getElem hlt]
  generalize run (SPState.step emb names) {} (h ++ [.compile n s, .fit cols y]) = o at key ⊢
  constructor
  · simp only [run, SPState.step, SPState.fit]
    rw [if_neg (by simp [hc']), if_neg hy']
    simp only [hnot, key, hci]
  · simp only [run, SPState.step, SPState.fit]
    rw [if_neg (by simp [hc']), if_neg hy']
    simp only [hnot]

/-- The hypotheses hold: the name "q" is unknown. -/
example : (["n", "m"] : List String).Nodup ∧ (["n", "m"] : List String)[1]? = some "m" ∧ "q" ∉ (["n", "m"] : List String) := by decide

/-- **C326** (violated). Without a load nothing stored is ever dropped: the elements after a history without completed loads begin with those of every earlier moment. -/
theorem C326_spode_never_drops (h h' : List (SPCall V)) (hk : ∀ c ∈ h', c.keeps) :
    (run (SPState.step emb names) {} h).entries <+: (run (SPState.step emb names) {} (h ++ h')).entries := by
  rw [run_append]
  generalize run (SPState.step emb names) {} h = o
  induction h' generalizing o with
  | nil => exact List.prefix_rfl
  | cons c h' ih =>
    refine List.IsPrefix.trans ?_ (ih (fun c' hc' => hk c' (List.mem_cons_of_mem _ hc')) (o.step emb names c).1)
    have hc := hk c (List.mem_cons_self ..)
    cases c with
    | compile n s => exact List.prefix_rfl
    | badFile e => exact List.prefix_rfl
    | fit cols y =>
      simp only [SPState.step, SPState.fit]
      split
      · exact List.prefix_rfl
      · split
        · exact List.prefix_rfl
        · split
          · exact List.prefix_rfl
          · split
            · exact List.prefix_rfl
            · exact List.prefix_append ..
    | load n s es =>
      match n, s, es with
      | none, _, _ => exact List.prefix_rfl
      | some n, none, _ => exact List.prefix_rfl
      | some n, some s, none => exact List.prefix_rfl
      | some n, some s, some es => exact absurd hc id

end spode

/-- **C326** (violated). An estimator fitted on three rows and then on two answers `"a"` by 0; a new one fitted on the two rows by 1; the same if the three rows came from a file. -/
theorem C326_spode_witness (emb : List ℝ → List String) (fl : ℝ → ℝ) :
    let A : SPCall String := .fit [.disc ["a", "a", "a"]] [0, 0, 1]
    let B : SPCall String := .fit [.disc ["a", "a"]] [0, 1]
    (run (SPState.step emb ["n"]) {} [.compile "n" true, B]).predict fl ["n"] [.disc "a"] = .ok 1 ∧
    (run (SPState.step emb ["n"]) {} [.compile "n" true, A, B]).predict fl ["n"] [.disc "a"] = .ok 0 ∧
    (run (SPState.step emb ["n"]) {} [.load (some "n") (some true) (some (madeBy [.disc ["a", "a", "a"]] ["a", "a", "a"] [0, 0, 1] true)), B]).predict fl ["n"] [.disc "a"] = .ok 0 := by
  intro A B
  obtain ⟨w1, w2⟩ := C43_witness fl
  have e1 : (run (SPState.step emb ["n"]) {} [.compile "n" true, B]).predict fl ["n"] [.disc "a"] =
      answer fl ((spodeFit [] [.disc ["a", "a"]] ["a", "a"] [0, 1] true).map fun e => (e, true)) [.disc "a"] := rfl
  have e2 : (run (SPState.step emb ["n"]) {} [.compile "n" true, A, B]).predict fl ["n"] [.disc "a"] =
      answer fl ((spodeFit (spodeFit [] [.disc ["a", "a", "a"]] ["a", "a", "a"] [0, 0, 1] true) [.disc ["a", "a"]] ["a", "a"] [0, 1] true).map fun e => (e, true)) [.disc "a"] := rfl
  have e3 : (run (SPState.step emb ["n"]) {} [.load (some "n") (some true) (some (madeBy [.disc ["a", "a", "a"]] ["a", "a", "a"] [0, 0, 1] true)), B]).predict fl ["n"] [.disc "a"] =
      answer fl ((spodeFit (spodeFit [] [.disc ["a", "a", "a"]] ["a", "a", "a"] [0, 0, 1] true) [.disc ["a", "a"]] ["a", "a"] [0, 1] true).map fun e => (e, true)) [.disc "a"] := rfl
  rw [e1, e2, e3, answer_uniform, answer_uniform]
  exact ⟨w1, w2, w2⟩

/-! ## AveragedOneDependentEstimator -/

section aode
variable (names : List String)

lemma ao_fit (o : AOState V) (cols : List (Col V)) (y : List Int) :
    (o.fit names cols y).1.loaded = o.loaded ∧ ((o.fit names cols y).2 = none → (o.fit names cols y).1.trained = true) ∧
    ((o.fit names cols y).2 ≠ none → (o.fit names cols y).1.trained = o.trained ∧ (o.fit names cols y).1.pool = o.pool) := by
  unfold AOState.fit
  split <;> simp

lemma ao_load (o : AOState V) (s : Option Bool) (m : Option Nat) (a : Option (List (List (Flagged V)))) :
    (o.load s m a).1.trained = o.trained ∧ (o.load s m a).1.pool = o.pool ∧ ((o.load s m a).2 = none → (o.load s m a).1.loaded = true) ∧
    ((o.load s m a).2 ≠ none → (o.load s m a).1.loaded = o.loaded) := by
  match s, m, a with
  | none, _, _ => simp [AOState.load]
  | some s, none, _ => simp [AOState.load]
  | some s, some m, none => simp [AOState.load]
  | some s, some m, some a => simp [AOState.load]

/-- Able to predict. -/
def AOState.Able (o : AOState V) : Prop := o.trained = true ∨ o.loaded = true

lemma ao_step (o : AOState V) (c : AOCall V) :
    ((o.step names c).1.Able ↔ o.Able ∨ (c.trains ∧ (o.step names c).2 = none)) ∧ True := by
  refine ⟨?_, trivial⟩
  cases c with
  | compile s m => simp [AOState.step, AOState.Able, AOCall.trains]
  | badFile e => simp [AOState.step, AOState.Able, AOCall.trains]
  | fit cols y =>
    obtain ⟨h1, h2, h3⟩ := ao_fit names o cols y
    simp only [AOState.step, AOState.Able, AOCall.trains, true_and]
    by_cases h : (o.fit names cols y).2 = none
    · simp [h2 h, h]
    · simp [(h3 h).1, h1, h]
  | load s m a =>
    obtain ⟨h1, -, h2, h3⟩ := ao_load o s m a
    simp only [AOState.step, AOState.Able, AOCall.trains, true_and]
    by_cases h : (o.load s m a).2 = none
    · simp [h2 h, h]
    · simp [h3 h, h1, h]

lemma ao_ready (h : List (AOCall V)) : (run (AOState.step names) {} h).Able ↔ AOReady names h := by
  have := (able_run (AOState.step names) AOState.Able (fun _ => True) (fun o c => c.trains ∧ (o.step names c).2 = none)
    (fun o c _ => ao_step names o c) h {} trivial).2
  rw [this]
  constructor
  · rintro (h | h)
    · simp [AOState.Able] at h
    · exact h
  · exact .inr

/-- **C325** (AveragedOneDependentEstimator). The same: `ValueError` iff no `fit` and no `load_weights` has completed. -/
theorem C325_aode (fl : ℝ → ℝ) (num : V → Option ℝ) (h : List (AOCall V)) (x : List (Cell V)) :
    (¬AOReady names h → (run (AOState.step names) {} h).predict fl num names x = .error .valueError) ∧
    (AOReady names h → x.length = names.length → (run (AOState.step names) {} h).predict fl num names x =
      answer fl ((List.range (run (AOState.step names) {} h).attr.length).flatMap (usedBy num (run (AOState.step names) {} h).attr x)) x) := by
  constructor
  · intro hn
    rw [← ao_ready, AOState.Able] at hn
    push Not at hn
    unfold AOState.predict
    rw [if_pos ⟨by simpa using hn.1, by simpa using hn.2⟩]
  · intro hr hx
    rw [← ao_ready, AOState.Able] at hr
    unfold AOState.predict
    rw [if_neg, if_neg (by simp [hx])]
    rintro ⟨h1, h2⟩
    rcases hr with hr | hr <;> simp_all

/-- **C325** (rows of the wrong width). Whatever the history, a row whose length is not the number of attribute names is refused with `ValueError` by both estimators. -/
theorem C325_width (fl : ℝ → ℝ) (num : V → Option ℝ) (o : SPState V) (o' : AOState V) (x : List (Cell V)) (hx : x.length ≠ names.length) :
    o.predict fl names x = .error .valueError ∧ o'.predict fl num names x = .error .valueError := by
  constructor
  · unfold SPState.predict; split <;> rfl
  · unfold AOState.predict; split <;> rfl

/-- **C325** (which elements an averaged estimator uses). For the `i`-th member of `_attribute_list`: all its elements made for the row's value of attribute `i`, in their order, and no
others. -/
theorem C325_aode_elements (num : V → Option ℝ) (attr : List (List (Flagged V))) (x : List (Cell V)) (i : Nat) (es : List (Flagged V)) (c : Cell V) (he : attr[i]? = some es)
    (hc : x[i]? = some c) :
    (usedBy num attr x i).Sublist es ∧ (∀ e, e ∈ usedBy num attr x i ↔ e ∈ es ∧ c.is num e.1.value = true) ∧
    (usedBy num attr x i).length = es.countP fun e => c.is num e.1.value := by
  have h : usedBy num attr x i = es.filter fun e => c.is num e.1.value := by simp only [usedBy, he, hc]
  rw [h]
  exact ⟨List.filter_sublist, fun e => List.mem_filter, List.countP_eq_length_filter.symm⟩

lemma ao_pool : ∀ (h : List (AOCall V)) (o : AOState V), o.pool = [] →
    (¬∃ pre c post, h = pre ++ c :: post ∧ c.fits ∧ ((run (AOState.step names) o pre).step names c).2 = none) → (run (AOState.step names) o h).pool = []
  | [], _, hb, _ => hb
  | c :: h, o, hb, hn => by
    refine ao_pool h _ ?_ ?_
    · cases c with
      | compile s m => exact hb
      | badFile e => exact hb
      | fit cols y => exact ((ao_fit names o cols y).2.2 fun he => hn ⟨[], _, h, rfl, trivial, he⟩).2.trans hb
      | load s m a => exact (ao_load o s m a).2.1.trans hb
    · rintro ⟨pre, c', post, rfl, h1, h2⟩
      exact hn ⟨c :: pre, c', post, rfl, h1, h2⟩

/-- **C326** (first `fit` of an averaged estimator). As long as no `fit` has completed — loads may have — `compile` and a completing `fit` give the answers of a new instance. Missing:
the same after a completed `fit`, which is false (`C326_aode_fit_adds`). -/
theorem C326_aode_first_partial (fl : ℝ → ℝ) (num : V → Option ℝ) (h : List (AOCall V)) (hn : ¬AOFitted names h) (s : Bool) (m : Nat) (cols : List (Col V))
    (hc : cols.length = names.length) (y : List Int) (x : List (Cell V)) :
    (run (AOState.step names) {} (h ++ [.compile s m, .fit cols y])).predict fl num names x =
      (run (AOState.step names) {} [.compile s m, .fit cols y]).predict fl num names x := by
  rw [run_append]
  have hp := ao_pool names h {} rfl hn
  generalize run (AOState.step names) {} h = o at hp ⊢
  obtain ⟨a, b, c, d, e, f⟩ := o
  simp only at hp
  subst hp
  simp only [run, AOState.step, AOState.fit]
  rw [if_neg (by simp [hc]), if_neg (by simp [hc])]
  simp [AOState.predict]

/-- **C326** (loading). After `load_weights` of a complete file the averaged estimator answers as a new instance that loaded the file. -/
theorem C326_aode_load_partial (fl : ℝ → ℝ) (num : V → Option ℝ) (h : List (AOCall V)) (s : Bool) (m : Nat) (a : List (List (Flagged V))) (x : List (Cell V)) :
    (run (AOState.step names) {} (h ++ [.load (some s) (some m) (some a)])).predict fl num names x =
      (run (AOState.step names) {} [.load (some s) (some m) (some a)]).predict fl num names x := by
  rw [run_append]
  simp [run, AOState.step, AOState.load, AOState.predict]

lemma pool_foldl (cols : List (Col V)) (y : List Int) (s : Bool) : ∀ (sps : List (List V)) (old : List (Flagged V)),
    sps.foldl (fun acc sp => acc ++ madeBy cols sp y s) old = old ++ sps.flatMap fun sp => madeBy cols sp y s
  | [], old => by simp
  | sp :: sps, old => by rw [List.foldl_cons, pool_foldl cols y s sps]; simp

/-- **C326** (violated). A completed `fit` of an averaged estimator answers from everything that any completed `fit` of the instance has ever made: each of its members is the list of
all elements so far, followed by those of all super-parents of this table. -/
theorem C326_aode_fit_adds (h : List (AOCall V)) (s : Bool) (m : Nat) (cols : List (Col V)) (hc : cols.length = names.length) (y : List Int) (es : List (Flagged V))
    (hes : es ∈ (run (AOState.step names) {} (h ++ [.compile s m, .fit cols y])).attr) :
    es = (run (AOState.step names) {} h).pool ++ (superParents m cols).flatMap fun sp => madeBy cols sp y s := by
  rw [run_append] at hes
  simp only [run, AOState.step, AOState.fit] at hes
  rw [if_neg (by simp [hc]), pool_foldl] at hes
  exact (List.mem_replicate.mp hes).2

/-- **C326** (violated). A `fit` that is refused because of the number of columns leaves an averaged estimator that was able to predict answering 1 for every row. -/
theorem C326_aode_failed_fit (fl : ℝ → ℝ) (num : V → Option ℝ) (h : List (AOCall V)) (hr : AOReady names h) (cols : List (Col V)) (hc : cols.length ≠ names.length) (y : List Int)
    (x : List (Cell V)) (hx : x.length = names.length) :
    ((run (AOState.step names) {} h).fit names cols y).2 = some .valueError ∧
    (run (AOState.step names) {} (h ++ [.fit cols y])).predict fl num names x = .ok 1 := by
  have hr' : AOReady names (h ++ [.fit cols y]) := by
    obtain ⟨pre, c, post, rfl, h1, h2⟩ := hr
    exact ⟨pre, c, post ++ [.fit cols y], by simp, h1, h2⟩
  refine ⟨by simp [AOState.fit, hc], ?_⟩
  rw [(C325_aode names fl num _ x).2 hr' hx]
  have : (run (AOState.step names) {} (h ++ [.fit cols y])).attr = [] := by
    rw [run_append]
    simp [run, AOState.step, AOState.fit, hc]
  rw [this]
  simp [answer, ownFactors, score, label]

end aode

/-- A trained averaged estimator answers 0; the refused `fit` makes it answer 1. -/
theorem C326_aode_witness (fl : ℝ → ℝ) (num : String → Option ℝ) :
    let A : AOCall String := .fit [.disc ["a", "a", "a"]] [0, 0, 1]
    (run (AOState.step ["n"]) {} [.compile true 0, A]).predict fl num ["n"] [.disc "a"] = .ok 0 ∧
    (run (AOState.step ["n"]) {} [.compile true 0, A, .fit [] [0]]).predict fl num ["n"] [.disc "a"] = .ok 1 := by
  intro A
  have hr : AOReady ["n"] [.compile true 0, A] := ⟨[.compile true 0], A, [], rfl, trivial, rfl⟩
  refine ⟨?_, (C326_aode_failed_fit ["n"] fl num [.compile true 0, A] hr [] (by simp) [0] [.disc "a"] rfl).2⟩
  have e : (run (AOState.step ["n"]) {} [.compile true 0, A]).predict fl num ["n"] [.disc "a"] =
      answer fl ((spodeFit [] [.disc ["a", "a", "a"]] ["a", "a", "a"] [0, 0, 1] true).map fun e => (e, true)) [.disc "a"] := rfl
  rw [e, answer_uniform]
  have h0 : allFactors fl true 0 [.disc "a"] (spodeFit [] [.disc ["a", "a", "a"]] ["a", "a", "a"] [0, 0, 1] true) = .ok ([ratio 3 5, ratio 3 3].map some) := rfl
  have h1 : allFactors fl true 1 [.disc "a"] (spodeFit [] [.disc ["a", "a", "a"]] ["a", "a", "a"] [0, 0, 1] true) = .ok ([ratio 2 5, ratio 2 2].map some) := rfl
  rw [spode_label fl true _ _ _ _ h0 h1]
  · norm_num [ratio]
  all_goals (intro p hp; simp [ratio] at hp; rcases hp with rfl | rfl <;> norm_num)

/-- Non-vacuity of C325 and C326: a history with a refused `fit`, an incomplete file and a bad file, after which nothing is ready. -/
example (emb : List ℝ → List String) : ¬SPReady emb ["n"] [.compile "m" true, .fit [.disc ["a"]] [0], .load (some "n") none none, .badFile .ioError, .fit [] [0]] := by
  rw [← sp_ready]
  simp [SPState.Able, run, SPState.step, SPState.fit, SPState.load, findIndex]

end CML.Failed
