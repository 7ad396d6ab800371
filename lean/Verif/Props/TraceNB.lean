import Verif.Spec.TraceNB
import Verif.Props.Trace
import Verif.Props.FailedFit2

set_option linter.unusedSectionVars false

/-!
# Properties C314, C315: histories of calls of a naive Bayes classifier

naive_bayes_classifier.py:33-277.
-/

namespace CML.Failed
open Bayes

variable {V : Type} [DecidableEq V] (order : List V → List V) (names : List String)

lemma nbLoop_flags (y : List Int) : ∀ (table : List (String × Col V)) (o : NBObj V), (NBObj.loop order y table o).1.trained = o.trained ∧
    (NBObj.loop order y table o).1.loaded = o.loaded ∧ (NBObj.loop order y table o).1.prior = o.prior
  | [], _ => ⟨rfl, rfl, rfl⟩
  | (name, col) :: table, o => by
    simp only [NBObj.loop]
    rcases nbColumn_both order y col with ⟨a, b, ha, hb⟩ | ⟨ha, hb⟩
    · rw [ha, hb]
      exact nbLoop_flags y table _
    · rw [ha, hb]
      exact ⟨rfl, rfl, rfl⟩

lemma nbLoop_err (y : List Int) : ∀ (table : List (String × Col V)) (o o' : NBObj V),
    (NBObj.loop order y table o).2 = (NBObj.loop order y table o').2 ∧ ((NBObj.loop order y table o).2 = none → ∀ c ∈ table, ¬ Constant c.2)
  | [], _, _ => ⟨rfl, by simp⟩
  | (name, col) :: table, o, o' => by
    simp only [NBObj.loop]
    by_cases hc : Constant col
    · rw [(nbColumn_const order y 0 col).1 hc, (nbColumn_const order y 1 col).1 hc]
      exact ⟨rfl, fun h => by simp at h⟩
    · obtain ⟨a, ha⟩ := (nbColumn_const order y 0 col).2 hc
      obtain ⟨b, hb⟩ := (nbColumn_const order y 1 col).2 hc
      rw [ha, hb]
      obtain ⟨h1, h2⟩ := nbLoop_err y table { o with pi0 := Dict.set o.pi0 name a, pi1 := Dict.set o.pi1 name b }
        { o' with pi0 := Dict.set o'.pi0 name a, pi1 := Dict.set o'.pi1 name b }
      refine ⟨h1, fun h c hcm => ?_⟩
      rcases List.mem_cons.1 hcm with rfl | hcm
      · exact hc
      · exact h2 h c hcm

lemma nbFit_flags (s : Bool) (o : NBObj V) (table : List (String × Col V)) (y : List Int) :
    (o.fit order s table y).1.loaded = o.loaded ∧ ((o.fit order s table y).2 = none → (o.fit order s table y).1.trained = true ∧ (o.fit order s table y).1.prior ≠ none) ∧
    ((o.fit order s table y).2 ≠ none → (o.fit order s table y).1.trained = o.trained) ∧ (o.prior ≠ none → (o.fit order s table y).1.prior ≠ none) := by
  unfold NBObj.fit
  cases Bayes.prior y.length y s with
  | error e => simp
  | ok p =>
    dsimp only
    obtain ⟨h1, h2, h3⟩ := nbLoop_flags order y table { o with prior := some p }
    rcases hl : NBObj.loop order y table { o with prior := some p } with ⟨o', _ | e⟩ <;> rw [hl] at h1 h2 h3 <;> simp_all

/-- Able to predict. -/
def NBState.Able (o : NBState V) : Prop := o.obj.trained = true ∨ o.obj.loaded = true

lemma nb_step_able (o : NBState V) (c : NBCall V) : ((o.step order names c).1.Able ↔ o.Able ∨ (c.trains ∧ (o.step order names c).2 = none)) := by
  cases c with
  | compile s => simp [NBState.step, NBState.Able, NBCall.trains]
  | fit cols y =>
    simp only [NBState.step, NBCall.trains, true_and]
    split
    · simp
    · obtain ⟨h1, h2, h3, -⟩ := nbFit_flags order o.smoothing o.obj (names.zip cols) y
      simp only [NBState.Able, h1]
      by_cases hc : (o.obj.fit order o.smoothing (names.zip cols) y).2 = none
      · simp [hc, (h2 hc).1]
      · simp [hc, h3 hc]
  | load s p d0 d1 => simp [NBState.step, NBState.Able, NBCall.trains]
  | incomplete s p d => cases s <;> cases p <;> cases d <;> simp [NBState.step, NBState.incomplete, NBState.Able, NBCall.trains]
  | badFile e => simp [NBState.step, NBState.Able, NBCall.trains]

lemma nb_able : ∀ (h : List (NBCall V)) (o : NBState V), (run (NBState.step order names) o h).Able ↔ o.Able ∨
    ∃ pre c post, h = pre ++ c :: post ∧ c.trains ∧ ((run (NBState.step order names) o pre).step order names c).2 = none
  | [], o => by simp [run]
  | c :: h, o => by
    rw [run, nb_able h, nb_step_able]
    constructor
    · rintro ((h1 | ⟨h1, h2⟩) | ⟨pre, c', post, rfl, h1, h2⟩)
      · exact .inl h1
      · exact .inr ⟨[], c, h, rfl, h1, h2⟩
      · exact .inr ⟨c :: pre, c', post, rfl, h1, h2⟩
    · rintro (h1 | ⟨pre, c', post, he, h1, h2⟩)
      · exact .inl (.inl h1)
      · cases pre with
        | nil => cases he; exact .inl (.inr ⟨h1, h2⟩)
        | cons p pre => cases he; exact .inr ⟨pre, c', post, rfl, h1, h2⟩

/-- A classifier able to predict has class probabilities. -/
def NBState.Sound (o : NBState V) : Prop := o.Able → o.obj.prior ≠ none

lemma nb_sound_step (o : NBState V) (c : NBCall V) (h : o.Sound) : (o.step order names c).1.Sound := by
  cases c with
  | compile s => exact h
  | fit cols y =>
    simp only [NBState.step]
    split
    · exact h
    · obtain ⟨h1, h2, h3, h4⟩ := nbFit_flags order o.smoothing o.obj (names.zip cols) y
      intro ha
      by_cases hc : (o.obj.fit order o.smoothing (names.zip cols) y).2 = none
      · exact (h2 hc).2
      · refine h4 (h ?_)
        simpa only [NBState.Able, h1, h3 hc] using ha
  | load s p d0 d1 => intro _; simp [NBState.step]
  | incomplete s p d =>
    cases s with
    | none => exact h
    | some s =>
      cases p with
      | none => exact h
      | some p => cases d <;> intro _ <;> simp [NBState.step, NBState.incomplete]
  | badFile e => exact h

lemma nb_sound : ∀ (h : List (NBCall V)) (o : NBState V), o.Sound → (run (NBState.step order names) o h).Sound
  | [], _, hs => hs
  | c :: h, o, hs => nb_sound h _ (nb_sound_step order names o c hs)

/-- C314: after any history of calls, completed or not, `predict` refuses (`ValueError`) exactly as long as no `fit` and no `load_weights` completed; afterwards the class
probabilities are always there, whatever failed later, and the answer is computed from them and the entries of the named attributes. -/
theorem C314_ready (fl : ℝ → ℝ) (h : List (NBCall V)) (x : List (Cell V)) :
    (¬ NBReady order names h → (run (NBState.step order names) {} h).predict fl names x = .error .valueError) ∧
    (NBReady order names h → ∃ p0 p1, (run (NBState.step order names) {} h).obj.prior = some (p0, p1) ∧
      ∀ a b, lookAll (run (NBState.step order names) {} h).obj.pi0 names = .ok a → lookAll (run (NBState.step order names) {} h).obj.pi1 names = .ok b →
        (run (NBState.step order names) {} h).predict fl names x = nbPredict fl (run (NBState.step order names) {} h).smoothing ⟨p0, p1, a, b⟩ x) := by
  have h1 := nb_able order names h {}
  have h2 := nb_sound order names h {} (by simp [NBState.Sound, NBState.Able])
  constructor
  · intro hn
    have : ¬ (run (NBState.step order names) {} h).Able := fun ha => by
      rcases h1.1 ha with h | h
      · simp [NBState.Able] at h
      · exact hn h
    rw [NBState.predict, NBObj.predict, if_pos]
    simpa [NBState.Able] using this
  · intro hr
    have ha := h1.2 (.inr hr)
    obtain ⟨⟨p0, p1⟩, hp⟩ := Option.ne_none_iff_exists'.1 (h2 ha)
    refine ⟨p0, p1, hp, fun a b e1 e2 => ?_⟩
    rw [NBState.predict, NBObj.predict, if_neg (by rcases ha with h | h <;> simp [h]), hp]
    simp only [e1, e2]

lemma lookAll_congr (d d' : Dict String (Stored V)) : ∀ ns : List String, (∀ n ∈ ns, Dict.get d n = Dict.get d' n) → lookAll d ns = lookAll d' ns
  | [], _ => rfl
  | n :: ns, h => by
    rw [lookAll, lookAll, h n List.mem_cons_self, lookAll_congr d d' ns fun m hm => h m (List.mem_cons_of_mem _ hm)]

/-- C315: after `compile` and a `fit` that completes, the classifier answers every row like a new one on which the two calls were made; and they complete (or raise the same
exception) as on a new one - whatever was called before. -/
theorem C315_fit_partial (hn : names.Nodup) (fl : ℝ → ℝ) (h : List (NBCall V)) (s : Bool) (cols : List (Col V)) (y : List Int) :
    let o := ((run (NBState.step order names) {} h).step order names (.compile s)).1.step order names (.fit cols y)
    let n := ((({} : NBState V)).step order names (.compile s)).1.step order names (.fit cols y)
    o.2 = n.2 ∧ (o.2 = none → ∀ x, o.1.predict fl names x = n.1.predict fl names x) := by
  generalize run (NBState.step order names) {} h = o
  simp only [NBState.step]
  by_cases hl : cols.length ≠ names.length
  · rw [if_pos hl, if_pos hl]
    exact ⟨rfl, fun h => by simp at h⟩
  rw [if_neg hl, if_neg hl]
  push Not at hl
  simp only [NBState.predict]
  have hz : (names.zip cols).map Prod.fst = names := List.map_fst_zip (by omega)
  unfold NBObj.fit
  cases hp : Bayes.prior y.length y s with
  | error e => exact ⟨rfl, fun h => by simp at h⟩
  | ok p =>
    dsimp only
    obtain ⟨h1, h2⟩ := nbLoop_err order y (names.zip cols) { o.obj with prior := some p } { ({} : NBObj V) with prior := some p }
    by_cases hc : (NBObj.loop order y (names.zip cols) { o.obj with prior := some p }).2 = none
    · obtain ⟨o1, e1, e2, -, -, e5, -⟩ := nbLoop_spec order y (names.zip cols) (by rw [hz]; exact hn) { o.obj with prior := some p } (h2 hc)
      obtain ⟨o2, f1, f2, -, -, f5, -⟩ := nbLoop_spec order y (names.zip cols) (by rw [hz]; exact hn) { ({} : NBObj V) with prior := some p } (h2 hc)
      rw [e1, f1]
      refine ⟨rfl, fun _ x => ?_⟩
      have l : ∀ n ∈ names, Dict.get o1.pi0 n = Dict.get o2.pi0 n ∧ Dict.get o1.pi1 n = Dict.get o2.pi1 n := by
        intro n hnm
        rw [← hz] at hnm
        obtain ⟨c, hcm, rfl⟩ := List.mem_map.1 hnm
        obtain ⟨a, b, ha, hb, g1, g2⟩ := e5 c hcm
        obtain ⟨a', b', ha', hb', g3, g4⟩ := f5 c hcm
        rw [ha] at ha'
        rw [hb] at hb'
        injection ha' with ha'
        injection hb' with hb'
        rw [g1, g2, g3, g4, ha', hb']
        exact ⟨rfl, rfl⟩
      simp only [NBObj.predict, e2, f2, lookAll_congr o1.pi0 o2.pi0 names fun n hn => (l n hn).1, lookAll_congr o1.pi1 o2.pi1 names fun n hn => (l n hn).2]
      simp
    · have hc' := hc
      rw [h1] at hc'
      rcases hA : NBObj.loop order y (names.zip cols) { o.obj with prior := some p } with ⟨oA, _ | eA⟩
      · rw [hA] at hc; exact absurd rfl hc
      rcases hB : NBObj.loop order y (names.zip cols) { ({} : NBObj V) with prior := some p } with ⟨oB, _ | eB⟩
      · rw [hB] at hc'; exact absurd rfl hc'
      rw [hA, hB] at h1
      dsimp only at h1 ⊢
      exact ⟨h1, fun h => by simp at h⟩

/-- C315: after a `load_weights` that completes, the classifier answers like a new one that loaded the file. -/
theorem C315_load_partial (fl : ℝ → ℝ) (h : List (NBCall V)) (s : Bool) (p : ℝ × ℝ) (d0 d1 : Dict String (Stored V)) (x : List (Cell V)) :
    ((run (NBState.step order names) {} h).step order names (.load s p d0 d1)).1.predict fl names x =
      ((({} : NBState V)).step order names (.load s p d0 d1)).1.predict fl names x := by
  simp [NBState.step, NBState.predict, NBObj.predict]

lemma nbFit_prior (s : Bool) (o : NBObj V) (table : List (String × Col V)) (y : List Int) (p : ℝ × ℝ) (hp : Bayes.prior y.length y s = .ok p) :
    (o.fit order s table y).1.prior = some p := by
  unfold NBObj.fit
  rw [hp]
  dsimp only
  obtain ⟨-, -, h3⟩ := nbLoop_flags order y table { o with prior := some p }
  rcases hl : NBObj.loop order y table { o with prior := some p } with ⟨o', _ | e⟩ <;> rw [hl] at h3 <;> exact h3

lemma length_two (y : List Int) (hy : ∀ c ∈ y, c = 0 ∨ c = 1) (h0 : 0 ∈ y) (h1 : 1 ∈ y) : (pyUnique y).length = 2 ∧ y.length = y.count 0 + y.count 1 := by
  constructor
  · have hp : (pyUnique y).Perm [0, 1] := by
      rw [List.perm_ext_iff_of_nodup (nodup_pyUnique y) (by decide)]
      intro a
      rw [mem_pyUnique]
      constructor
      · intro h; rcases hy a h with rfl | rfl <;> simp
      · intro h; simp only [List.mem_cons, List.not_mem_nil, or_false] at h; rcases h with rfl | rfl <;> assumption
    exact hp.length_eq
  · clear h0 h1
    induction y with
    | nil => rfl
    | cons a y ih =>
      have := ih fun c hc => hy c (List.mem_cons_of_mem _ hc)
      rcases hy a List.mem_cons_self with rfl | rfl <;> simp [List.count_cons] <;> omega

/-- C315 fails for `compile` after `fit`: the conditional probabilities change with the new setting, the class probabilities stay those of the old. Whatever the data
(both labels occurring, differently often), the classifier so obtained has not the class probabilities of one compiled that way and fitted. -/
theorem C315_compile_after_fit (cols : List (Col V)) (hl : cols.length = names.length) (y : List Int) (hy : ∀ c ∈ y, c = 0 ∨ c = 1)
    (h0 : 0 ∈ y) (h1 : 1 ∈ y) (hne : y.count 0 ≠ y.count 1) :
    (run (NBState.step order names) {} [.compile true, .fit cols y, .compile false]).smoothing = (run (NBState.step order names) {} [.compile false, .fit cols y]).smoothing ∧
    (run (NBState.step order names) {} [.compile true, .fit cols y, .compile false]).obj.prior ≠ (run (NBState.step order names) {} [.compile false, .fit cols y]).obj.prior := by
  obtain ⟨hu, hlen⟩ := length_two y hy h0 h1
  have c0 : 0 < y.count 0 := List.count_pos_iff.2 h0
  simp only [run, NBState.step, if_neg (not_not.2 hl), true_and]
  have e1 : Bayes.prior y.length y true = .ok (ratio (y.count 0 + 1) (y.length + 2), 1 - ratio (y.count 0 + 1) (y.length + 2)) := by
    simp [Bayes.prior, hu]
  have e2 : Bayes.prior y.length y false = .ok (ratio (y.count 0) y.length, 1 - ratio (y.count 0) y.length) := by
    simp only [Bayes.prior]
    have hl0 : y.length ≠ 0 := by omega
    simp only [Bool.false_eq_true, if_false]
    exact if_neg hl0
  rw [nbFit_prior order true _ _ y _ e1, nbFit_prior order false _ _ y _ e2]
  intro h
  injection h with h
  have h := (Prod.mk.inj h).1
  simp only [ratio] at h
  have p1 : (0 : ℝ) < ((y.length + 2 : ℕ) : ℝ) := by positivity
  have p2 : (0 : ℝ) < (y.length : ℝ) := by exact_mod_cast (by omega : 0 < y.length)
  rw [div_eq_div_iff p1.ne' p2.ne'] at h
  have h' : (y.count 0 + 1) * y.length = y.count 0 * (y.length + 2) := by exact_mod_cast h
  have : y.length = 2 * y.count 0 := by nlinarith
  omega

/-- The hypotheses are met: three samples, one of class 0. -/
example : (∀ c ∈ [(0 : Int), 1, 1], c = 0 ∨ c = 1) ∧ [(0 : Int), 1, 1].count 0 ≠ [(0 : Int), 1, 1].count 1 := by decide

end CML.Failed
