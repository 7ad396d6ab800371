import Verif.Spec.TraceTree
import Verif.Props.Trace

set_option linter.unusedSectionVars false
set_option linter.unusedSimpArgs false

/-!
# Properties C316, C317: histories of calls of a decision tree classifier

decision_tree_classifier.py:85-276.
-/

namespace CML.Failed

variable {D T X Y : Type} (gen : String → D → Except PyErr T) (prune : Pruning → D → D → T → T × Option PyErr)

/-- Able to predict. -/
def TreeState.Able (o : TreeState T) : Prop := o.trained = true ∨ o.loaded = true

/-- An instance able to predict has a tree. -/
def TreeState.Sound (o : TreeState T) : Prop := o.Able → o.tree ≠ none

lemma tree_grow (o : TreeState T) (d : D) : (o.grow gen d).1.loaded = o.loaded ∧ (o.grow gen d).1.trained = o.trained ∧ (o.grow gen d).1.pruner = o.pruner ∧
    (o.grow gen d).1.generator = o.generator ∧ (o.tree ≠ none → (o.grow gen d).1.tree ≠ none) ∧ ((o.grow gen d).2 = none → o.loaded = false → (o.grow gen d).1.tree ≠ none) := by
  unfold TreeState.grow
  split
  · simp
  · split
    · split <;> simp
    · simp_all

lemma tree_prune (o : TreeState T) (d : D) (v : Option D) : (o.prune prune d v).1.loaded = o.loaded ∧
    ((o.prune prune d v).2 = none → (o.prune prune d v).1.trained = true) ∧ ((o.prune prune d v).2 ≠ none → (o.prune prune d v).1.trained = o.trained) ∧
    (o.tree ≠ none → (o.prune prune d v).1.tree ≠ none) := by
  unfold TreeState.prune
  split <;> try simp
  split <;> simp

lemma tree_fit (o : TreeState T) (d : D) (v : Option D) (hs : o.Sound) : (o.fit gen prune d v).1.loaded = o.loaded ∧
    ((o.fit gen prune d v).2 = none → (o.fit gen prune d v).1.trained = true) ∧ ((o.fit gen prune d v).2 ≠ none → (o.fit gen prune d v).1.trained = o.trained) ∧
    (o.fit gen prune d v).1.Sound := by
  unfold TreeState.fit
  split
  · exact ⟨rfl, by simp, by simp, hs⟩
  · obtain ⟨h1, h2, h3, h4, h5, h6⟩ := tree_grow gen o d
    rcases hg : o.grow gen d with ⟨o', _ | e⟩ <;> rw [hg] at h1 h2 h3 h4 h5 h6 <;> dsimp only at h1 h2 h3 h4 h5 h6 ⊢
    · obtain ⟨g1, g2, g3, g4⟩ := tree_prune prune o' d v
      refine ⟨g1.trans h1, g2, fun h => (g3 h).trans h2, fun _ => g4 ?_⟩
      by_cases hl : o.loaded = false
      · exact h6 rfl hl
      · exact h5 (hs (.inr (by simpa using hl)))
    · refine ⟨h1, by simp, fun _ => h2, fun ha => h5 (hs ?_)⟩
      simpa only [TreeState.Able, h1, h2] using ha

lemma tree_load (o : TreeState T) (c p : Option String) (t : Option T) : (o.load c p t).1.trained = o.trained ∧
    ((o.load c p t).2 = none → (o.load c p t).1.loaded = true ∧ (o.load c p t).1.tree = t ∧ t ≠ none) ∧
    ((o.load c p t).2 ≠ none → (o.load c p t).1.loaded = o.loaded ∧ (o.load c p t).1.tree = o.tree) := by
  unfold TreeState.load
  cases c with
  | none => simp
  | some c =>
    dsimp only
    split
    · cases t <;> simp
    · simp
    · split
      · simp
      · cases t <;> simp

lemma tree_step (o : TreeState T) (c : TreeCall D T) (hs : o.Sound) : ((o.step gen prune c).1.Able ↔ o.Able ∨ (c.trains ∧ (o.step gen prune c).2 = none)) ∧
    (o.step gen prune c).1.Sound := by
  cases c with
  | compile c p =>
    have : (o.compile c p).1.trained = o.trained ∧ (o.compile c p).1.loaded = o.loaded ∧ (o.compile c p).1.tree = o.tree := by
      unfold TreeState.compile
      split
      · split
        · simp
        · split <;> simp
      · simp
    simp only [TreeState.step, TreeState.Able, TreeState.Sound, TreeCall.trains, this, false_and, or_false, true_and]
    exact hs
  | fit d v =>
    obtain ⟨h1, h2, h3, h4⟩ := tree_fit gen prune o d v hs
    refine ⟨?_, h4⟩
    simp only [TreeState.step, TreeState.Able, TreeCall.trains, true_and, h1]
    by_cases hc : (o.fit gen prune d v).2 = none
    · simp [hc, h2 hc]
    · simp [hc, h3 hc]
  | load c p t =>
    obtain ⟨h1, h2, h3⟩ := tree_load o c p t
    simp only [TreeState.step, TreeState.Able, TreeState.Sound, TreeCall.trains, true_and, h1]
    by_cases hc : (o.load c p t).2 = none
    · simp [hc, (h2 hc).1, (h2 hc).2.1, (h2 hc).2.2]
    · simp only [hc, (h3 hc).1, (h3 hc).2, or_false, true_and]
      exact hs
  | badFile e =>
    refine ⟨by simp [TreeState.step, TreeState.Able, TreeCall.trains], hs⟩

lemma tree_able : ∀ (h : List (TreeCall D T)) (o : TreeState T), o.Sound → (run (TreeState.step gen prune) o h).Sound ∧ ((run (TreeState.step gen prune) o h).Able ↔ o.Able ∨
    ∃ pre c post, h = pre ++ c :: post ∧ c.trains ∧ ((run (TreeState.step gen prune) o pre).step gen prune c).2 = none)
  | [], o, hs => by simpa [run] using hs
  | c :: h, o, hs => by
    obtain ⟨h1, h2⟩ := tree_step gen prune o c hs
    obtain ⟨h3, h4⟩ := tree_able h _ h2
    refine ⟨h3, ?_⟩
    rw [run, h4, h1]
    constructor
    · rintro ((h1 | ⟨h1, h2⟩) | ⟨pre, c', post, rfl, h1, h2⟩)
      · exact .inl h1
      · exact .inr ⟨[], c, h, rfl, h1, h2⟩
      · exact .inr ⟨c :: pre, c', post, rfl, h1, h2⟩
    · rintro (h1 | ⟨pre, c', post, he, h1, h2⟩)
      · exact .inl (.inl h1)
      · cases pre with
        | nil => cases he; exact .inl (.inr ⟨h1, h2⟩)
        | cons p pre => cases he; exact .inr ⟨pre, c', post, rfl, h1, h2⟩

/-- C316: after any history of calls on a new classifier, completed or not, `predict` refuses (`ValueError`) exactly as long as no `fit` and no `load_weights` completed;
afterwards there always is a tree, and it is asked. -/
theorem C316_ready (ask : T → X → Except PyErr Y) (h : List (TreeCall D T)) :
    (¬ TreeReady gen prune h → ∀ x, (run (TreeState.step gen prune) {} h).predict ask x = .error .valueError) ∧
    (TreeReady gen prune h → ∃ t, ∀ x, (run (TreeState.step gen prune) {} h).predict ask x = ask t x) := by
  obtain ⟨h2, h1⟩ := tree_able gen prune h {} (by simp [TreeState.Sound, TreeState.Able])
  constructor
  · intro hn x
    have : ¬ (run (TreeState.step gen prune) {} h).Able := fun ha => by
      rcases h1.1 ha with h | h
      · simp [TreeState.Able] at h
      · exact hn h
    rw [TreeState.predict, if_pos]
    simpa [TreeState.Able] using this
  · intro hr
    have ha := h1.2 (.inr hr)
    obtain ⟨t, ht⟩ := Option.ne_none_iff_exists'.1 (h2 ha)
    refine ⟨t, fun x => ?_⟩
    rw [TreeState.predict, if_neg (by rcases ha with h | h <;> simp [h]), ht]

lemma tree_never_loaded : ∀ (h : List (TreeCall D T)) (o : TreeState T), o.loaded = false → (∀ c ∈ h, ¬ c.loads) → (run (TreeState.step gen prune) o h).loaded = false
  | [], _, ho, _ => ho
  | c :: h, o, ho, hc => by
    refine tree_never_loaded h _ ?_ fun c' hc' => hc c' (List.mem_cons_of_mem _ hc')
    cases c with
    | compile c p =>
      simp only [TreeState.step]
      unfold TreeState.compile
      split
      · split
        · exact ho
        · split <;> exact ho
      · exact ho
    | fit d v =>
      simp only [TreeState.step]
      unfold TreeState.fit
      split
      · exact ho
      · have h1 := (tree_grow gen o d).1
        rcases hg : o.grow gen d with ⟨o', _ | e⟩ <;> rw [hg] at h1 <;> dsimp only at h1 ⊢
        · rw [(tree_prune prune o' d v).1, h1, ho]
        · rw [h1, ho]
    | load c p t => exact absurd trivial (hc _ List.mem_cons_self)
    | badFile e => exact ho

/-- C317: on an instance that never was asked to load a file, `compile` and `fit` complete, or raise, as on a new one, and if `fit` completes the answers are those of
the new one - whatever was called before. -/
theorem C317_fresh_partial (ask : T → X → Except PyErr Y) (h : List (TreeCall D T)) (hl : ∀ c ∈ h, ¬ c.loads) (c : String) (p : Option String) (d : D) (v : Option D) :
    let o := (run (TreeState.step gen prune) {} h).step gen prune (.compile c p)
    let n := (({} : TreeState T)).step gen prune (.compile c p)
    o.2 = n.2 ∧ (o.2 = none → (o.1.step gen prune (.fit d v)).2 = (n.1.step gen prune (.fit d v)).2 ∧
      ((o.1.step gen prune (.fit d v)).2 = none → ∀ x, (o.1.step gen prune (.fit d v)).1.predict ask x = (n.1.step gen prune (.fit d v)).1.predict ask x)) := by
  have ho := tree_never_loaded gen prune h {} rfl hl
  generalize run (TreeState.step gen prune) {} h = o at ho
  have key : ∀ q : Option Pruning, let o1 : TreeState T := { o with criterion := some c, generator := some c, pruner := q }
      let n1 : TreeState T := { criterion := some c, generator := some c, pruner := q }
      (o1.fit gen prune d v).2 = (n1.fit gen prune d v).2 ∧ ((o1.fit gen prune d v).2 = none → ∀ x, (o1.fit gen prune d v).1.predict ask x = (n1.fit gen prune d v).1.predict ask x) := by
    intro q
    simp only [TreeState.fit, TreeState.grow, ho]
    split
    · simp
    · cases gen c d with
      | error e => simp
      | ok t =>
        simp only [if_true, TreeState.prune]
        cases q with
        | none => simp [TreeState.predict]
        | some q =>
          cases v with
          | none => simp
          | some v =>
            dsimp only
            rcases prune q d v t with ⟨t', _ | e⟩ <;> simp [TreeState.predict]
  simp only [TreeState.step]
  by_cases hc : c ∈ ["gain", "gini", "entropy"]
  · cases p with
    | none =>
      simp only [TreeState.compile, if_pos hc]
      exact ⟨trivial, fun _ => key none⟩
    | some p =>
      simp only [TreeState.compile, if_pos hc]
      cases getPrunerName p with
      | error e => exact ⟨rfl, fun h => by simp at h⟩
      | ok q => exact ⟨rfl, fun _ => key (some q)⟩
  · simp only [TreeState.compile, if_neg hc]
    exact ⟨trivial, fun h => by simp at h⟩

/-- C317: after a `load_weights` that completes, the classifier answers as a new one that loaded the file; and the file is loaded whenever the instance is not set up for
pruning. -/
theorem C317_load_partial (ask : T → X → Except PyErr Y) (h : List (TreeCall D T)) (c : String) (p : Option String) (t : T) (x : X) :
    let o := (run (TreeState.step gen prune) {} h).step gen prune (.load (some c) p (some t))
    (o.2 = none → o.1.predict ask x = ask t x ∧ o.1.predict ask x = ((({} : TreeState T)).step gen prune (.load (some c) p (some t))).1.predict ask x) ∧
    ((run (TreeState.step gen prune) {} h).pruner = none → o.2 = none) := by
  generalize run (TreeState.step gen prune) {} h = o
  constructor
  · intro hc
    obtain ⟨h1, h2, -⟩ := tree_load o (some c) p (some t)
    have h := h2 hc
    simp only [TreeState.step] at hc ⊢
    rw [TreeState.predict, if_neg (by simp [h.1]), h.2.1]
    exact ⟨rfl, rfl⟩
  · intro hp
    simp only [TreeState.step, TreeState.load, hp]

/-- C317 fails for instances set up for pruning: they refuse (`KeyError`) every file saved from an unpruned tree, which a new instance loads. -/
theorem C317_refused (h : List (TreeCall D T)) (c c' : String) (q : String) (hc : c ∈ ["gain", "gini", "entropy"]) (hq : q = "pre" ∨ q = "post") (t : T) :
    ((run (TreeState.step gen prune) {} (h ++ [.compile c (some q)])).step gen prune (.load (some c') none (some t))).2 = some .keyError ∧
    ((({} : TreeState T)).step gen prune (.load (some c') none (some t))).2 = none := by
  refine ⟨?_, rfl⟩
  rw [run_append]
  simp only [run, TreeState.step, TreeState.compile, if_pos hc]
  rcases hq with rfl | rfl <;> rfl

/-- `compile` without pruning, or `fit`. -/
def TreeCall.plain : TreeCall D T → Prop
  | .compile _ none => True
  | .fit .. => True
  | _ => False

lemma tree_plain (t : T) : ∀ (h : List (TreeCall D T)) (o : TreeState T), (∀ c ∈ h, c.plain) → o.tree = some t → o.loaded = true → o.pruner = none →
    (run (TreeState.step gen prune) o h).tree = some t ∧ (run (TreeState.step gen prune) o h).loaded = true
  | [], _, _, h1, h2, _ => ⟨h1, h2⟩
  | c :: h, o, hc, h1, h2, h3 => by
    have : (o.step gen prune c).1.tree = some t ∧ (o.step gen prune c).1.loaded = true ∧ (o.step gen prune c).1.pruner = none := by
      have hp := hc c List.mem_cons_self
      match c, hp with
      | .compile c none, _ =>
        simp only [TreeState.step, TreeState.compile]
        split <;> simp [h1, h2, h3]
      | .fit d v, _ =>
        simp only [TreeState.step, TreeState.fit, TreeState.grow, h3]
        cases hg : o.generator with
        | none => simp [h1, h2, h3]
        | some c => simp [h1, h2, h3, TreeState.prune]
    exact tree_plain t h _ (fun c' hc' => hc c' (List.mem_cons_of_mem _ hc')) this.1 this.2.1 this.2.2

/-- C317 fails after a load: once `compile` asked for no pruning, however often the classifier is compiled (without pruning) and fitted afterwards, with whatever data, it
keeps answering with the tree of the file; and these fits complete. -/
theorem C317_data_ignored (ask : T → X → Except PyErr Y) (h : List (TreeCall D T)) (c p : Option String) (t : T)
    (hload : ((run (TreeState.step gen prune) {} h).step gen prune (.load c p (some t))).2 = none) (c' : String) (hc : c' ∈ ["gain", "gini", "entropy"])
    (later : List (TreeCall D T)) (hp : ∀ c ∈ later, c.plain) (x : X) (d : D) (v : Option D) :
    (run (TreeState.step gen prune) {} (h ++ .load c p (some t) :: .compile c' none :: later)).predict ask x = ask t x ∧
    ((run (TreeState.step gen prune) {} (h ++ [.load c p (some t), .compile c' none])).step gen prune (.fit d v)).2 = none := by
  rw [run_append, run_append]
  generalize run (TreeState.step gen prune) {} h = o at hload ⊢
  have h2 := (tree_load o c p (some t)).2.1 hload
  simp only [run]
  have e : ∀ o : TreeState T, (o.step gen prune (.compile c' none)) = ({ o with criterion := some c', generator := some c', pruner := none }, none) := fun o => by
    simp only [TreeState.step, TreeState.compile]
    exact if_pos hc
  simp only [e]
  constructor
  · obtain ⟨h3, h4⟩ := tree_plain gen prune t later { (o.step gen prune (.load c p (some t))).1 with criterion := some c', generator := some c', pruner := none } hp h2.2.1 h2.1 rfl
    rw [TreeState.predict, if_neg (by simp [h4]), h3]
  · have h3 : (o.step gen prune (.load c p (some t))).1.loaded = true := h2.1
    simp [TreeState.step, TreeState.fit, TreeState.grow, TreeState.prune]
    have h3 : (o.load c p (some t)).1.loaded = true := h2.1
    simp [h3]

/-- C317 fails after a load: without `compile` a `fit` of the loaded classifier raises `AttributeError`, although the file has the criterion. -/
theorem C317_load_then_fit (c : String) (p : Option String) (t : T) (d : D) (v : Option D) :
    ((run (TreeState.step gen prune) {} [.load (some c) p (some t)]).step gen prune (.fit d v)).2 = some .attributeError := by
  simp [run, TreeState.step, TreeState.load, TreeState.fit, TreeState.grow]

/-- A classifier compiled and fitted is as in C316; before that it is not. -/
example : TreeReady (fun _ (d : Nat) => .ok d) (fun _ _ _ (t : Nat) => (t, none)) [.compile "gini" none, .fit 3 none] ∧
    ¬ TreeReady (fun _ (d : Nat) => .ok d) (fun _ _ _ (t : Nat) => (t, none)) [.compile "gini" (some "pre"), .fit 3 none] := by
  constructor
  · exact ⟨[.compile "gini" none], .fit 3 none, [], rfl, trivial, by decide⟩
  · rintro ⟨pre, c, post, h, h1, h2⟩
    match pre, h with
    | [], h =>
      cases h
      exact h1
    | [_], h =>
      cases h
      revert h2
      decide
    | _ :: _ :: _, h => simp at h

end CML.Failed
