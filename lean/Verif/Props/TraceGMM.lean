import Verif.Spec.TraceGMM
import Verif.Props.Trace

set_option linter.unusedSectionVars false
set_option linter.unusedSimpArgs false

/-!
# Properties C318-C320: histories of calls of Gaussian mixtures and RBF networks

gaussian_mixture.py:46-213, radial_basis_function_network.py:33-169.
-/

namespace CML.Failed

variable {I M S A X C R D P L Y : Type}

/-! ## Any machine: able iff able before or some step enabled it -/

lemma able_run {O E : Type} (step : O → E → O × Option PyErr) (Able Sound : O → Prop) (good : O → E → Prop)
    (hstep : ∀ o c, Sound o → (Able (step o c).1 ↔ Able o ∨ good o c) ∧ Sound (step o c).1) : ∀ (h : List E) (o : O), Sound o → Sound (run step o h) ∧
    (Able (run step o h) ↔ Able o ∨ ∃ pre c post, h = pre ++ c :: post ∧ good (run step o pre) c)
  | [], o, hs => by simpa [run] using hs
  | c :: h, o, hs => by
    obtain ⟨h1, h2⟩ := hstep o c hs
    obtain ⟨h3, h4⟩ := able_run step Able Sound good hstep h _ h2
    refine ⟨h3, ?_⟩
    rw [run, h4, h1]
    constructor
    · rintro ((h1 | h1) | ⟨pre, c', post, rfl, h1⟩)
      · exact .inl h1
      · exact .inr ⟨[], c, h, rfl, h1⟩
      · exact .inr ⟨c :: pre, c', post, rfl, h1⟩
    · rintro (h1 | ⟨pre, c', post, he, h1⟩)
      · exact .inl (.inl h1)
      · cases pre with
        | nil => cases he; exact .inl (.inr h1)
        | cons p pre => cases he; exact .inr ⟨pre, c', post, rfl, h1⟩

/-! ## Gaussian mixtures -/

/-- Able to predict. -/
def GMState.Able (o : GMState I M S A C) : Prop := o.trained = true ∨ o.loaded = true

/-- A mixture able to predict has all parameters. -/
def GMState.Sound (o : GMState I M S A C) : Prop := o.Able → ∃ m s a, o.mu = some m ∧ o.sigma = some s ∧ o.alpha = some a

variable (ops : GMOps I M S A X C)

lemma gm_fit (o : GMState I M S A C) (x : X) (n : Nat) (hs : o.Sound) : (o.fit ops x n).1.Sound ∧ (o.fit ops x n).1.loaded = o.loaded ∧
    ((o.fit ops x n).2 = none → (o.fit ops x n).1.trained = true) ∧ (∀ e, (o.fit ops x n).2 = some e → (o.fit ops x n).1.trained = o.trained ∨
      ∃ m s a, (o.fit ops x n).1.mu = some m ∧ (o.fit ops x n).1.sigma = some s ∧ (o.fit ops x n).1.alpha = some a ∧ (o.fit ops x n).1.trained = true ∧
        ops.clusters x (m, s, a) = .error e) ∧ (o.trained = true → (o.fit ops x n).1.trained = true) := by
  unfold GMState.fit
  split
  · exact ⟨hs, rfl, by simp, by simp, id⟩
  · split
    · refine ⟨fun ha => ?_, rfl, by simp, by simp, id⟩
      obtain ⟨m, s, a, h1, h2, h3⟩ := hs ha
      exact ⟨_, s, a, rfl, h2, h3⟩
    · split
      · refine ⟨fun ha => ?_, rfl, by simp, by simp, id⟩
        obtain ⟨m, s, a, h1, h2, h3⟩ := hs ha
        exact ⟨_, _, a, rfl, rfl, h3⟩
      · split
        · exact ⟨fun ha => ⟨_, _, _, rfl, rfl, rfl⟩, rfl, by simp, by simp, id⟩
        · split
          · rename_i e he
            exact ⟨fun ha => ⟨_, _, _, rfl, rfl, rfl⟩, rfl, by simp, fun e' h => .inr ⟨_, _, _, rfl, rfl, rfl, rfl, by injection h with h; rw [← h]; exact he⟩, fun _ => rfl⟩
          · exact ⟨fun ha => ⟨_, _, _, rfl, rfl, rfl⟩, rfl, fun _ => rfl, by simp, fun _ => rfl⟩

lemma gm_step (o : GMState I M S A C) (c : GMCall I M S A X C) (hs : o.Sound) : ((o.step ops c).1.Able ↔ o.Able ∨ o.Good ops c) ∧ (o.step ops c).1.Sound := by
  cases c with
  | compile i => exact ⟨by simp [GMState.step, GMState.Able, GMState.Good, GMCall.trains], hs⟩
  | halfCompile i => exact ⟨by simp [GMState.step, GMState.Able, GMState.Good, GMCall.trains], hs⟩
  | badFile e => exact ⟨by simp [GMState.step, GMState.Able, GMState.Good, GMCall.trains], hs⟩
  | load i m s a c =>
    have key : (o.load i m s a c).1.Sound ∧ ((o.load i m s a c).1.Able ↔ o.Able ∨ (o.load i m s a c).2 = none) := by
      match m, s, a, c with
      | none, _, _, _ => exact ⟨hs, by simp [GMState.load, GMState.Able]⟩
      | some m, none, _, _ =>
        refine ⟨fun ha => ?_, by simp [GMState.load, GMState.Able]⟩
        obtain ⟨m, s, a, h1, h2, h3⟩ := hs ha
        exact ⟨_, s, a, rfl, h2, h3⟩
      | some m, some s, none, _ =>
        refine ⟨fun ha => ?_, by simp [GMState.load, GMState.Able]⟩
        obtain ⟨m, s, a, h1, h2, h3⟩ := hs ha
        exact ⟨_, _, a, rfl, rfl, h3⟩
      | some m, some s, some a, none => exact ⟨fun ha => ⟨_, _, _, rfl, rfl, rfl⟩, by simp [GMState.load, GMState.Able]⟩
      | some m, some s, some a, some c => exact ⟨fun ha => ⟨_, _, _, rfl, rfl, rfl⟩, by simp [GMState.load, GMState.Able]⟩
    refine ⟨?_, key.1⟩
    simp only [GMState.step, GMState.Good, GMCall.trains, true_and, reduceCtorEq, false_and, exists_false, or_false, and_false]
    exact key.2
  | fit x n =>
    obtain ⟨h1, h2, h3, h4, h5⟩ := gm_fit ops o x n hs
    refine ⟨⟨fun ha => ?_, ?_⟩, h1⟩
    · simp only [GMState.step, GMState.Able, h2] at ha
      cases hc : (o.fit ops x n).2 with
      | none => exact .inr ⟨trivial, .inl hc⟩
      | some e =>
        rcases h4 e hc with h | ⟨m, s, a, g1, g2, g3, g4, g5⟩
        · exact .inl (by simpa only [GMState.Able, h] using ha)
        · exact .inr ⟨trivial, .inr ⟨x, n, e, m, s, a, rfl, hc, g1, g2, g3, g4, g5⟩⟩
    · rintro (ha | ⟨-, hc | ⟨x', n', e, m, s, a, g1, g2, g3, g4, g5, g6, g7⟩⟩)
      · rcases ha with ha | ha
        · exact .inl (h5 ha)
        · exact .inr (h2.trans ha)
      · exact .inl (h3 hc)
      · exact .inl g6

/-- C318 for mixtures: `predict` refuses (`ValueError`) only as long as no `fit` and no `load_weights` completed. It stops refusing exactly when one of them completed, or when
a `fit` got to its last line and failed in asking the trained mixture for the clusters of its own samples. From then on it always has means, covariances and coefficients to
answer with. -/
theorem C318_mixture_partial (h : List (GMCall I M S A X C)) :
    (GMReady ops h → ∃ m s a, ∀ x, (run (GMState.step ops) {} h).predict ops x = ops.clusters x (m, s, a)) ∧
    ((¬ ∃ pre c post, h = pre ++ c :: post ∧ (run (GMState.step ops) {} pre).Good ops c) → ∀ x, (run (GMState.step ops) {} h).predict ops x = .error .valueError) ∧
    ((∃ pre c post, h = pre ++ c :: post ∧ (run (GMState.step ops) {} pre).Good ops c) →
      ∃ m s a, ∀ x, (run (GMState.step ops) {} h).predict ops x = ops.clusters x (m, s, a)) := by
  obtain ⟨h2, h1⟩ := able_run (GMState.step ops) GMState.Able GMState.Sound (GMState.Good ops) (gm_step ops) h {} (by simp [GMState.Sound, GMState.Able])
  have answer : (∃ pre c post, h = pre ++ c :: post ∧ (run (GMState.step ops) {} pre).Good ops c) →
      ∃ m s a, ∀ x, (run (GMState.step ops) {} h).predict ops x = ops.clusters x (m, s, a) := by
    intro hr
    have ha := h1.2 (.inr hr)
    obtain ⟨m, s, a, e1, e2, e3⟩ := h2 ha
    refine ⟨m, s, a, fun x => ?_⟩
    rw [GMState.predict, if_neg (by rcases ha with h | h <;> simp [h]), e1, e2, e3]
  refine ⟨?_, ?_, answer⟩
  · rintro ⟨pre, c, post, e, g1, g2⟩
    exact answer ⟨pre, c, post, e, g1, .inl g2⟩
  · intro hn x
    have : ¬ (run (GMState.step ops) {} h).Able := fun ha => by
      rcases h1.1 ha with h | h
      · simp [GMState.Able] at h
      · exact hn h
    rw [GMState.predict, if_pos]
    simpa [GMState.Able] using this

/-- C318 fails for mixtures: whenever training leads to parameters for which the clusters of the samples cannot be computed (a covariance that has become singular, say),
`fit` raises, no call ever completed - and yet `predict` no longer refuses but answers other rows with these parameters. -/
theorem C318_mixture_violated (i : I) (x : X) (n : Nat) (m : M) (s : S) (a : A) (P : M × S × A) (e : PyErr) (h1 : ops.means (some i) x = .ok m)
    (h2 : ops.covariances (some i) x = .ok s) (h3 : ops.coefficients (some i) x = .ok a) (hloop : gmLoop ops (some i) x n (m, s, a) = (P, none))
    (hc : ops.clusters x P = .error e) :
    ¬ GMReady ops [.compile i, .fit x n] ∧ ∀ x', (run (GMState.step ops) {} [.compile i, .fit x n]).predict ops x' = ops.clusters x' P := by
  obtain ⟨m', s', a'⟩ := P
  have e1 : (({ settings := some i } : GMState I M S A C).fit ops x n) = (⟨some i, some m', some s', some a', none, true, false⟩, some e) := by
    simp only [GMState.fit, h1, h2, h3, hloop, hc]
  constructor
  · rintro ⟨pre, c, post, h, g1, g2⟩
    match pre, h with
    | [], h =>
      cases h
      exact g1
    | [_], h =>
      cases h
      simp only [run, GMState.step] at g2
      rw [e1] at g2
      simp at g2
    | _ :: _ :: _, h => simp at h
  · intro x'
    simp only [run, GMState.step]
    rw [e1]
    rfl

/-- One component in one dimension; a covariance of zero cannot be inverted. -/
def lineOps : GMOps Unit ℚ ℚ ℚ (List ℚ) (List Nat) where
  means _ x := .ok (x.headD 0)
  covariances _ _ := .ok (1 / 10)
  coefficients _ _ := .ok 1
  em x P := if P.2.1 = 0 then .error .valueError else .ok (x.sum / x.length, (x.map fun v => (v - x.sum / x.length) ^ 2).sum / x.length, 1)
  changed _ P Q := decide (P ≠ Q)
  clusters x P := if P.2.1 = 0 then .error .valueError else .ok (x.map fun _ => 0)

/-- Such a case: two equal samples, one epoch (for one component the step of `lineOps` is the EM step). -/
example : gmLoop lineOps (some ()) [3, 3] 1 (3, 1 / 10, 1) = ((3, 0, 1), none) ∧ lineOps.clusters [3, 3] (3, 0, 1) = .error .valueError := by
  constructor <;> decide +kernel

/-- C319 for mixtures: whatever was called before, after `compile` and a `fit` that completes, or a `load_weights` that completes, the mixture answers as a new one on
which only these were called, and `fit` completes in the same cases. -/
theorem C319_mixture_partial (h : List (GMCall I M S A X C)) (i : I) (x : X) (n : Nat) (m : M) (s : S) (a : A) (c : C) :
    let o := ((run (GMState.step ops) {} h).step ops (.compile i)).1.step ops (.fit x n)
    let w := ((({} : GMState I M S A C)).step ops (.compile i)).1.step ops (.fit x n)
    o.2 = w.2 ∧ (o.2 = none → o.1.clusters = w.1.clusters ∧ ∀ x', o.1.predict ops x' = w.1.predict ops x') ∧
    ∀ x', ((run (GMState.step ops) {} h).step ops (.load i (some m) (some s) (some a) (some c))).1.predict ops x' = ops.clusters x' (m, s, a) := by
  generalize run (GMState.step ops) {} h = o
  have key : ((o.step ops (.compile i)).1.step ops (.fit x n)).2 = ((({} : GMState I M S A C).step ops (.compile i)).1.step ops (.fit x n)).2 ∧
      (((o.step ops (.compile i)).1.step ops (.fit x n)).2 = none →
        ((o.step ops (.compile i)).1.step ops (.fit x n)).1.clusters = ((({} : GMState I M S A C).step ops (.compile i)).1.step ops (.fit x n)).1.clusters ∧
        ∀ x', ((o.step ops (.compile i)).1.step ops (.fit x n)).1.predict ops x' = ((({} : GMState I M S A C).step ops (.compile i)).1.step ops (.fit x n)).1.predict ops x') := by
    simp only [GMState.step, GMState.fit]
    cases ops.means (some i) x with
    | error e => simp
    | ok m =>
      cases ops.covariances (some i) x with
      | error e => simp
      | ok s =>
        cases ops.coefficients (some i) x with
        | error e => simp
        | ok a =>
          dsimp only
          rcases gmLoop ops (some i) x n (m, s, a) with ⟨⟨m', s', a'⟩, _ | e⟩
          · dsimp only
            cases ops.clusters x (m', s', a') with
            | error e => simp
            | ok c => simp [GMState.predict]
          · simp
  exact ⟨key.1, key.2, fun x' => by simp [GMState.step, GMState.load, GMState.predict]⟩

/-! ## RBF networks -/

variable (init : Nat → R → P) (train : L → D → P → P × Option PyErr)

/-- Able to predict. -/
def RBState.Able (o : RBState P L) : Prop := o.trained = true ∨ o.loaded = true

/-- A network able to predict has an optimiser and parameters. -/
def RBState.Sound (o : RBState P L) : Prop := o.Able → o.opt ≠ none ∧ o.params ≠ none

lemma rb_fit (o : RBState P L) (r : R) (d : D) (hs : o.Sound) : (o.fit init train r d).1.Sound ∧ (o.fit init train r d).1.loaded = o.loaded ∧
    ((o.fit init train r d).2 = none → (o.fit init train r d).1.trained = true) ∧ ((o.fit init train r d).2 ≠ none → (o.fit init train r d).1.trained = o.trained) := by
  simp only [RBState.fit]
  split
  · exact ⟨hs, rfl, by simp, by simp⟩
  · split
    · rename_i hn
      exact ⟨fun ha => ⟨(hs ha).1, by simp⟩, rfl, by simp, by simp⟩
    · rename_i lr hlr
      split
      · exact ⟨fun _ => ⟨by simp [hlr], by simp⟩, rfl, by simp, by simp⟩
      · exact ⟨fun _ => ⟨by simp [hlr], by simp⟩, rfl, by simp, by simp⟩

lemma rb_step (o : RBState P L) (c : RBCall R D P L) (hs : o.Sound) : ((o.step init train c).1.Able ↔ o.Able ∨ (c.trains ∧ (o.step init train c).2 = none)) ∧
    (o.step init train c).1.Sound := by
  cases c with
  | compile h lr => exact ⟨by simp [RBState.step, RBState.Able, RBCall.trains], fun ha => ⟨by simp [RBState.step], (hs ha).2⟩⟩
  | badFile e => exact ⟨by simp [RBState.step, RBState.Able, RBCall.trains], hs⟩
  | load h lr p => exact ⟨by simp [RBState.step, RBState.Able, RBCall.trains], fun ha => ⟨by simp [RBState.step], by simp [RBState.step]⟩⟩
  | incomplete h lr =>
    match h, lr with
    | none, _ => exact ⟨by simp [RBState.step, RBState.Able, RBCall.trains], hs⟩
    | some h, none => exact ⟨by simp [RBState.step, RBState.Able, RBCall.trains], hs⟩
    | some h, some lr => exact ⟨by simp [RBState.step, RBState.Able, RBCall.trains], fun ha => ⟨by simp [RBState.step], (hs ha).2⟩⟩
  | fit r d =>
    obtain ⟨h1, h2, h3, h4⟩ := rb_fit init train o r d hs
    refine ⟨?_, h1⟩
    simp only [RBState.step, RBState.Able, RBCall.trains, true_and, h2]
    by_cases hc : (o.fit init train r d).2 = none
    · simp [hc, h3 hc]
    · simp [hc, h4 hc]

/-- C318 for RBF networks: after any history of calls, completed or not, `predict` refuses (`ValueError`) exactly as long as no `fit` and no `load_weights` completed;
afterwards it is the forward pass with parameters it always has. -/
theorem C318_rbf (forward : D → P → Except PyErr Y) (h : List (RBCall R D P L)) :
    (¬ RBReady init train h → ∀ x, (run (RBState.step init train) {} h).predict forward x = .error .valueError) ∧
    (RBReady init train h → ∃ p, ∀ x, (run (RBState.step init train) {} h).predict forward x = forward x p) := by
  obtain ⟨h2, h1⟩ := able_run (RBState.step init train) RBState.Able RBState.Sound (fun o c => c.trains ∧ (o.step init train c).2 = none) (rb_step init train) h {}
    (by simp [RBState.Sound, RBState.Able])
  constructor
  · intro hn x
    have : ¬ (run (RBState.step init train) {} h).Able := fun ha => by
      rcases h1.1 ha with h | h
      · simp [RBState.Able] at h
      · exact hn h
    rw [RBState.predict, if_pos]
    simpa [RBState.Able] using this
  · intro hr
    have ha := h1.2 (.inr hr)
    obtain ⟨e1, e2⟩ := h2 ha
    obtain ⟨l, hl⟩ := Option.ne_none_iff_exists'.1 e1
    obtain ⟨p, hp⟩ := Option.ne_none_iff_exists'.1 e2
    refine ⟨p, fun x => ?_⟩
    rw [RBState.predict, if_neg (by rcases ha with h | h <;> simp [h]), hl, hp]

lemma rb_never_loaded : ∀ (h : List (RBCall R D P L)) (o : RBState P L), o.loaded = false → (∀ c ∈ h, ¬ c.loads) → (run (RBState.step init train) o h).loaded = false
  | [], _, ho, _ => ho
  | c :: h, o, ho, hc => by
    refine rb_never_loaded h _ ?_ fun c' hc' => hc c' (List.mem_cons_of_mem _ hc')
    cases c with
    | compile h lr => exact ho
    | badFile e => exact ho
    | load h lr p => exact absurd trivial (hc _ List.mem_cons_self)
    | incomplete h lr =>
      match h, lr with
      | none, _ => exact ho
      | some h, none => exact ho
      | some h, some lr => exact ho
    | fit r d =>
      simp only [RBState.step, RBState.fit]
      split
      · exact ho
      · split
        · exact ho
        · split <;> exact ho

/-- C319 for RBF networks that never loaded a file: `compile` and `fit` do what they do on a new instance, whatever was called before. After a load they answer as a new
instance that loaded the file. -/
theorem C319_rbf_partial (forward : D → P → Except PyErr Y) (h : List (RBCall R D P L)) (hl : ∀ c ∈ h, ¬ c.loads) (n : Nat) (lr : L) (r : R) (d : D) :
    let o := ((run (RBState.step init train) {} h).step init train (.compile n lr)).1.step init train (.fit r d)
    let w := ((({} : RBState P L)).step init train (.compile n lr)).1.step init train (.fit r d)
    o.2 = w.2 ∧ (o.2 = none → ∀ x, o.1.predict forward x = w.1.predict forward x) := by
  have ho := rb_never_loaded init train h {} rfl hl
  generalize run (RBState.step init train) {} h = o at ho
  simp only [RBState.step, RBState.fit, ho, if_true]
  rcases train lr d (init n r) with ⟨p, _ | e⟩ <;> simp [RBState.predict]

/-- C319: a load that completes gives the network of the file, whatever was called before. -/
theorem C319_rbf_load_partial (forward : D → P → Except PyErr Y) (h : List (RBCall R D P L)) (n : Nat) (lr : L) (p : P) (x : D) :
    ((run (RBState.step init train) {} h).step init train (.load n lr p)).1.predict forward x = forward x p := by
  simp [RBState.step, RBState.predict]

/-- The same call with another number of hidden units and other random numbers. -/
def RBCall.redraw (f : Nat → Nat) (g : R → R) : RBCall R D P L → RBCall R D P L
  | .compile n lr => .compile (f n) lr
  | .fit r d => .fit (g r) d
  | c => c

lemma rb_ignored (f : Nat → Nat) (g : R → R) : ∀ (h : List (RBCall R D P L)) (o o' : RBState P L), o.loaded = true → o'.loaded = true → o.opt = o'.opt → o.params = o'.params →
    o.trained = o'.trained →
    (run (RBState.step init train) o (h.map (RBCall.redraw f g))).opt = (run (RBState.step init train) o' h).opt ∧
    (run (RBState.step init train) o (h.map (RBCall.redraw f g))).params = (run (RBState.step init train) o' h).params ∧
    (run (RBState.step init train) o (h.map (RBCall.redraw f g))).loaded = true ∧ (run (RBState.step init train) o' h).loaded = true
  | [], _, _, h1, h2, h3, h4, _ => ⟨h3, h4, h1, h2⟩
  | c :: h, o, o', h1, h2, h3, h4, h5 => by
    rw [List.map_cons, run, run]
    cases c with
    | compile n lr => exact rb_ignored f g h _ _ h1 h2 rfl h4 h5
    | badFile e => exact rb_ignored f g h _ _ h1 h2 h3 h4 h5
    | load n lr p => exact rb_ignored f g h _ _ rfl rfl rfl rfl h5
    | incomplete n lr =>
      match n, lr with
      | none, _ => exact rb_ignored f g h _ _ h1 h2 h3 h4 h5
      | some n, none => exact rb_ignored f g h _ _ h1 h2 h3 h4 h5
      | some n, some lr => exact rb_ignored f g h _ _ h1 h2 rfl h4 h5
    | fit r d =>
      have : ((o.step init train (.fit (g r) d)).1.loaded = true ∧ (o'.step init train (.fit r d)).1.loaded = true) ∧
          (o.step init train (.fit (g r) d)).1.opt = (o'.step init train (.fit r d)).1.opt ∧
          (o.step init train (.fit (g r) d)).1.params = (o'.step init train (.fit r d)).1.params ∧
          (o.step init train (.fit (g r) d)).1.trained = (o'.step init train (.fit r d)).1.trained := by
        simp only [RBState.step, RBState.fit, h1, h2, h3, h4]
        cases hp : o'.params with
        | none => simp [h1, h2, h3, h4, h5, hp]
        | some p =>
          cases hq : o'.opt with
          | none => simp [h1, h2, h3, h4, h5, hp, hq]
          | some lr =>
            dsimp only
            rcases htr : train lr d p with ⟨p', _ | e⟩ <;> simp [h1, h2, h3, h4, h5, hp, hq, htr]
      exact rb_ignored f g h _ _ this.1.1 this.1.2 this.2.1 this.2.2.1 this.2.2.2

/-- C319 fails after a load: the number of hidden units given to any later `compile` and the random numbers of any later `fit` are without effect; every fit continues from
the parameters the instance holds. -/
theorem C319_rbf_ignored (forward : D → P → Except PyErr Y) (h : List (RBCall R D P L)) (n : Nat) (lr : L) (p : P) (later : List (RBCall R D P L)) (f : Nat → Nat) (g : R → R) (x : D) :
    (run (RBState.step init train) {} (h ++ .load n lr p :: later.map (RBCall.redraw f g))).predict forward x =
      (run (RBState.step init train) {} (h ++ .load n lr p :: later)).predict forward x := by
  rw [run_append, run_append, run, run]
  obtain ⟨h1, h2, h3, h4⟩ := rb_ignored init train f g later ((run (RBState.step init train) {} h).step init train (.load n lr p)).1
    ((run (RBState.step init train) {} h).step init train (.load n lr p)).1 rfl rfl rfl rfl rfl
  rw [RBState.predict, RBState.predict, if_neg (by rw [h3]; simp), if_neg (by rw [h4]; simp), h1, h2]

/-- C319 fails after a load: training the loaded network without epochs that change anything keeps it, where a new instance gets the network of the initialiser. -/
theorem C319_rbf_violated (forward : D → P → Except PyErr Y) (n n' : Nat) (lr lr' : L) (p : P) (r : R) (d x : D) (htrain : ∀ q, train lr' d q = (q, none))
    (hne : forward x p ≠ forward x (init n' r)) :
    (run (RBState.step init train) {} [.load n lr p, .compile n' lr', .fit r d]).predict forward x ≠
      (run (RBState.step init train) {} [.compile n' lr', .fit r d]).predict forward x := by
  simpa [run, RBState.step, RBState.fit, RBState.predict, htrain] using hne

end CML.Failed
