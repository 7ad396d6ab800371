import Verif.Spec.TraceNet
import Verif.Props.Trace

set_option linter.unusedSectionVars false
set_option linter.unusedSimpArgs false

/-!
# Properties C312, C313: histories of calls of a network

back_propagation_neural_network.py:38-184.
-/

namespace CML.Failed

variable (lr₀ : ℝ)

lemma net_optimize (o : NetObj) (is : List Nat) (x y : Net.Mat) (start : List Net.Layer) :
    (o.optimize is x y start).1.loaded = o.loaded ∧ (o.optimize is x y start).1.layers = o.layers ∧ (o.optimize is x y start).1.lr = o.lr ∧
    ((o.optimize is x y start).2 = none → (o.optimize is x y start).1.trained = true ∧ o.lr ≠ none) ∧
    ((o.optimize is x y start).2 ≠ none → (o.optimize is x y start).1.trained = o.trained) ∧
    (o.trained = true → (o.optimize is x y start).1.trained = true) := by
  unfold NetObj.optimize
  cases h : o.lr with
  | none => simp
  | some lr =>
    dsimp only
    rcases hs : sgdLoop lr x y is start with ⟨P, _ | e⟩ <;> simp

lemma net_fit (o : NetObj) (rnd : Nat → ℕ → ℕ → ℝ) (is : List Nat) (x y : Net.Mat) :
    (o.fit rnd is x y).1.loaded = o.loaded ∧ (o.fit rnd is x y).1.layers = o.layers ∧ (o.fit rnd is x y).1.lr = o.lr ∧
    ((o.fit rnd is x y).2 = none → (o.fit rnd is x y).1.trained = true ∧ o.lr ≠ none) ∧
    ((o.fit rnd is x y).2 ≠ none → (o.fit rnd is x y).1.trained = o.trained) ∧
    (o.trained = true → (o.fit rnd is x y).1.trained = true) := by
  unfold NetObj.fit
  split
  · exact net_optimize o is x y _
  · split
    · exact net_optimize o is x y _
    · simp

/-- Able to predict. -/
def NetObj.Able (o : NetObj) : Prop := o.trained = true ∨ o.loaded = true

lemma net_step_able (o : NetObj) (c : NetCall) : ((o.step lr₀ c).1.Able ↔ o.Able ∨ (c.trains ∧ (o.step lr₀ c).2 = none)) := by
  cases c with
  | compile l lr => simp [NetObj.step, NetObj.Able, NetCall.trains]
  | badCompile l lr e => cases lr <;> simp [NetObj.step, NetObj.Able, NetCall.trains]
  | fit rnd is x y =>
    obtain ⟨h1, -, -, h4, h5, h6⟩ := net_fit o rnd is x y
    simp only [NetObj.step, NetObj.Able, NetCall.trains, true_and, h1]
    by_cases hc : (o.fit rnd is x y).2 = none
    · simp [hc, (h4 hc).1]
    · simp [hc, h5 hc]
  | load l ps => simp [NetObj.step, NetObj.Able, NetCall.trains]
  | incomplete l b => cases l <;> cases b <;> simp [NetObj.step, NetObj.Able, NetCall.trains]
  | badFile e => simp [NetObj.step, NetObj.Able, NetCall.trains]

lemma net_able : ∀ (h : List NetCall) (o : NetObj), (run (NetObj.step lr₀) o h).Able ↔ o.Able ∨ NetReady lr₀ o h
  | [], o => by simp [run, NetReady]
  | c :: h, o => by
    rw [run, net_able h, net_step_able]
    constructor
    · rintro ((h1 | ⟨h1, h2⟩) | ⟨pre, c', post, rfl, h1, h2⟩)
      · exact .inl h1
      · exact .inr ⟨[], c, h, rfl, h1, h2⟩
      · exact .inr ⟨c :: pre, c', post, rfl, h1, h2⟩
    · rintro (h1 | ⟨pre, c', post, he, h1, h2⟩)
      · exact .inl (.inl h1)
      · cases pre with
        | nil => cases he; exact .inl (.inr ⟨h1, h2⟩)
        | cons p pre => cases he; exact .inr ⟨pre, c', post, rfl, h1, h2⟩

/-- An instance able to predict has an optimiser. -/
def NetObj.Sound (o : NetObj) : Prop := o.Able → o.lr ≠ none

lemma net_sound_step (o : NetObj) (c : NetCall) (h : o.Sound) : (o.step lr₀ c).1.Sound := by
  cases c with
  | compile l lr => intro _; simp [NetObj.step]
  | badCompile l lr e =>
    cases lr with
    | none => exact h
    | some lr => intro _; simp [NetObj.step]
  | fit rnd is x y =>
    obtain ⟨h1, -, h3, h4, h5, h6⟩ := net_fit o rnd is x y
    intro ha
    simp only [NetObj.step] at ha ⊢
    rw [h3]
    by_cases hc : (o.fit rnd is x y).2 = none
    · exact (h4 hc).2
    · refine h ?_
      simpa only [NetObj.Able, h5 hc, h1] using ha
  | load l ps => intro _; simp [NetObj.step]
  | incomplete l b =>
    cases l with
    | none => exact h
    | some l =>
      cases b with
      | false => exact h
      | true => intro _; simp [NetObj.step]
  | badFile e => exact h

lemma net_sound : ∀ (h : List NetCall) (o : NetObj), o.Sound → (run (NetObj.step lr₀) o h).Sound
  | [], _, hs => hs
  | c :: h, o, hs => net_sound h _ (net_sound_step lr₀ o c hs)

/-- C312: after any history of calls on a new network, completed or not, `predict` refuses (`ValueError`) exactly if no call of `fit` and no call of `load_weights`
completed; afterwards it is the forward pass of the current parameters, never an error for want of an attribute. -/
theorem C312_ready (h : List NetCall) (x : Net.Mat) :
    (¬ NetReady lr₀ {} h → (run (NetObj.step lr₀) {} h).predict x = .error .valueError) ∧
    (NetReady lr₀ {} h → (run (NetObj.step lr₀) {} h).predict x = match Net.forward x (run (NetObj.step lr₀) {} h).parameters with
      | .error e => .error e
      | .ok (y, _) => .ok y) := by
  have h1 := net_able lr₀ h {}
  have h2 := net_sound lr₀ h {} (by simp [NetObj.Sound, NetObj.Able])
  constructor
  · intro hn
    have : ¬ (run (NetObj.step lr₀) {} h).Able := fun ha => by
      rcases h1.1 ha with h | h
      · simp [NetObj.Able] at h
      · exact hn h
    rw [NetObj.predict, if_pos]
    simpa [NetObj.Able] using this
  · intro hr
    have ha := h1.2 (.inr hr)
    obtain ⟨lr, hlr⟩ := Option.ne_none_iff_exists'.1 (h2 ha)
    rw [NetObj.predict, if_neg (by rcases ha with h | h <;> simp [h]), hlr]
    rfl

/-- A history with failures: a wrong name, a fit that raises for want of a structure, an incomplete file, then compile and a fit without epochs. -/
example : NetReady lr₀ {} [.fit (fun _ _ _ => 0) [] ⟨1, 1, fun _ _ => 0⟩ ⟨1, 1, fun _ _ => 0⟩, .incomplete (some [1]) true, .compile [1] 1,
      .fit (fun _ _ _ => 0) [] ⟨1, 1, fun _ _ => 0⟩ ⟨1, 1, fun _ _ => 0⟩] ∧
    ¬ NetReady lr₀ {} [.incomplete (some [1]) true, .fit (fun _ _ _ => 0) [] ⟨1, 1, fun _ _ => 0⟩ ⟨1, 1, fun _ _ => 0⟩] := by
  constructor
  · exact ⟨[_, _, _], _, [], rfl, trivial, rfl⟩
  · rw [← (by simpa [NetObj.Able] using net_able lr₀ _ {} : _ ↔ NetReady lr₀ {} _)]
    simp [run, NetObj.step, NetObj.fit]

/-! ## What a call of fit starts from -/

lemma net_loaded : ∀ (h : List NetCall) (o : NetObj), o.loaded = true → (run (NetObj.step lr₀) o h).loaded = true
  | [], _, ho => ho
  | c :: h, o, ho => by
    refine net_loaded h _ ?_
    cases c with
    | compile l lr => exact ho
    | badCompile l lr e => cases lr <;> exact ho
    | fit rnd is x y => exact (net_fit o rnd is x y).1.trans ho
    | load l ps => rfl
    | incomplete l b => cases l <;> cases b <;> exact ho
    | badFile e => exact ho

lemma net_not_loaded : ∀ (h : List NetCall) (o : NetObj), o.loaded = false → (∀ c ∈ h, ¬ c.loads) → (run (NetObj.step lr₀) o h).loaded = false
  | [], _, ho, _ => ho
  | c :: h, o, ho, hc => by
    refine net_not_loaded h _ ?_ fun c' hc' => hc c' (List.mem_cons_of_mem _ hc')
    cases c with
    | compile l lr => exact ho
    | badCompile l lr e => cases lr <;> exact ho
    | fit rnd is x y => exact (net_fit o rnd is x y).1.trans ho
    | load l ps => exact absurd trivial (hc _ List.mem_cons_self)
    | incomplete l b => cases l <;> cases b <;> exact ho
    | badFile e => exact ho

/-- C313: on an instance that never loaded a file, `compile` followed by `fit` does what they do on a new instance: same parameters, same exception, whatever was called
before. -/
theorem C313_fresh_partial (h : List NetCall) (hl : ∀ c ∈ h, ¬ c.loads) (l : List Nat) (lr : ℝ) (rnd : Nat → ℕ → ℕ → ℝ) (is : List Nat) (x y : Net.Mat) :
    let o := ((run (NetObj.step lr₀) {} h).step lr₀ (.compile l lr)).1.step lr₀ (.fit rnd is x y)
    let n := ((({} : NetObj)).step lr₀ (.compile l lr)).1.step lr₀ (.fit rnd is x y)
    o.2 = n.2 ∧ o.1.parameters = n.1.parameters ∧ (o.2 = none → ∀ q, o.1.predict q = n.1.predict q) := by
  have h0 := net_not_loaded lr₀ h {} rfl hl
  generalize run (NetObj.step lr₀) {} h = o at h0 ⊢
  simp only [NetObj.step, NetObj.fit, h0, Bool.false_eq_true, if_false, NetObj.optimize]
  rcases sgdLoop lr x y is (Net.initLayers rnd 0 (x.cols :: l)) with ⟨P, _ | e⟩
  · exact ⟨rfl, rfl, fun _ q => rfl⟩
  · exact ⟨rfl, rfl, fun h => by simp at h⟩

theorem net_compile_ignored (f : List Nat → List Nat) : ∀ (h : List NetCall) (o o' : NetObj), o.loaded = true →
    o'.parameters = o.parameters → o'.lr = o.lr → o'.trained = o.trained → o'.loaded = o.loaded →
    ∀ x, (run (NetObj.step lr₀) o' (h.map (NetCall.restructure f))).predict x = (run (NetObj.step lr₀) o h).predict x
  | [], o, o', _, h1, h2, h3, h4, x => by simp only [run, List.map_nil, NetObj.predict, h1, h2, h3, h4]; rfl
  | c :: h, o, o', ho, h1, h2, h3, h4, x => by
    rw [List.map_cons, run, run]
    have hl' : (o.step lr₀ c).1.loaded = true := net_loaded lr₀ [c] o ho
    refine net_compile_ignored f h _ _ hl' ?_ ?_ ?_ ?_ x <;>
    · cases c with
      | compile l lr => simp [NetObj.step, NetCall.restructure, h1, h2, h3, h4]
      | badCompile l lr e => cases lr <;> simp [NetObj.step, NetCall.restructure, h1, h2, h3, h4]
      | fit rnd is x y =>
        simp only [NetObj.step, NetCall.restructure, NetObj.fit, h4, ho, if_true, h1, NetObj.optimize, h2]
        cases o.lr with
        | none => simp [h1, h2, h3, h4, ho]
        | some lr =>
          dsimp only
          rcases sgdLoop lr _ _ is o.parameters with ⟨P, _ | e⟩ <;> simp [h1, h2, h3, h4, ho]
      | load l ps => simp [NetObj.step, NetCall.restructure, h1, h2, h3, h4]
      | incomplete l b => cases l <;> cases b <;> simp [NetObj.step, NetCall.restructure, h1, h2, h3, h4]
      | badFile e => simp [NetObj.step, NetCall.restructure, h1, h2, h3, h4]

/-- C313 fails for an instance that ever loaded a file: the network structures compiled afterwards are ignored - replacing them by any others changes no later answer. -/
theorem C313_structure_ignored (h : List NetCall) (l : List Nat) (ps : List Net.Layer) (later : List NetCall) (f : List Nat → List Nat) (x : Net.Mat) :
    (run (NetObj.step lr₀) {} (h ++ .load l ps :: later.map (NetCall.restructure f))).predict x = (run (NetObj.step lr₀) {} (h ++ .load l ps :: later)).predict x := by
  rw [run_append, run_append]
  exact net_compile_ignored lr₀ f later _ _ rfl rfl rfl rfl rfl x

/-- C313 fails for an instance that ever loaded a file: `compile` and `fit` continue from the parameters the instance holds; the random start is not used. -/
theorem C313_continues (h : List NetCall) (l : List Nat) (ps : List Net.Layer) (later : List NetCall) (l' : List Nat) (lr : ℝ) (rnd : Nat → ℕ → ℕ → ℝ)
    (is : List Nat) (x y : Net.Mat) :
    let o := run (NetObj.step lr₀) {} (h ++ .load l ps :: later)
    (((o.step lr₀ (.compile l' lr)).1.step lr₀ (.fit rnd is x y)).1.parameters, ((o.step lr₀ (.compile l' lr)).1.step lr₀ (.fit rnd is x y)).2) =
      sgdLoop lr x y is o.parameters := by
  have hl : (run (NetObj.step lr₀) {} (h ++ .load l ps :: later)).loaded = true := by
    rw [run_append]
    exact net_loaded lr₀ later _ rfl
  generalize run (NetObj.step lr₀) {} (h ++ .load l ps :: later) = o at hl ⊢
  simp only [NetObj.step, NetObj.fit, hl, if_true, NetObj.optimize]
  rcases sgdLoop lr x y is o.parameters with ⟨P, _ | e⟩ <;> rfl

/-- C313: loading a file into a network that has no more layers than the file gives the network of the file. -/
theorem C313_load_partial (h : List NetCall) (l : List Nat) (ps : List Net.Layer) (hlen : (run (NetObj.step lr₀) {} h).parameters.length ≤ ps.length) (x : Net.Mat) :
    ((run (NetObj.step lr₀) {} h).step lr₀ (.load l ps)).1.parameters = ps ∧
    ((run (NetObj.step lr₀) {} h).step lr₀ (.load l ps)).1.predict x = ((({} : NetObj)).step lr₀ (.load l ps)).1.predict x := by
  have e : overwrite (run (NetObj.step lr₀) {} h).parameters ps = ps := by
    rw [overwrite, List.drop_eq_nil_of_le hlen, List.append_nil]
  refine ⟨e, ?_⟩
  simp only [NetObj.step, NetObj.predict, e]
  simp [overwrite]

/-- C313 fails for deeper networks: the layers beyond those of the file stay in the loading instance. -/
theorem C313_layers_left (h : List NetCall) (l : List Nat) (ps : List Net.Layer) :
    ((run (NetObj.step lr₀) {} h).step lr₀ (.load l ps)).2 = none ∧
    ((run (NetObj.step lr₀) {} h).step lr₀ (.load l ps)).1.parameters = ps ++ (run (NetObj.step lr₀) {} h).parameters.drop ps.length := ⟨rfl, rfl⟩

/-- A network of one unit without hidden layer. -/
noncomputable def unitLayer (w : ℝ) : Net.Layer := ⟨⟨1, 1, fun _ _ => w⟩, ⟨1, 1, fun _ _ => 0⟩⟩

/-- C313: an instance that loaded a network of two layers and then loads one of a single layer answers 1/2 for the row -1; a new instance that loads the second file
answers less. -/
theorem C313_violated : ∃ y y', ((run (NetObj.step lr₀) {} [.load [1, 1] [unitLayer 1, unitLayer 1]]).step lr₀ (.load [1] [unitLayer 1])).1.predict ⟨1, 1, fun _ _ => -1⟩ = .ok y ∧
    ((({} : NetObj)).step lr₀ (.load [1] [unitLayer 1])).1.predict ⟨1, 1, fun _ _ => -1⟩ = .ok y' ∧ y.e 0 0 = 1 / 2 ∧ y'.e 0 0 < 1 / 2 := by
  refine ⟨_, _, by
    simp only [run, NetObj.step, NetObj.predict, overwrite, Net.forward, unitLayer, Net.matmulT, Net.addBias, List.drop, List.nil_append, List.append_nil,
      List.length_cons, List.length_nil, List.cons_append, Bool.true_eq_false, and_false, if_false, if_true, ne_eq, not_true_eq_false, zero_add]
    rfl, by
    simp only [run, NetObj.step, NetObj.predict, overwrite, Net.forward, unitLayer, Net.matmulT, Net.addBias, List.drop, List.nil_append, List.append_nil,
      List.length_cons, List.length_nil, List.cons_append, Bool.true_eq_false, and_false, if_false, if_true, ne_eq, not_true_eq_false, zero_add]
    rfl, ?_, ?_⟩
  · simp [sigmoid, relu]
    norm_num
  · simp [sigmoid]
    rw [inv_lt_inv₀ (by positivity) (by norm_num)]
    have := Real.add_one_lt_exp (one_ne_zero : (1 : ℝ) ≠ 0)
    linarith

end CML.Failed
