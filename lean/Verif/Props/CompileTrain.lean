import Verif.Props.Compile

set_option linter.unusedSectionVars false

/-! # C174, C175: which compiled models can be trained -/

namespace CML.Comp
open CML.Net (Mat Layer)
open CML.Getters

variable {σ : Type}

/-! ## Watching -/

theorem watch_ok {w : Watch} (hw : w.Clean) {c : OptCls} {loss : Option LossObj} {metric : Option MetricObj} (h : Watchable w c loss metric) (p : Params) :
    watch w c loss metric p = .ok () := by
  unfold watch
  by_cases ho : w.on = false
  · rw [if_pos ho]
  · obtain ⟨l, m, rfl, rfl, hl⟩ := h (by simpa using ho)
    rw [if_neg ho]
    have : ¬ (l.cls = .logLikelihood ∧ ¬ ((c = .gd ∨ c = .newton) ∧ l.name = "log_likelihood")) := fun ⟨h1, h2⟩ => h2 (hl h1)
    simp only [if_neg this, hw.1, hw.2]

theorem watch_err {w : Watch} {c : OptCls} {loss : Option LossObj} {metric : Option MetricObj} (h : ¬ Watchable w c loss metric) (p : Params) :
    ∃ e, watch w c loss metric p = .error e := by
  have ho : w.on = true := by
    by_contra ho
    exact h fun h' => absurd h' ho
  unfold watch
  rw [if_neg (by simp [ho])]
  cases loss with
  | none => exact ⟨_, rfl⟩
  | some l =>
    by_cases hl : l.cls = .logLikelihood ∧ ¬ ((c = .gd ∨ c = .newton) ∧ l.name = "log_likelihood")
    · exact ⟨.indexError, by simp only [if_pos hl]⟩
    · simp only [if_neg hl]
      cases w.lossErr l.cls p with
      | some e => exact ⟨e, rfl⟩
      | none =>
        cases metric with
        | none => exact ⟨_, rfl⟩
        | some m => exact absurd (fun _ => ⟨l, m, rfl, rfl, fun h1 => by by_contra h2; exact hl ⟨h1, h2⟩⟩) h

/-! ## The loops -/

theorem loop_ok {S : Type} {step : Nat → S → σ → Except PyErr (S × σ)} {mon : S → Except PyErr Unit} {Q : S → Prop}
    (hst : ∀ t S s, Q S → ∃ S' s', step t S s = .ok (S', s') ∧ Q S') (hm : ∀ S, mon S = .ok ()) : ∀ (k t : Nat) (S : S) (s : σ), Q S →
    ∃ r, loop step mon t k S s = .ok r
  | 0, t, S, s, hQ => ⟨_, rfl⟩
  | k + 1, t, S, s, hQ => by
    obtain ⟨S', s', h1, hQ'⟩ := hst t S s hQ
    obtain ⟨r, hr⟩ := loop_ok hst hm k (t + 1) S' s' hQ'
    exact ⟨r, by rw [loop]; simp only [h1, hm, hr]⟩

theorem loop_err {S : Type} {step : Nat → S → σ → Except PyErr (S × σ)} {mon : S → Except PyErr Unit} (S : S) (s : σ) (k : Nat) (hk : 0 < k) (t : Nat)
    (h : (∃ e, step t S s = .error e) ∨ ∀ S', ∃ e, mon S' = .error e) : ∃ e, loop step mon t k S s = .error e := by
  obtain ⟨k, rfl⟩ : ∃ j, k = j + 1 := ⟨k - 1, by omega⟩
  rw [loop]
  cases hs : step t S s with
  | error e => exact ⟨e, rfl⟩
  | ok r =>
    rcases h with ⟨e, he⟩ | h
    · rw [hs] at he; cases he
    · obtain ⟨e, he⟩ := h r.1
      exact ⟨e, by simp only [he]⟩

theorem pure1_err {f : Params → Except PyErr Params} {p : Params} (h : ∃ e, f p = .error e) (t : Nat) (s : σ) : ∃ e, pure1 f t p s = .error e := by
  obtain ⟨e, he⟩ := h
  exact ⟨e, by simp only [pure1, he]⟩

/-- A run that cannot be watched raises, whatever the optimiser. -/
theorem run_unwatchable (g : Gen σ) (w : Watch) (o : OptObj) {loss : Option LossObj} {metric : Option MetricObj} (h : ¬ Watchable w o.cls loss metric)
    (x : Mat) (y : RBF.Labels) (epochs : Nat) (he : 0 < epochs) (p : Params) (s : σ) : ∃ e, run g w o loss metric x y epochs p s = .error e := by
  unfold run
  cases hc : o.cls with
  | gd => rw [hc] at h; exact loop_err _ _ _ he _ (.inr fun S' => watch_err h S')
  | newton => rw [hc] at h; exact loop_err _ _ _ he _ (.inr fun S' => watch_err h S')
  | sgd => rw [hc] at h; exact loop_err _ _ _ he _ (.inr fun S' => watch_err h S')
  | rbf => rw [hc] at h; exact loop_err _ _ _ he _ (.inr fun S' => watch_err h S')
  | smo => exact ⟨_, rfl⟩
  | adam =>
    rw [hc] at h
    dsimp only
    cases ha : adamStart p with
    | error e => exact ⟨e, rfl⟩
    | ok S =>
      obtain ⟨e, he⟩ := loop_err (step := adamEpoch g o x y) (mon := fun S => watch w .adam loss metric (adamParams S)) S s epochs he 1
        (.inr fun S' => watch_err h _)
      exact ⟨e, by simp only [he]⟩

theorem train_err {g : Gen σ} {w : Watch} {o : Inst} {p' : OptObj} (hp : o.optimizer = some p') {x : Mat} {y : RBF.Labels} {epochs : Nat} {p : Params} {s : σ}
    (h : ∃ e, run g w p' o.loss o.metric x y epochs p s = .error e) : ∃ e, train g w o x y epochs p s = .error e := by
  obtain ⟨e, he⟩ := h
  exact ⟨e, by simp only [train, hp, he]⟩

theorem train_ok {g : Gen σ} {w : Watch} {o : Inst} {p' : OptObj} (hp : o.optimizer = some p') {x : Mat} {y : RBF.Labels} {epochs : Nat} {p : Params} {s : σ}
    (h : ∃ r, run g w p' o.loss o.metric x y epochs p s = .ok r) : ∃ r, train g w o x y epochs p s = .ok r := by
  obtain ⟨r, hr⟩ := h
  exact ⟨_, by simp only [train, hp, hr]; rfl⟩

/-! ## Logistic regression -/

/-- Two samples with the features 0 and 1. -/
def line : Fin 2 → Fin 1 → ℝ := fun i _ => ((i : ℕ) : ℝ)

theorem newton_det (beta : Fin 2 → ℝ) : (LogReg.hessian (LogReg.forward line beta) (LogReg.hat line)).det ≠ 0 := by
  rw [Matrix.det_fin_two]
  simp only [LogReg.hessian_apply, Fin.sum_univ_two]
  have h0 : ∀ i : Fin 2, LogReg.hat line i 0 = (i : ℕ) := fun i => rfl
  have h1 : ∀ i : Fin 2, LogReg.hat line i 1 = 1 := fun i => rfl
  simp only [h0, h1]
  set p := LogReg.forward line beta
  have hp : ∀ i, 0 < p i * (1 - p i) := fun i => mul_pos (LogReg.sigmoid_pos _) (by linarith [LogReg.sigmoid_lt_one (LogReg.scores line beta i), show p i = sigmoid _ from rfl])
  have := mul_pos (hp 0) (hp 1)
  norm_num
  nlinarith [this]

/-- C174 for logistic regression: a compiled model can be trained on some data iff its optimiser is one of the two made for it, its initialiser is not that
of RBF networks, and, if the training is watched, there is a metric and the loss fits; otherwise `fit` raises on all data. `compile` accepts either. -/
theorem C174_logistic_partial (g : Gen σ) {w : Watch} (hw : w.Clean) (o : Inst) (ho : o.loaded = false) (p : OptObj) (hp : o.optimizer = some p) (i : InitObj)
    (hi : o.initializer = .obj i) :
    (MadeFor .logistic p.cls ∧ i.cls ≠ .rbfNormal ∧ Watchable w p.cls o.loss o.metric → Trainable (fitLR g w) o) ∧
    (¬ (MadeFor .logistic p.cls ∧ i.cls ≠ .rbfNormal ∧ Watchable w p.cls o.loss o.metric) → Useless (fitLR g w) o) := by
  constructor
  · rintro ⟨hm, hic, hwt⟩
    refine ⟨⟨2, 1, fun i _ => (i : ℝ)⟩, .vec 2 fun i => (i : ℝ), by decide, by decide, fun epochs s => ?_⟩
    obtain ⟨k, hk⟩ : ∃ k, kindOf i.cls = some k := by
      cases hc : i.cls <;> first | exact ⟨_, rfl⟩ | exact absurd hc hic
    unfold fitLR fitWith
    simp only [ho, Bool.false_eq_true, if_false, hi, initBeta, hk]
    refine train_ok hp ?_
    have gen : ∀ f : Params → Except PyErr Params, (∀ b, ∃ b', f (.arr 2 b) = .ok (.arr 2 b')) → ∀ b (s : σ), ∃ r,
        loop (pure1 f) (watch w p.cls o.loss o.metric) 1 epochs (.arr 2 b) s = .ok r := by
      intro f hf b s
      refine loop_ok (Q := fun q => ∃ b, q = .arr 2 b) ?_ (fun S => watch_ok hw hwt S) _ _ _ _ ⟨b, rfl⟩
      rintro t _ s ⟨b, rfl⟩
      obtain ⟨b', hb'⟩ := hf b
      exact ⟨_, s, by simp only [pure1, hb'], b', rfl⟩
    unfold run
    rcases hm with hm | hm
    · rw [hm] at gen ⊢
      refine gen _ (fun b => ⟨extend (LogReg.gdStep (hyp p 0) line (fun i => ((i : ℕ) : ℝ)) fun j => b j), ?_⟩) _ _
      simp only [gdEpoch, flat, and_self, if_true]
      rfl
    · rw [hm] at gen ⊢
      refine gen _ (fun b => ?_) _ _
      simp only [newtonEpoch, flat, and_self, if_true]
      have hd := newton_det fun j => b j
      obtain ⟨b', e⟩ : ∃ b', LogReg.newtonStep (xFin ⟨2, 1, fun i _ => (i : ℝ)⟩) (fun i : Fin 2 => ((i : ℕ) : ℝ)) (fun j : Fin 2 => b j) = .ok b' :=
        ⟨_, if_neg hd⟩
      exact ⟨extend b', by simp only [e]⟩
  · intro hn x y epochs s hx he
    unfold fitLR fitWith
    simp only [ho, Bool.false_eq_true, if_false, hi, initBeta]
    cases hk : kindOf i.cls with
    | none => exact ⟨_, rfl⟩
    | some k =>
      refine train_err hp ?_
      by_cases hwt : Watchable w p.cls o.loss o.metric
      · have hic : i.cls ≠ .rbfNormal := by rintro h; rw [h] at hk; cases hk
        have hm : ¬ MadeFor .logistic p.cls := fun h => hn ⟨h, hic, hwt⟩
        unfold run
        cases hc : p.cls with
        | gd => exact absurd (.inl hc) hm
        | newton => exact absurd (.inr hc) hm
        | smo => exact ⟨_, rfl⟩
        | rbf => exact loop_err _ _ _ he _ (.inl (pure1_err ⟨_, rfl⟩ _ _))
        | sgd => exact loop_err _ _ _ he _ (.inl ⟨_, by simp only [uncounted, sgdEpoch, if_neg (show ¬ x.rows = 0 by omega)]; rfl⟩)
        | adam =>
          dsimp only
          by_cases h2 : 2 ≤ x.cols + 1
          · exact ⟨_, by simp only [adamStart, if_pos h2]; rfl⟩
          · simp only [adamStart, if_neg h2]
            obtain ⟨e, he⟩ := loop_err (step := adamEpoch g p x y) (mon := fun S => watch w .adam o.loss o.metric (adamParams S))
              (.inr (.arr (x.cols + 1) fun j => (Init.callInt g.toRng k x.cols s).1.e j 0)) (Init.callInt g.toRng k x.cols s).2 epochs he 1
              (.inl ⟨_, by simp only [adamEpoch, if_neg (show ¬ x.rows = 0 by omega)]; rfl⟩)
            exact ⟨e, by simp only [he]⟩
      · exact run_unwatchable g w p hwt x y epochs he _ _

/-! ## Networks -/

theorem shaped_last_zero : ∀ (P : List Layer) (sizes : List Nat) (x : Mat), Net.Shaped sizes P → Net.lastSize sizes = 0 → ∃ e, Net.forward x P = .error e
  | [], _, _, _, _ => ⟨_, rfl⟩
  | [L], [d, m], x, h, h0 => by
    obtain ⟨⟨h1, h2, h3, h4⟩, -⟩ := h
    simp only [Net.lastSize] at h0
    rw [Net.forward]
    unfold Net.matmulT
    split
    · exact ⟨_, rfl⟩
    · rename_i z0 hz
      split at hz
      · simp only [Except.ok.injEq] at hz
        subst hz
        simp only [Net.addBias, h3, h4, h1, ne_eq, not_true_eq_false, if_false, if_true, h0, if_neg (show ¬ (0 : ℕ) = 1 by decide), Net.softmaxMat, Net.entries,
          List.range_zero, List.map_nil]
        have hf : List.flatMap (fun _ => ([] : List ℝ)) (List.range x.rows) = [] := by simp
        rw [hf]
        exact ⟨.valueError, rfl⟩
      · cases hz
  | [L], d :: m :: k :: rest, x, h, _ => h.2.elim
  | L :: L' :: Ls, d :: m :: rest, x, h, h0 => by
    have hr : ∃ m', rest = m' :: rest.tail := by
      cases rest with
      | nil => exact h.2.elim
      | cons a b => exact ⟨a, rfl⟩
    obtain ⟨m', hr⟩ := hr
    rw [hr] at h h0
    rw [Net.forward]
    split
    · exact ⟨_, rfl⟩
    · split
      · exact ⟨_, rfl⟩
      · rename_i z hz
        obtain ⟨e, he⟩ := shaped_last_zero (L' :: Ls) (m :: m' :: rest.tail) ⟨z.rows, z.cols, fun i j => relu (z.e i j)⟩ h.2 h0
        exact ⟨e, by simp only [he]⟩

theorem forward_nil_or_zero {sizes : List Nat} {d : Nat} {P : List Layer} (h : Net.Shaped (d :: sizes) P) (h0 : sizes = [] ∨ Net.lastSize sizes = 0) (x : Mat) :
    ∃ e, Net.forward x P = .error e := by
  cases sizes with
  | nil =>
    cases P with
    | nil => exact ⟨_, rfl⟩
    | cons L Ls => exact h.elim
  | cons m rest => exact shaped_last_zero P _ x h (h0.resolve_left (by simp))

theorem sgdEpoch_ok (g : Gen σ) (hg : g.Sound) (lr : ℝ) {x y : Mat} {d m : Nat} {rest : List Nat} (hx : x.cols = d) (hk : 0 < Net.lastSize (d :: m :: rest))
    (hy : y.cols = Net.lastSize (d :: m :: rest)) (hr : 0 < x.rows) (hyr : y.rows = x.rows) {P : List Layer} (hP : Net.Shaped (d :: m :: rest) P) (s : σ) :
    ∃ P' s', sgdEpoch g lr x (.mat y) (.net P) s = .ok (.net P', s') ∧ Net.Shaped (d :: m :: rest) P' := by
  have hi := hg s x.rows hr
  obtain ⟨P', h1, h2⟩ := Net.C49_training_keeps_shapes lr x y hx hk hy [(g.randint s x.rows).1] (by simp; omega) P hP
  simp only [Net.sgdRun] at h1
  cases hs : Net.sgdStep lr x y P (g.randint s x.rows).1 with
  | error e => rw [hs] at h1; cases h1
  | ok Q =>
    rw [hs] at h1
    simp only [Except.ok.injEq] at h1
    subst h1
    exact ⟨Q, (g.randint s x.rows).2, by simp only [sgdEpoch, if_neg (show ¬ x.rows = 0 by omega), asMat, hs], h2⟩

/-- The state of Adam on a network of the given sizes. -/
def AdamReady (sizes : List Nat) (S : List Net.AdamLayer ⊕ Params) : Prop :=
  ∃ T, S = .inl T ∧ Net.Shaped sizes (Net.layersOf T) ∧ ∀ L ∈ T, (∃ E, Net.Entries L.w E) ∧ ∃ E, Net.Entries L.b E

theorem adamReady_init {sizes : List Nat} {P : List Layer} (hP : Net.Shaped sizes P) : AdamReady sizes (.inl (Net.adamInit P)) := by
  refine ⟨_, rfl, by rw [layersOf_adamInit]; exact hP, ?_⟩
  intro L hL
  simp only [Net.adamInit, List.mem_map] at hL
  obtain ⟨M, -, rfl⟩ := hL
  exact ⟨⟨_, Net.entries_init M.w⟩, ⟨_, Net.entries_init M.b⟩⟩

theorem adamEpoch_ok (g : Gen σ) (hg : g.Sound) (o : OptObj) {x y : Mat} {d m : Nat} {rest : List Nat} (hx : x.cols = d) (hk : 0 < Net.lastSize (d :: m :: rest))
    (hy : y.cols = Net.lastSize (d :: m :: rest)) (hr : 0 < x.rows) (hyr : y.rows = x.rows) (t : Nat) (S : List Net.AdamLayer ⊕ Params) (s : σ)
    (hS : AdamReady (d :: m :: rest) S) : ∃ S' s', adamEpoch g o x (.mat y) t S s = .ok (S', s') ∧ AdamReady (d :: m :: rest) S' := by
  obtain ⟨T, rfl, hT, hE⟩ := hS
  have hi := hg s x.rows hr
  obtain ⟨gs, h1, h2⟩ := Net.sampleGrad_ok x y (g.randint s x.rows).1 hT hx hk (.inl hy) hi (by omega)
  have hlen : gs.length = T.length := by rw [← h2.length_eq]; simp [Net.layersOf]
  have hready : List.Forall₂ Net.Ready T gs := by
    refine Net.forall₂_of_getElem _ _ hlen.symm ?_
    intro l a b ha hb
    have hg := Net.forall₂_getElem h2 l ⟨a.w.p, a.b.p⟩ b (by simp [Net.layersOf, ha]) hb
    have := hE a (List.mem_of_getElem? ha)
    exact ⟨this.1, this.2, hg.1, hg.2⟩
  obtain ⟨T', hu, hl', hst⟩ := Net.adamUpdate_ok (hyp o 0) (hyp o 1) (hyp o 2) (hyp o 3) t hready
  refine ⟨.inl T', (g.randint s x.rows).2, by simp only [adamEpoch, if_neg (show ¬ x.rows = 0 by omega), asMat, h1, hu], T', rfl, ?_, ?_⟩
  · exact Net.shaped_congr _ _ _ hT (adamUpdate_shape _ _ _ _ _ _ _ _ hu)
  · intro L hL
    obtain ⟨l, hl, rfl⟩ := List.getElem_of_mem hL
    have h3 := hst l T[l] gs[l] T'[l] (List.getElem?_eq_getElem (by omega)) (List.getElem?_eq_getElem (by omega)) (List.getElem?_eq_getElem hl)
    obtain ⟨⟨Ew, hw⟩, ⟨Eb, hb⟩⟩ := hE T[l] (List.getElem_mem _)
    exact ⟨⟨_, h3.1.2 Ew hw⟩, ⟨_, h3.2.2 Eb hb⟩⟩

/-- C174 for networks: additionally the structure must name an output layer with at least one unit. -/
theorem C174_network_partial (g : Gen σ) (hg : g.Sound) {w : Watch} (hw : w.Clean) (o : Inst) (ho : o.loaded = false) (p : OptObj) (hp : o.optimizer = some p)
    (i : InitObj) (hi : o.initializer = .obj i) (ls : List Nat) (hl : o.layers = some ls) :
    (MadeFor .network p.cls ∧ i.cls ≠ .rbfNormal ∧ Watchable w p.cls o.loss o.metric ∧ ls ≠ [] ∧ 0 < Net.lastSize ls → Trainable (fitNN g w) o) ∧
    (¬ (MadeFor .network p.cls ∧ i.cls ≠ .rbfNormal ∧ Watchable w p.cls o.loss o.metric ∧ ls ≠ [] ∧ 0 < Net.lastSize ls) → Useless (fitNN g w) o) := by
  constructor
  · rintro ⟨hm, hic, hwt, hne, hpos⟩
    obtain ⟨k, hk⟩ : ∃ k, kindOf i.cls = some k := by
      cases hc : i.cls <;> first | exact ⟨_, rfl⟩ | exact absurd hc hic
    obtain ⟨m, rest, rfl⟩ := List.exists_cons_of_ne_nil hne
    refine ⟨⟨1, 1, fun _ _ => 1⟩, .mat ⟨1, Net.lastSize (m :: rest), fun _ _ => 0⟩, by decide, by decide, fun epochs s => ?_⟩
    unfold fitNN fitWith
    simp only [ho, Bool.false_eq_true, if_false, hi, hl, initNet, hk]
    refine train_ok hp ?_
    have hS := netLayers_shaped g k (1 :: m :: rest) s (by simp)
    unfold run
    rcases hm with hm | hm
    · rw [hm] at hwt ⊢
      refine loop_ok (Q := fun q => ∃ P, q = .net P ∧ Net.Shaped (1 :: m :: rest) P) ?_ (fun S => watch_ok hw hwt S) _ _ _ _ ⟨_, rfl, hS⟩
      rintro t _ s ⟨P, rfl, hP⟩
      obtain ⟨P', s', h1, h2⟩ := sgdEpoch_ok g hg (hyp p 0) (x := ⟨1, 1, fun _ _ => 1⟩) (y := ⟨1, Net.lastSize (m :: rest), fun _ _ => 0⟩) rfl hpos rfl
        (by decide) rfl hP s
      exact ⟨_, s', h1, P', rfl, h2⟩
    · rw [hm] at hwt ⊢
      obtain ⟨r, hr⟩ := loop_ok (Q := AdamReady (1 :: m :: rest)) (mon := fun S => watch w .adam o.loss o.metric (adamParams S))
        (fun t S s hS => adamEpoch_ok g hg p (x := ⟨1, 1, fun _ _ => 1⟩) (y := ⟨1, Net.lastSize (m :: rest), fun _ _ => 0⟩) rfl hpos rfl (by decide) rfl t S s hS)
        (fun S => watch_ok hw hwt _) epochs 1 _ (netLayers g k (1 :: m :: rest) s).2 (adamReady_init hS)
      exact ⟨_, by simp only [adamStart, hr]; rfl⟩
  · intro hn x y epochs s hx he
    unfold fitNN fitWith
    simp only [ho, Bool.false_eq_true, if_false, hi, hl, initNet]
    cases hk : kindOf i.cls with
    | none => exact ⟨_, rfl⟩
    | some k =>
      refine train_err hp ?_
      by_cases hwt : Watchable w p.cls o.loss o.metric
      · have hic : i.cls ≠ .rbfNormal := by rintro h; rw [h] at hk; cases hk
        have hx0 : ¬ x.rows = 0 := by omega
        have hS := netLayers_shaped g k (x.cols :: ls) s (by simp)
        have bad : MadeFor .network p.cls → ∀ a, ∃ e, Net.forward a (netLayers g k (x.cols :: ls) s).1 = .error e := by
          intro hm a
          refine forward_nil_or_zero hS ?_ a
          by_contra hc
          push Not at hc
          exact hn ⟨hm, hic, hwt, hc.1, by omega⟩
        unfold run
        cases hc : p.cls with
        | gd => exact loop_err _ _ _ he _ (.inl (pure1_err ⟨_, rfl⟩ _ _))
        | newton => exact loop_err _ _ _ he _ (.inl (pure1_err ⟨_, rfl⟩ _ _))
        | smo => exact ⟨_, rfl⟩
        | rbf => exact loop_err _ _ _ he _ (.inl (pure1_err ⟨_, rfl⟩ _ _))
        | sgd =>
          refine loop_err _ _ _ he _ (.inl ?_)
          obtain ⟨e, hbad⟩ := bad (.inl hc) (Net.rowOf x (g.randint (netLayers g k (x.cols :: ls) s).2 x.rows).1)
          simp only [uncounted, sgdEpoch, if_neg hx0, Net.sgdStep, hbad]
          by_cases hb : x.rows ≤ (g.randint (netLayers g k (x.cols :: ls) s).2 x.rows).1 ∨ (asMat y).rows ≤ (g.randint (netLayers g k (x.cols :: ls) s).2 x.rows).1
          · exact ⟨.indexError, by simp only [if_pos hb]⟩
          · exact ⟨e, by simp only [if_neg hb]⟩
        | adam =>
          dsimp only [adamStart]
          obtain ⟨e, hbad⟩ := bad (.inr hc) (Net.rowOf x (g.randint (netLayers g k (x.cols :: ls) s).2 x.rows).1)
          have hstep : ∃ e, adamEpoch g p x y 1 (.inl (Net.adamInit (netLayers g k (x.cols :: ls) s).1)) (netLayers g k (x.cols :: ls) s).2 = .error e := by
            simp only [adamEpoch, if_neg hx0, Net.sampleGrad, layersOf_adamInit, hbad]
            by_cases hb : x.rows ≤ (g.randint (netLayers g k (x.cols :: ls) s).2 x.rows).1 ∨
                (asMat y).rows ≤ (g.randint (netLayers g k (x.cols :: ls) s).2 x.rows).1
            · exact ⟨.indexError, by simp only [if_pos hb]⟩
            · exact ⟨e, by simp only [if_neg hb]⟩
          obtain ⟨e', he'⟩ := loop_err (mon := fun S => watch w .adam o.loss o.metric (adamParams S)) _ _ epochs he 1 (.inl hstep)
          exact ⟨e', by simp only [he']⟩
      · exact run_unwatchable g w p hwt x y epochs he _ _

/-! ## RBF networks -/

/-- C174 for RBF networks: the number of hidden units must not be negative, and the optimiser must be the one made for it. -/
theorem C174_rbf_partial (g : Gen σ) {w : Watch} (hw : w.Clean) (o : Inst) (ho : o.loaded = false) (p : OptObj) (hp : o.optimizer = some p)
    (i : InitObj) (hi : o.initializer = .obj i) (hic : i.cls = .rbfNormal) (h : Int) (hh : o.hidden = some h) :
    (MadeFor .rbfNetwork p.cls ∧ Watchable w p.cls o.loss o.metric ∧ 0 ≤ h → Trainable (fitRBF g w) o) ∧
    (¬ (MadeFor .rbfNetwork p.cls ∧ Watchable w p.cls o.loss o.metric ∧ 0 ≤ h) → Useless (fitRBF g w) o) := by
  constructor
  · rintro ⟨hm, hwt, hpos⟩
    have hm : p.cls = .rbf := hm
    refine ⟨⟨1, 2, fun _ _ => 1⟩, .mat ⟨1, 1, fun _ _ => 0⟩, by decide, by decide, fun epochs s => ?_⟩
    unfold fitRBF fitWith
    simp only [ho, Bool.false_eq_true, if_false, hi, hh, initRBF, hic, if_true, if_neg (show ¬ h < 0 by omega)]
    refine train_ok hp ?_
    unfold run
    rw [hm] at hwt ⊢
    refine loop_ok (Q := fun q => ∃ P, q = .rbf P ∧ RBF.Shaped h.toNat P) ?_ (fun S => watch_ok hw hwt S) _ _ _ _ ⟨_, rfl, ⟨rfl, rfl⟩, ⟨rfl, rfl⟩, ⟨rfl, rfl⟩, ⟨rfl, rfl⟩⟩
    rintro t _ s ⟨P, rfl, hP⟩
    obtain ⟨P', h1, h2, -⟩ := RBF.C91_column_labels_partial (hyp p 0) (x := ⟨1, 2, fun _ _ => 1⟩) (y := ⟨1, 1, fun _ _ => 0⟩) rfl rfl rfl 1 P hP
    simp only [RBF.run] at h1
    cases hs : RBF.step (hyp p 0) ⟨1, 2, fun _ _ => 1⟩ (.mat ⟨1, 1, fun _ _ => 0⟩) P with
    | error e => rw [hs] at h1; cases h1
    | ok Q =>
      rw [hs] at h1
      simp only [Except.ok.injEq] at h1
      subst h1
      exact ⟨_, s, by simp only [pure1, rbfEpoch, hs], Q, rfl, h2⟩
  · intro hn x y epochs s hx he
    unfold fitRBF fitWith
    simp only [ho, Bool.false_eq_true, if_false, hi, hh, initRBF, hic, if_true]
    by_cases hneg : h < 0
    · exact ⟨.valueError, by simp only [if_pos hneg]⟩
    · simp only [if_neg hneg]
      refine train_err hp ?_
      by_cases hwt : Watchable w p.cls o.loss o.metric
      · unfold run
        cases hc : p.cls with
        | gd => exact loop_err _ _ _ he _ (.inl (pure1_err ⟨_, rfl⟩ _ _))
        | newton => exact loop_err _ _ _ he _ (.inl (pure1_err ⟨_, rfl⟩ _ _))
        | smo => exact ⟨_, rfl⟩
        | rbf => exact absurd ⟨hc, hwt, by omega⟩ hn
        | sgd => exact loop_err _ _ _ he _ (.inl ⟨_, by simp only [uncounted, sgdEpoch, if_neg (show ¬ x.rows = 0 by omega)]; rfl⟩)
        | adam => exact ⟨.keyError, rfl⟩
      · exact run_unwatchable g w p hwt x y epochs he _ _

/-! ## What `compile` accepts although it cannot be trained -/

theorem compileRBF_initializer (g : Gen σ) (entropy : σ) (h : Int) (a : Args) (o : Inst) (s : σ) (hn : (compileRBF g entropy (.ok h) a o s).2.2 = none) :
    ∃ i, (compileRBF g entropy (.ok h) a o s).1.initializer = .obj i ∧ i.cls = .rbfNormal := by
  rw [compileRBF] at hn ⊢
  cases hi : makeInit g entropy (.str "rbf_normal") o.seed s with
  | error e => simp [hi] at hn
  | ok q =>
    refine ⟨q.1, (compileRest_keeps a _).2.1, ?_⟩
    simp only [makeInit, getInitializer] at hi
    cases hr : reseed g entropy o.seed with
    | error e => simp [hr] at hi
    | ok s' =>
      simp [hr] at hi
      rw [← hi]; rfl

/-- C174 is false: for EVERY unloaded instance, a call of `compile` that succeeds with an optimiser made for another family of models, or (if the training will
be watched) with a metric that is a misspelt string, leaves a model whose `fit` raises on all data. -/
theorem C174_violated (g : Gen σ) (hg : g.Sound) {w : Watch} (hw : w.Clean) (entropy : σ) (ls : List Nat) (h : Int) (a : Args) (o : Inst) (ho : o.loaded = false)
    (s : σ) (p : OptObj) (hp : getOptimizer a.optimizer = .ok p) :
    ((compileLR g entropy a o s).2.2 = none → (¬ MadeFor .logistic p.cls ∨ w.on = true ∧ getMetric a.metric = .ok none) →
      Useless (fitLR g w) (compileLR g entropy a o s).1) ∧
    ((compileNN g entropy ls a o s).2.2 = none → (¬ MadeFor .network p.cls ∨ w.on = true ∧ getMetric a.metric = .ok none) →
      Useless (fitNN g w) (compileNN g entropy ls a o s).1) ∧
    ((compileRBF g entropy (.ok h) a o s).2.2 = none → (¬ MadeFor .rbfNetwork p.cls ∨ w.on = true ∧ getMetric a.metric = .ok none) →
      Useless (fitRBF g w) (compileRBF g entropy (.ok h) a o s).1) := by
  have ks := C173_success g entropy ls h a o s
  have kk := C173_kept_partial g entropy ls (.ok h) a o s
  have nw : ∀ (c : OptCls) (loss : Option LossObj) (m : Option MetricObj), w.on = true ∧ getMetric a.metric = .ok none → getMetric a.metric = .ok m →
      ¬ Watchable w c loss m := by
    rintro c loss m ⟨h1, h2⟩ h3 hwt
    rw [h2] at h3
    simp only [Except.ok.injEq] at h3
    obtain ⟨-, m', -, hm, -⟩ := hwt h1
    rw [← h3] at hm; cases hm
  refine ⟨fun hn hb => ?_, fun hn hb => ?_, fun hn hb => ?_⟩
  · obtain ⟨p', l, m, i, h1, -, h3, h4, -, h6, h7⟩ := ks.1 _ (by simp) hn
    rw [hp] at h1
    simp only [Except.ok.injEq] at h1
    subst h1
    refine (C174_logistic_partial g hw _ ((kk _ (by simp)).1.2.2.2.trans ho) p h4 i h7).2 fun ⟨a1, a2, a3⟩ => ?_
    rcases hb with hb | hb
    · exact hb a1
    · exact nw _ _ _ hb h3 (h6 ▸ a3)
  · obtain ⟨p', l, m, i, h1, -, h3, h4, -, h6, h7⟩ := ks.1 _ (by simp) hn
    rw [hp] at h1
    simp only [Except.ok.injEq] at h1
    subst h1
    refine (C174_network_partial g hg hw _ ((kk _ (by simp)).1.2.2.2.trans ho) p h4 i h7 ls ks.2.1).2 fun ⟨a1, a2, a3, _⟩ => ?_
    rcases hb with hb | hb
    · exact hb a1
    · exact nw _ _ _ hb h3 (h6 ▸ a3)
  · obtain ⟨p', l, m, i, h1, -, h3, h4, -, h6, -⟩ := ks.1 _ (by simp) hn
    rw [hp] at h1
    simp only [Except.ok.injEq] at h1
    subst h1
    obtain ⟨i, h7, h8⟩ := compileRBF_initializer g entropy h a o s hn
    refine (C174_rbf_partial g hw _ ((kk _ (by simp)).1.2.2.2.trans ho) p h4 i h7 h8 h ks.2.2).2 fun ⟨a1, a3, _⟩ => ?_
    rcases hb with hb | hb
    · exact hb a1
    · exact nw _ _ _ hb h3 (h6 ▸ a3)

/-- A network or an RBF network compiled with the loss 'log_likelihood' cannot be trained with the progress bar (the default), a network without layers or an
RBF network with a negative number of units not at all; `compile` accepts all of them. -/
theorem C174_more_refused (g : Gen σ) (hg : g.Sound) {w : Watch} (hw : w.Clean) (entropy : σ) (ls : List Nat) (h : Int) (a : Args) (o : Inst) (ho : o.loaded = false)
    (s : σ) :
    ((compileNN g entropy ls a o s).2.2 = none → (w.on = true ∧ a.loss = .str "log_likelihood" ∨ ls = []) → Useless (fitNN g w) (compileNN g entropy ls a o s).1) ∧
    ((compileRBF g entropy (.ok h) a o s).2.2 = none → (w.on = true ∧ a.loss = .str "log_likelihood" ∨ h < 0) →
      Useless (fitRBF g w) (compileRBF g entropy (.ok h) a o s).1) := by
  have ks := C173_success g entropy ls h a o s
  have kk := C173_kept_partial g entropy ls (.ok h) a o s
  have nw : ∀ (c : OptCls) (m : Option MetricObj) (l : LossObj), w.on = true ∧ a.loss = .str "log_likelihood" → getLoss a.loss = .ok l → ¬ (c = .gd ∨ c = .newton) →
      ¬ Watchable w c (some l) m := by
    rintro c m l ⟨h1, h2⟩ h3 hc hwt
    rw [h2] at h3
    have h3 : LossCls.logLikelihood.default = l := by simpa [getLoss] using h3
    obtain ⟨l', -, hl, -, h5⟩ := hwt h1
    simp only [Option.some.injEq] at hl
    exact hc (h5 (by rw [← hl, ← h3]; rfl)).1
  refine ⟨fun hn hb => ?_, fun hn hb => ?_⟩
  · obtain ⟨p, l, m, i, -, h2, -, h4, h5, -, h7⟩ := ks.1 _ (by simp) hn
    refine (C174_network_partial g hg hw _ ((kk _ (by simp)).1.2.2.2.trans ho) p h4 i h7 ls ks.2.1).2 fun ⟨a1, a2, a3, a4, _⟩ => ?_
    rcases hb with hb | hb
    · refine nw p.cls _ l hb h2 ?_ (h5 ▸ a3)
      rcases a1 with a1 | a1 <;> rw [a1] <;> simp
    · exact a4 hb
  · obtain ⟨p, l, m, -, -, h2, -, h4, h5, -, -⟩ := ks.1 _ (by simp) hn
    obtain ⟨i, h7, h8⟩ := compileRBF_initializer g entropy h a o s hn
    refine (C174_rbf_partial g hw _ ((kk _ (by simp)).1.2.2.2.trans ho) p h4 i h7 h8 h ks.2.2).2 fun ⟨a1, a3, a4⟩ => ?_
    rcases hb with hb | hb
    · refine nw p.cls _ l hb h2 ?_ (h5 ▸ a3)
      have a1 : p.cls = .rbf := a1
      rw [a1]; simp
    · omega

/-- `Trainable` and `Useless` exclude each other, so that the three theorems above say exactly which compiled models can be trained. -/
theorem C174_exclusive (fit : Inst → Mat → RBF.Labels → Nat → σ → Except PyErr (Inst × σ)) (o : Inst) (s : σ) : ¬ (Trainable fit o ∧ Useless fit o) := by
  rintro ⟨⟨x, y, hx, -, h⟩, hu⟩
  obtain ⟨r, hr⟩ := h 1 s
  obtain ⟨e, he⟩ := hu x y 1 s hx (by decide)
  rw [hr] at he; cases he

/-- A generator, and a way of watching, as the hypotheses want them. -/
def plain : Gen ℕ := ⟨⟨fun k => k, fun s => (0, s + 1), fun s => (0, s + 1)⟩, fun s n => (s % n, s + 1)⟩
def bar : Watch := ⟨true, fun _ _ => none, fun _ _ => none⟩

/-- The hypotheses are met: a logistic regression compiled with 'adam', a network compiled with the metric 'acc'. -/
example : plain.Sound ∧ bar.Clean ∧ (compileLR plain 0 ⟨.str "adam", .str "log_likelihood", .str "accuracy"⟩ (newLR (some 3) .none) 5).2.2 = none ∧
    ¬ MadeFor .logistic OptCls.adam.default.cls ∧ (compileNN plain 0 [3, 1] ⟨.str "sgd", .str "crossentropy", .str "acc"⟩ (newNN (some 3) .none) 5).2.2 = none ∧
    bar.on = true ∧ getMetric (.str "acc") = .ok none := by
  refine ⟨fun s n hn => Nat.mod_lt s hn, ⟨fun _ _ => rfl, fun _ _ => rfl⟩, rfl, ?_, rfl, rfl, rfl⟩
  rintro (h | h) <;> simp [OptCls.default] at h

/-- …and the defaults can be trained. -/
example : Trainable (fitNN plain bar) (compileNN plain 0 [3, 1] ⟨.str "sgd", .str "crossentropy", .str "accuracy"⟩ (newNN (some 3) .none) 5).1 :=
  (C174_network_partial plain (fun s n hn => Nat.mod_lt s hn) ⟨fun _ _ => rfl, fun _ _ => rfl⟩ _ rfl OptCls.sgd.default rfl _ rfl [3, 1] rfl).1
    ⟨.inl rfl, by decide, fun _ => ⟨_, _, rfl, rfl, fun h => by cases h⟩, by simp, by decide⟩

end CML.Comp
