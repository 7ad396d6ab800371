import Verif.Spec.Compile
import Verif.Props.Adam
import Verif.Props.RBF
import Verif.Props.LogReg

set_option linter.unusedSectionVars false

/-! # C173: compiling a model -/

namespace CML.Comp
open CML.Net (Mat Layer)
open CML.Getters

variable {σ : Type}

/-! ## C173 compile is all or nothing -/

theorem compileRest_cases (a : Args) (o : Inst) :
    (∃ e, getOptimizer a.optimizer = .error e ∧ compileRest a o = (o, some e)) ∨
    (∃ p l e, getOptimizer a.optimizer = .ok p ∧ getLoss a.loss = .ok l ∧ getMetric a.metric = .error e ∧
      compileRest a o = ({ o with optimizer := some p, loss := some l }, some e)) ∨
    (∃ p l m, getOptimizer a.optimizer = .ok p ∧ getLoss a.loss = .ok l ∧ getMetric a.metric = .ok m ∧
      compileRest a o = ({ o with optimizer := some p, loss := some l, metric := m }, none)) := by
  unfold compileRest
  cases h1 : getOptimizer a.optimizer with
  | error e => exact .inl ⟨e, rfl, rfl⟩
  | ok p =>
    have hl : ∃ l, getLoss a.loss = .ok l := by
      cases a.loss with
      | str s => simp only [getLoss]; split_ifs <;> exact ⟨_, rfl⟩
      | obj o => exact ⟨_, rfl⟩
      | none => exact ⟨_, rfl⟩
      | other => exact ⟨_, rfl⟩
    obtain ⟨l, hl⟩ := hl
    cases h3 : getMetric a.metric with
    | error e => exact .inr (.inl ⟨p, l, e, rfl, hl, rfl, by simp only [hl]⟩)
    | ok m => exact .inr (.inr ⟨p, l, m, rfl, hl, rfl, by simp only [hl]⟩)

/-- C173 is false of networks, for EVERY instance that can be compiled at all: a call of `compile` with an optimiser it does not know raises and leaves the
instance with the new structure and the old optimiser, loss and metric, and with another state of the random generator. -/
theorem C173_network_half (g : Gen σ) (entropy : σ) (ls : List Nat) (a : Args) (o : Inst) (s : σ) (i : InitObj) (s' : σ)
    (hi : makeInit g entropy o.initializer o.seed s = .ok (i, s')) (e : PyErr) (ha : getOptimizer a.optimizer = .error e) :
    compileNN g entropy ls a o s = ({ o with layers := some ls, initializer := .obj i }, s', some e) := by
  rw [compileNN, hi]
  simp only [compileRest, ha]

/-! The next `fit` trains a network of the structure that was refused. -/

theorem update_shape (lr : ℝ) : ∀ (P : List Layer) (gs : List Net.Grad) (P' : List Layer), Net.update lr P gs = .ok P' →
    List.Forall₂ (fun L M : Layer => Net.SameShape M.w L.w ∧ Net.SameShape M.b L.b) P P'
  | [], gs, P', h => by simp only [Net.update, Except.ok.injEq] at h; subst h; exact .nil
  | _ :: _, [], P', h => by simp [Net.update] at h
  | L :: Ls, gr :: gs, P', h => by
    have sub : ∀ w gg w', Net.subInPlace lr w gg = .ok w' → Net.SameShape w' w := by
      intro w gg w' h
      unfold Net.subInPlace at h
      split at h
      · simp only [Except.ok.injEq] at h
        subst h; exact ⟨rfl, rfl⟩
      · simp at h
    rw [Net.update] at h
    cases h1 : Net.subInPlace lr L.w gr.dw with
    | error e => simp [h1] at h
    | ok w =>
      cases h2 : Net.subInPlace lr L.b gr.db with
      | error e => simp [h1, h2] at h
      | ok b =>
        cases h3 : Net.update lr Ls gs with
        | error e => simp [h1, h2, h3] at h
        | ok rest =>
          simp only [h1, h2, h3, Except.ok.injEq] at h
          subst h
          exact .cons ⟨sub _ _ _ h1, sub _ _ _ h2⟩ (update_shape lr Ls gs rest h3)

theorem adamMat_shape (lr b1 b2 eps : ℝ) (t : Nat) (S S' : Net.AdamMat) (gg : Mat) (h : S.step lr b1 b2 eps t gg = .ok S') : Net.SameShape S'.p S.p := by
  unfold Net.AdamMat.step at h
  split at h
  · split at h
    · cases h
    · split at h
      · cases h
      · rename_i p hp
        simp only [Except.ok.injEq] at h
        subst h
        unfold Net.subInPlace at hp
        split at hp
        · simp only [Except.ok.injEq] at hp
          subst hp; exact ⟨rfl, rfl⟩
        · cases hp
  · cases h

theorem adamUpdate_shape (lr b1 b2 eps : ℝ) (t : Nat) : ∀ (S : List Net.AdamLayer) (gs : List Net.Grad) (S' : List Net.AdamLayer),
    Net.adamUpdate lr b1 b2 eps t S gs = .ok S' →
    List.Forall₂ (fun L M : Layer => Net.SameShape M.w L.w ∧ Net.SameShape M.b L.b) (Net.layersOf S) (Net.layersOf S')
  | [], gs, S', h => by simp only [Net.adamUpdate, Except.ok.injEq] at h; subst h; exact .nil
  | _ :: _, [], S', h => by simp [Net.adamUpdate] at h
  | L :: Ls, gr :: gs, S', h => by
    rw [Net.adamUpdate] at h
    cases h1 : L.w.step lr b1 b2 eps t gr.dw with
    | error e => simp [h1] at h
    | ok w =>
      cases h2 : L.b.step lr b1 b2 eps t gr.db with
      | error e => simp [h1, h2] at h
      | ok b =>
        cases h3 : Net.adamUpdate lr b1 b2 eps t Ls gs with
        | error e => simp [h1, h2, h3] at h
        | ok rest =>
          simp only [h1, h2, h3, Except.ok.injEq] at h
          subst h
          exact .cons ⟨adamMat_shape _ _ _ _ _ _ _ _ h1, adamMat_shape _ _ _ _ _ _ _ _ h2⟩ (adamUpdate_shape lr b1 b2 eps t Ls gs rest h3)

/-- A property that every step keeps holds after the loop. -/
theorem loop_inv {S : Type} {step : Nat → S → σ → Except PyErr (S × σ)} {mon : S → Except PyErr Unit} {Q : S → Prop}
    (hst : ∀ t S s S' s', Q S → step t S s = .ok (S', s') → Q S') : ∀ (k t : Nat) (S : S) (s : σ) (S' : _) (s' : σ), Q S →
    loop step mon t k S s = .ok (S', s') → Q S'
  | 0, t, S, s, S', s', hQ, h => by simp only [loop, Except.ok.injEq, Prod.mk.injEq] at h; rw [← h.1]; exact hQ
  | k + 1, t, S, s, S', s', hQ, h => by
    rw [loop] at h
    cases h1 : step t S s with
    | error e => simp [h1] at h
    | ok q =>
      simp only [h1] at h
      cases h2 : mon q.1 with
      | error e => simp [h2] at h
      | ok u =>
        simp only [h2] at h
        exact loop_inv hst k (t + 1) q.1 q.2 S' s' (hst t S s q.1 q.2 hQ h1) h

theorem netLayers_shaped (g : Gen σ) (k : Init.Kind) : ∀ (sizes : List Nat) (s : σ), sizes ≠ [] → Net.Shaped sizes (netLayers g k sizes s).1
  | [], _, h => absurd rfl h
  | [_], _, _ => trivial
  | d :: m :: rest, s, _ => ⟨⟨rfl, rfl, rfl, rfl⟩, netLayers_shaped g k (m :: rest) _ (by simp)⟩

theorem layersOf_adamInit (P : List Layer) : Net.layersOf (Net.adamInit P) = P := by
  rw [Net.layersOf, Net.adamInit, List.map_map]
  exact List.map_id P

/-- A run with whatever optimiser leaves a network of the shape it got. -/
theorem run_shape (g : Gen σ) (w : Watch) (o : OptObj) (loss : Option LossObj) (metric : Option MetricObj) (x : Mat) (y : RBF.Labels) (epochs : Nat)
    (sizes : List Nat) (P : List Layer) (hP : Net.Shaped sizes P) (s s' : σ) (q : Params) (h : run g w o loss metric x y epochs (.net P) s = .ok (q, s')) :
    ∃ P', q = .net P' ∧ Net.Shaped sizes P' := by
  let Q : Params → Prop := fun q => ∃ P, q = .net P ∧ Net.Shaped sizes P
  have hQ : Q (.net P) := ⟨P, rfl, hP⟩
  have no : ∀ f : Params → Except PyErr Params, (∀ P, ∃ e, f (.net P) = .error e) → ∀ t p (s : σ) p' s', Q p → pure1 f t p s = .ok (p', s') → Q p' := by
    rintro f hf t p s p' s' ⟨P, rfl, hP⟩ hs
    obtain ⟨e, he⟩ := hf P
    simp [pure1, he] at hs
  unfold run at h
  cases hc : o.cls with
  | gd => rw [hc] at h; exact loop_inv (no _ fun P => ⟨_, rfl⟩) _ _ _ _ _ _ hQ h
  | newton => rw [hc] at h; exact loop_inv (no _ fun P => ⟨_, rfl⟩) _ _ _ _ _ _ hQ h
  | rbf => rw [hc] at h; exact loop_inv (no _ fun P => ⟨_, rfl⟩) _ _ _ _ _ _ hQ h
  | smo => rw [hc] at h; cases h
  | sgd =>
    rw [hc] at h
    refine loop_inv (Q := Q) ?_ _ _ _ _ _ _ hQ h
    rintro t p s p' s' ⟨P, rfl, hP⟩ hs
    unfold uncounted sgdEpoch at hs
    split at hs
    · cases hs
    · dsimp only at hs
      unfold Net.sgdStep at hs
      split at hs
      · cases hs
      · rename_i P' h2
        simp only [Except.ok.injEq, Prod.mk.injEq] at hs
        split at h2
        · cases h2
        · split at h2
          · cases h2
          · split at h2
            · cases h2
            · exact ⟨P', hs.1.symm, Net.shaped_congr P sizes P' hP (update_shape _ _ _ _ h2)⟩
  | adam =>
    rw [hc] at h
    simp only [adamStart] at h
    split at h
    · cases h
    · rename_i S' s'' h2
      have hl := layersOf_adamInit P
      have : Q (adamParams S') := by
        refine loop_inv (Q := fun S => ∃ T, S = .inl T ∧ Net.Shaped sizes (Net.layersOf T)) ?_ _ _ _ _ _ _ ⟨_, rfl, by rw [hl]; exact hP⟩ h2 |>.elim ?_
        · rintro t S s S' s' ⟨T, rfl, hT⟩ hs
          unfold adamEpoch at hs
          split at hs
          · cases hs
          · simp only at hs
            split at hs
            · cases hs
            · split at hs
              · cases hs
              · rename_i T' hu
                simp only [Except.ok.injEq, Prod.mk.injEq] at hs
                exact ⟨T', hs.1.symm, Net.shaped_congr _ sizes _ hT (adamUpdate_shape _ _ _ _ _ _ _ _ hu)⟩
        · rintro T ⟨rfl, hT⟩
          exact ⟨_, rfl, hT⟩
      simp only [Except.ok.injEq, Prod.mk.injEq] at h
      rw [← h.1]; exact this

/-- After the refused call the next `fit` that completes trains, with the old optimiser, a network of the structure that was refused. -/
theorem C173_next_fit (g : Gen σ) (entropy : σ) (ls : List Nat) (a : Args) (o : Inst) (s : σ) (i : InitObj) (s' : σ) (ho : o.loaded = false)
    (hi : makeInit g entropy o.initializer o.seed s = .ok (i, s')) (e : PyErr) (ha : getOptimizer a.optimizer = .error e)
    (w : Watch) (x : Mat) (y : RBF.Labels) (epochs : Nat) (s1 : σ) (o2 : Inst) (s2 : σ)
    (hf : fitNN g w (compileNN g entropy ls a o s).1 x y epochs s1 = .ok (o2, s2)) :
    o2.optimizer = o.optimizer ∧ ∃ P, o2.params = .net P ∧ Net.Shaped (x.cols :: ls) P := by
  rw [C173_network_half g entropy ls a o s i s' hi e ha] at hf
  unfold fitNN fitWith at hf
  simp only [ho, Bool.false_eq_true, if_false, initNet] at hf
  cases hk : kindOf i.cls with
  | none => simp [hk] at hf
  | some k =>
    simp only [hk, train] at hf
    cases hopt : o.optimizer with
    | none => simp [hopt] at hf
    | some p =>
      simp only [hopt] at hf
      split at hf
      · cases hf
      · rename_i q s3 hr
        simp only [Except.ok.injEq, Prod.mk.injEq] at hf
        obtain ⟨P', rfl, hP'⟩ := run_shape g w p _ _ x y epochs (x.cols :: ls) _ (netLayers_shaped g k _ _ (by simp)) _ _ _ hr
        rw [← hf.1]
        exact ⟨rfl, P', rfl, hP'⟩

/-- C173 is false of logistic regression, for EVERY instance that can be compiled at all: a metric that is not one makes `compile` raise after the
optimiser and the loss have been replaced. -/
theorem C173_metric_half (g : Gen σ) (entropy : σ) (a : Args) (o : Inst) (s : σ) (i : InitObj) (s' : σ)
    (hi : makeInit g entropy o.initializer o.seed s = .ok (i, s')) (p : OptObj) (l : LossObj) (ha : getOptimizer a.optimizer = .ok p)
    (hl : getLoss a.loss = .ok l) (e : PyErr) (hm : getMetric a.metric = .error e) :
    compileLR g entropy a o s = ({ o with initializer := .obj i, optimizer := some p, loss := some l }, s', some e) := by
  rw [compileLR, hi]
  simp only [compileRest, ha, hl, hm]

/-- C173 is false of an RBF network: the number of hidden units is replaced by a call that raises. -/
theorem C173_rbf_half (g : Gen σ) (entropy : σ) (h : Int) (a : Args) (o : Inst) (s : σ) (i : InitObj) (s' : σ)
    (hi : makeInit g entropy (.str "rbf_normal") o.seed s = .ok (i, s')) (e : PyErr) (ha : getOptimizer a.optimizer = .error e) :
    compileRBF g entropy (.ok h) a o s = ({ o with hidden := some h, initializer := .obj i }, s', some e) := by
  rw [compileRBF]
  simp only [hi, compileRest, ha]

/-- The names used below. -/
def typo : Args := ⟨.str "sdg", .str "crossentropy", .str "accuracy"⟩

theorem C173_violated (g : Gen σ) (entropy : σ) (ls : List Nat) (h : Int) :
    ¬ AllOrNothing (compileNN g entropy ls typo) ∧ ¬ AllOrNothing (compileLR g entropy typo) ∧ ¬ AllOrNothing (compileRBF g entropy (.ok h) typo) := by
  have ht : getOptimizer typo.optimizer = .error .attributeError := by simp [typo, getOptimizer]
  refine ⟨fun H => ?_, fun H => ?_, fun H => ?_⟩
  · have hc := (C173_network_half g entropy ls typo (newNN none .none) entropy (InitCls.default none .randomNormal) entropy rfl _ ht)
    have := (H (newNN none .none) entropy .attributeError (by rw [hc])).1
    rw [hc] at this
    have := congrArg Inst.layers this
    simp [newNN] at this
  · have hc : compileLR g entropy typo (newLR none .none) entropy =
        ({ newLR none .none with initializer := .obj (InitCls.default none .randomNormal) }, entropy, some .attributeError) := by
      rw [compileLR]
      simp only [newLR, makeInit, getInitializer, reseed, compileRest, ht]
    have := (H (newLR none .none) entropy .attributeError (by rw [hc])).1
    rw [hc] at this
    have := congrArg Inst.initializer this
    simp [newLR] at this
  · have hc := C173_rbf_half g entropy h typo (newRBF none) entropy (InitCls.default none .rbfNormal) entropy (by simp [makeInit, getInitializer, newRBF, reseed]) _ ht
    have := (H (newRBF none) entropy .attributeError (by rw [hc])).1
    rw [hc] at this
    have := congrArg Inst.hidden this
    simp [newRBF] at this

theorem compileRest_keeps (a : Args) (o : Inst) : KeepsModel o (compileRest a o).1 ∧ (compileRest a o).1.initializer = o.initializer ∧
    (compileRest a o).1.layers = o.layers ∧ (compileRest a o).1.hidden = o.hidden ∧
    ((compileRest a o).2 ≠ none → (compileRest a o).1.metric = o.metric) := by
  rcases compileRest_cases a o with ⟨e, -, h⟩ | ⟨p, l, e, -, -, -, h⟩ | ⟨p, l, m, -, -, -, h⟩ <;> rw [h] <;> simp [KeepsModel]

/-- C173, the part that holds: a call of `compile`, whether it raises or not, leaves the trained parameters, the marks and the seed alone; one that raises
also leaves the metric, and the optimiser and the loss unless the metric was the reason. -/
theorem C173_kept_partial (g : Gen σ) (entropy : σ) (ls : List Nat) (h : Except PyErr Int) (a : Args) (o : Inst) (s : σ) :
    ∀ r ∈ [compileLR g entropy a o s, compileNN g entropy ls a o s, compileRBF g entropy h a o s],
      KeepsModel o r.1 ∧ (r.2.2 ≠ none → r.1.metric = o.metric ∧
        ((∃ m, getMetric a.metric = .ok m) → r.1.optimizer = o.optimizer ∧ r.1.loss = o.loss)) := by
  have key : ∀ o' : Inst, o'.metric = o.metric → o'.optimizer = o.optimizer → o'.loss = o.loss → KeepsModel o o' →
      KeepsModel o (compileRest a o').1 ∧ ((compileRest a o').2 ≠ none → (compileRest a o').1.metric = o.metric ∧
        ((∃ m, getMetric a.metric = .ok m) → (compileRest a o').1.optimizer = o.optimizer ∧ (compileRest a o').1.loss = o.loss)) := by
    intro o' h1 h2 h3 h4
    rcases compileRest_cases a o' with ⟨e, -, h⟩ | ⟨p, l, e, -, -, hm, h⟩ | ⟨p, l, m, -, -, -, h⟩ <;> rw [h]
    · exact ⟨h4, fun _ => ⟨h1, fun _ => ⟨h2, h3⟩⟩⟩
    · exact ⟨h4, fun _ => ⟨h1, fun ⟨m, hm'⟩ => by rw [hm] at hm'; cases hm'⟩⟩
    · exact ⟨h4, fun h => absurd rfl h⟩
  have ho : KeepsModel o o := ⟨rfl, rfl, rfl, rfl⟩
  intro r hr
  simp only [List.mem_cons, List.not_mem_nil, or_false] at hr
  rcases hr with rfl | rfl | rfl
  · rw [compileLR]
    cases hi : makeInit g entropy o.initializer o.seed s with
    | error e => exact ⟨ho, fun _ => ⟨rfl, fun _ => ⟨rfl, rfl⟩⟩⟩
    | ok q => exact key _ rfl rfl rfl ho
  · rw [compileNN]
    cases hi : makeInit g entropy o.initializer o.seed s with
    | error e => exact ⟨ho, fun _ => ⟨rfl, fun _ => ⟨rfl, rfl⟩⟩⟩
    | ok q => exact key _ rfl rfl rfl ho
  · cases h with
    | error e => exact ⟨ho, fun _ => ⟨rfl, fun _ => ⟨rfl, rfl⟩⟩⟩
    | ok h =>
      rw [compileRBF]
      cases hi : makeInit g entropy (.str "rbf_normal") o.seed s with
      | error e => exact ⟨ho, fun _ => ⟨rfl, fun _ => ⟨rfl, rfl⟩⟩⟩
      | ok q => exact key _ rfl rfl rfl ho

/-- C173 holds of decision trees: `compile` checks its arguments first. If it raises nothing has changed; otherwise all three attributes are those asked
for, and it raises exactly for a criterion or a pruning that is not documented. -/
theorem C173_tree_partial (c : Arg CritObj) (p : Arg PruneObj) (o : TreeInst) :
    ((compileTree c p o).2 ≠ none → (compileTree c p o).1 = o ∧ (compileTree c p o).2 = some .attributeError) ∧
    ((compileTree c p o).2 = none ↔ (c = .str "gain" ∨ c = .str "gini" ∨ c = .str "entropy") ∧ (p = .none ∨ p = .str "pre" ∨ p = .str "post")) ∧
    ((compileTree c p o).2 = none → ∃ n k q, c = .str n ∧ getCriterion (.str n) = .ok k ∧ getPruner p = .ok q ∧
      (compileTree c p o).1 = ⟨some n, some k, q⟩) := by
  cases c with
  | str n =>
    by_cases hn : n = "gain" ∨ n = "gini" ∨ n = "entropy"
    · by_cases hp : p = .none ∨ p = .str "pre" ∨ p = .str "post"
      · have hk : ∃ k, getCriterion (.str n) = .ok k := by rcases hn with rfl | rfl | rfl <;> exact ⟨_, rfl⟩
        have hq : ∃ q, getPruner p = .ok q := by rcases hp with rfl | rfl | rfl <;> exact ⟨_, rfl⟩
        obtain ⟨k, hk⟩ := hk
        obtain ⟨q, hq⟩ := hq
        have e : compileTree (.str n) p o = (⟨some n, some k, q⟩, none) := by
          simp only [compileTree, if_pos hn, if_pos hp, hk, hq]
        rw [e]
        exact ⟨fun h => absurd rfl h, ⟨fun _ => ⟨by simpa using hn, hp⟩, fun _ => rfl⟩, fun _ => ⟨n, k, q, rfl, hk, hq, rfl⟩⟩
      · have e : compileTree (.str n) p o = (o, some .attributeError) := by
          simp only [compileTree, if_pos hn, if_neg hp]
        rw [e]
        exact ⟨fun _ => ⟨rfl, rfl⟩, ⟨fun h => by simp at h, fun h => absurd h.2 hp⟩, fun h => by simp at h⟩
    · have e : compileTree (.str n) p o = (o, some .attributeError) := by
        simp only [compileTree, if_neg hn]
      rw [e]
      exact ⟨fun _ => ⟨rfl, rfl⟩, ⟨fun h => by simp at h, fun h => absurd (by simpa using h.1) hn⟩, fun h => by simp at h⟩
  | obj k => exact ⟨fun _ => ⟨rfl, rfl⟩, ⟨fun h => by simp [compileTree] at h, fun h => by simp at h⟩, fun h => by simp [compileTree] at h⟩
  | none => exact ⟨fun _ => ⟨rfl, rfl⟩, ⟨fun h => by simp [compileTree] at h, fun h => by simp at h⟩, fun h => by simp [compileTree] at h⟩
  | other => exact ⟨fun _ => ⟨rfl, rfl⟩, ⟨fun h => by simp [compileTree] at h, fun h => by simp at h⟩, fun h => by simp [compileTree] at h⟩

/-- A call that does not raise installs what was asked for. -/
theorem C173_success (g : Gen σ) (entropy : σ) (ls : List Nat) (h : Int) (a : Args) (o : Inst) (s : σ) :
    (∀ r ∈ [compileLR g entropy a o s, compileNN g entropy ls a o s, compileRBF g entropy (.ok h) a o s], r.2.2 = none →
      ∃ p l m i, getOptimizer a.optimizer = .ok p ∧ getLoss a.loss = .ok l ∧ getMetric a.metric = .ok m ∧ r.1.optimizer = some p ∧ r.1.loss = some l ∧
        r.1.metric = m ∧ r.1.initializer = .obj i) ∧
    ((compileNN g entropy ls a o s).1.layers = some ls) ∧ ((compileRBF g entropy (.ok h) a o s).1.hidden = some h) := by
  have key : ∀ o' : Inst, ∀ i, o'.initializer = .obj i → (compileRest a o').2 = none →
      ∃ p l m i, getOptimizer a.optimizer = .ok p ∧ getLoss a.loss = .ok l ∧ getMetric a.metric = .ok m ∧ (compileRest a o').1.optimizer = some p ∧
        (compileRest a o').1.loss = some l ∧ (compileRest a o').1.metric = m ∧ (compileRest a o').1.initializer = .obj i := by
    intro o' i hi hn
    rcases compileRest_cases a o' with ⟨e, -, h⟩ | ⟨p, l, e, -, -, hm, h⟩ | ⟨p, l, m, h1, h2, h3, h⟩ <;> rw [h] at hn ⊢
    · simp at hn
    · simp at hn
    · exact ⟨p, l, m, i, h1, h2, h3, rfl, rfl, rfl, hi⟩
  refine ⟨?_, ?_, ?_⟩
  · intro r hr
    simp only [List.mem_cons, List.not_mem_nil, or_false] at hr
    rcases hr with rfl | rfl | rfl
    · rw [compileLR]
      cases hi : makeInit g entropy o.initializer o.seed s with
      | error e => intro h; simp at h
      | ok q => exact key _ q.1 rfl
    · rw [compileNN]
      cases hi : makeInit g entropy o.initializer o.seed s with
      | error e => intro h; simp at h
      | ok q => exact key _ q.1 rfl
    · rw [compileRBF]
      cases hi : makeInit g entropy (.str "rbf_normal") o.seed s with
      | error e => intro h; simp at h
      | ok q => exact key _ q.1 rfl
  · rw [compileNN]
    cases hi : makeInit g entropy o.initializer o.seed s with
    | error e => rfl
    | ok q => exact (compileRest_keeps a _).2.2.1
  · rw [compileRBF]
    cases hi : makeInit g entropy (.str "rbf_normal") o.seed s with
    | error e => rfl
    | ok q => exact (compileRest_keeps a _).2.2.2.1

end CML.Comp
