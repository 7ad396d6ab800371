import Verif.Props.Compile
import Verif.Props.Init

set_option linter.unusedSectionVars false

/-! # C175–C178: fitting before compiling, compiling again, and seeds -/

namespace CML.Comp
open CML.Net (Mat Layer)
open CML.Getters

variable {σ : Type}

/-! ## C175 fit before compile -/

/-- C175: on an instance that was never compiled `fit` raises, for all data, all numbers of epochs and all states of the random generator: `TypeError`
(logistic regression, RBF network) or `AttributeError` (network); `predict` raises `ValueError`. -/
theorem C175_fit_before_compile (g : Gen σ) (w : Watch) (seed : Option Int) (i : Arg InitObj) (x : Mat) (y : RBF.Labels) (epochs : Nat) (s : σ) :
    fitLR g w (newLR seed i) x y epochs s = .error .typeError ∧ fitNN g w (newNN seed i) x y epochs s = .error .attributeError ∧
    fitRBF g w (newRBF seed) x y epochs s = .error .typeError ∧
    ∀ o ∈ [newLR seed i, newNN seed i, newRBF seed], predict o x = .error .valueError := by
  refine ⟨?_, rfl, rfl, ?_⟩
  · unfold fitLR fitWith
    cases i with
    | obj i =>
      simp only [newLR, Bool.false_eq_true, if_false, initBeta]
      cases kindOf i.cls with
      | none => rfl
      | some k => rfl
    | str s => rfl
    | none => rfl
    | other => rfl
  · intro o ho
    simp only [List.mem_cons, List.not_mem_nil, or_false] at ho
    rcases ho with rfl | rfl | rfl <;> rfl

/-! ## C176 compiling a trained model again -/

theorem compileRest_optimizer (a : Args) (o : Inst) : (compileRest a o).1.optimizer = o.optimizer ∨
    ∃ p, getOptimizer a.optimizer = .ok p ∧ (compileRest a o).1.optimizer = some p := by
  rcases compileRest_cases a o with ⟨e, -, h⟩ | ⟨p, l, e, hp, -, -, h⟩ | ⟨p, l, m, hp, -, -, h⟩ <;> rw [h]
  · exact .inl rfl
  · exact .inr ⟨p, hp, rfl⟩
  · exact .inr ⟨p, hp, rfl⟩

theorem compile_optimizer (g : Gen σ) (entropy : σ) (ls : List Nat) (h : Except PyErr Int) (a : Args) (o : Inst) (s : σ) :
    ∀ r ∈ [compileLR g entropy a o s, compileNN g entropy ls a o s, compileRBF g entropy h a o s],
      (r.1.optimizer = o.optimizer ∨ ∃ p, getOptimizer a.optimizer = .ok p ∧ r.1.optimizer = some p) ∧
      (r.2.2 = none → ∃ p, getOptimizer a.optimizer = .ok p ∧ r.1.optimizer = some p) := by
  have key : ∀ o' : Inst, o'.optimizer = o.optimizer → ((compileRest a o').1.optimizer = o.optimizer ∨
      ∃ p, getOptimizer a.optimizer = .ok p ∧ (compileRest a o').1.optimizer = some p) ∧
      ((compileRest a o').2 = none → ∃ p, getOptimizer a.optimizer = .ok p ∧ (compileRest a o').1.optimizer = some p) := by
    intro o' ho
    refine ⟨ho ▸ compileRest_optimizer a o', fun hn => ?_⟩
    rcases compileRest_cases a o' with ⟨e, -, h⟩ | ⟨p, l, e, hp, -, -, h⟩ | ⟨p, l, m, hp, -, -, h⟩ <;> rw [h] at hn ⊢
    · simp at hn
    · simp at hn
    · exact ⟨p, hp, rfl⟩
  intro r hr
  simp only [List.mem_cons, List.not_mem_nil, or_false] at hr
  rcases hr with rfl | rfl | rfl
  · rw [compileLR]
    cases hi : makeInit g entropy o.initializer o.seed s with
    | error e => exact ⟨.inl rfl, fun h => by simp at h⟩
    | ok q => exact key _ rfl
  · rw [compileNN]
    cases hi : makeInit g entropy o.initializer o.seed s with
    | error e => exact ⟨.inl rfl, fun h => by simp at h⟩
    | ok q => exact key _ rfl
  · cases h with
    | error e => exact ⟨.inl rfl, fun h => by simp [compileRBF] at h⟩
    | ok h =>
      rw [compileRBF]
      cases hi : makeInit g entropy (.str "rbf_normal") o.seed s with
      | error e => exact ⟨.inl rfl, fun h => by simp at h⟩
      | ok q => exact key _ rfl

/-- C176, the part that holds: a call of `compile`, whether it raises or not, does not change any prediction, if the old and the new optimiser are made for
the same family of models. -/
theorem C176_kept_partial (g : Gen σ) (entropy : σ) (ls : List Nat) (h : Except PyErr Int) (a : Args) (o : Inst) (s : σ) (fam : Family) (p0 : OptObj)
    (hp0 : o.optimizer = some p0) (h0 : MadeFor fam p0.cls) (h1 : ∀ p1, getOptimizer a.optimizer = .ok p1 → MadeFor fam p1.cls) :
    ∀ r ∈ [compileLR g entropy a o s, compileNN g entropy ls a o s, compileRBF g entropy h a o s], ∀ x, predict r.1 x = predict o x := by
  intro r hr x
  obtain ⟨-, k2, k3, k4⟩ := (C173_kept_partial g entropy ls h a o s r hr).1
  have same : ∀ p1 : OptObj, MadeFor fam p1.cls → forward p1 x o.params = forward p0 x o.params := by
    intro p1 hp1
    unfold forward
    cases fam with
    | logistic => rcases h0 with h0 | h0 <;> rcases hp1 with hp1 | hp1 <;> rw [h0, hp1]
    | network => rcases h0 with h0 | h0 <;> rcases hp1 with hp1 | hp1 <;> rw [h0, hp1]
    | rbfNetwork =>
      have h0 : p0.cls = .rbf := h0
      have hp1 : p1.cls = .rbf := hp1
      rw [h0, hp1]
  unfold predict
  rw [k2, k3, k4]
  rcases (compile_optimizer g entropy ls h a o s r hr).1 with ho | ⟨p1, hp1, ho⟩
  · rw [ho]
  · simp only [ho, hp0, same p1 (h1 p1 hp1)]

/-- The parameters of a trained model of the family. -/
def Family.Holds : Family → Params → Prop
  | .logistic, q => ∃ k b, q = .arr k b
  | .network, q => ∃ P, q = .net P
  | .rbfNetwork, q => ∃ P, q = .rbf P

/-- C176 is false: after a call of `compile` that succeeds with an optimiser made for another family, `predict` of a trained or loaded model raises for
every `x`, although its parameters are still there. -/
theorem C176_violated (g : Gen σ) (entropy : σ) (ls : List Nat) (h : Except PyErr Int) (a : Args) (o : Inst) (s : σ) (fam : Family)
    (hq : fam.Holds o.params) (p1 : OptObj) (hp1 : getOptimizer a.optimizer = .ok p1) (h1 : ¬ MadeFor fam p1.cls) :
    ∀ r ∈ [compileLR g entropy a o s, compileNN g entropy ls a o s, compileRBF g entropy h a o s], r.2.2 = none →
      r.1.params = o.params ∧ ∀ x, ∃ e, predict r.1 x = .error e := by
  intro r hr hn
  obtain ⟨-, k2, k3, k4⟩ := (C173_kept_partial g entropy ls h a o s r hr).1
  obtain ⟨p, hp, ho⟩ := (compile_optimizer g entropy ls h a o s r hr).2 hn
  rw [hp1] at hp
  simp only [Except.ok.injEq] at hp
  subst hp
  refine ⟨k2, fun x => ?_⟩
  unfold predict
  by_cases ht : r.1.trained = false ∧ r.1.loaded = false
  · exact ⟨.valueError, by rw [if_pos ht]⟩
  · rw [if_neg ht]
    simp only [ho, k2]
    unfold forward
    cases fam with
    | logistic =>
      obtain ⟨k, b, hb⟩ := hq
      rw [hb]
      cases hc : p1.cls with
      | gd => exact absurd (.inl hc) h1
      | newton => exact absurd (.inr hc) h1
      | _ => exact ⟨_, rfl⟩
    | network =>
      obtain ⟨P, hb⟩ := hq
      rw [hb]
      cases hc : p1.cls with
      | sgd => exact absurd (.inl hc) h1
      | adam => exact absurd (.inr hc) h1
      | _ => exact ⟨_, rfl⟩
    | rbfNetwork =>
      obtain ⟨P, hb⟩ := hq
      rw [hb]
      cases hc : p1.cls with
      | rbf => exact absurd hc h1
      | _ => exact ⟨_, rfl⟩

/-- The hypotheses are met: a trained network compiled with 'gd'. -/
example (g : Gen ℕ) : (compileNN g 0 [1] ⟨.str "gd", .str "mse", .str "accuracy"⟩ { newNN none .none with trained := true } 0).2.2 = none ∧
    Family.network.Holds (newNN none .none).params ∧ getOptimizer (.str "gd") = .ok OptCls.gd.default ∧ ¬ MadeFor .network OptCls.gd.default.cls := by
  refine ⟨rfl, ⟨[], rfl⟩, rfl, ?_⟩
  rintro (h | h) <;> simp [OptCls.default] at h

/-! ## C177, C178 seeds -/

/-- C177, the part that holds: a model with a seed whose initialiser was left to `compile` is trained, by `compile` and `fit`, the same way whatever was drawn
before; an RBF network always is. -/
theorem C177_fresh_partial (g : Gen σ) (w : Watch) (ls : List Nat) (a : Args) (o : Inst) (k : Int) (hk : o.seed = some k)
    (ho : ∀ i, o.initializer ≠ .obj i) (x : Mat) (y : RBF.Labels) (epochs : Nat) (e e' s s' : σ) :
    session (compileLR g e a) (fun o s => fitLR g w o x y epochs s) o s = session (compileLR g e' a) (fun o s => fitLR g w o x y epochs s) o s' ∧
    session (compileNN g e ls a) (fun o s => fitNN g w o x y epochs s) o s = session (compileNN g e' ls a) (fun o s => fitNN g w o x y epochs s) o s' := by
  have hm : (∃ r, makeInit g e o.initializer o.seed s = .ok r ∧ makeInit g e' o.initializer o.seed s' = .ok r) ∨
      ∃ er, makeInit g e o.initializer o.seed s = .error er ∧ makeInit g e' o.initializer o.seed s' = .error er := by
    unfold makeInit
    cases getInitializer o.initializer o.seed with
    | error er => exact .inr ⟨er, rfl, rfl⟩
    | ok i =>
      dsimp only
      rw [hk]
      cases hi : o.initializer with
      | obj j => exact absurd hi (ho j)
      | _ =>
        dsimp only [reseed]
        by_cases hr : 0 ≤ k ∧ k < 4294967296
        · simp only [if_pos hr]; exact .inl ⟨_, rfl, rfl⟩
        · simp only [if_neg hr]; exact .inr ⟨_, rfl, rfl⟩
  unfold session compileLR compileNN
  rcases hm with ⟨r, h1, h2⟩ | ⟨er, h1, h2⟩ <;> rw [h1, h2] <;> exact ⟨rfl, rfl⟩

theorem C177_rbf_partial (g : Gen σ) (w : Watch) (h : Except PyErr Int) (a : Args) (o : Inst) (k : Int) (hk : o.seed = some k) (x : Mat) (y : RBF.Labels)
    (epochs : Nat) (e e' s s' : σ) :
    session (compileRBF g e h a) (fun o s => fitRBF g w o x y epochs s) o s = session (compileRBF g e' h a) (fun o s => fitRBF g w o x y epochs s) o s' := by
  have hm : (∃ r, makeInit g e (.str "rbf_normal") o.seed s = .ok r ∧ makeInit g e' (.str "rbf_normal") o.seed s' = .ok r) ∨
      ∃ er, makeInit g e (.str "rbf_normal") o.seed s = .error er ∧ makeInit g e' (.str "rbf_normal") o.seed s' = .error er := by
    unfold makeInit
    cases getInitializer (.str "rbf_normal") o.seed with
    | error er => exact .inr ⟨er, rfl, rfl⟩
    | ok i =>
      dsimp only
      rw [hk]
      dsimp only [reseed]
      by_cases hr : 0 ≤ k ∧ k < 4294967296
      · simp only [if_pos hr]; exact .inl ⟨_, rfl, rfl⟩
      · simp only [if_neg hr]; exact .inr ⟨_, rfl, rfl⟩
  unfold session compileRBF
  cases h with
  | error er => rfl
  | ok h =>
    rcases hm with ⟨r, h1, h2⟩ | ⟨er, h1, h2⟩ <;> dsimp only <;> rw [h1, h2]

theorem makeInit_obj (g : Gen σ) (e : σ) (i : InitObj) (seed : Option Int) (s : σ) : makeInit g e (.obj i) seed s = .ok (i, s) := rfl

theorem initNet_state (g : Gen σ) (k : Init.Kind) : ∀ (sizes : List Nat) (s : σ), (netLayers g k sizes s).2 = Init.stateAfter g.randn (Init.weightsAll sizes) s
  | [], s => rfl
  | [_], s => rfl
  | d :: m :: rest, s => by
    rw [netLayers]
    simp only [initNet_state g k (m :: rest), Init.randMat, Init.draws_state]
    rw [← Init.stateAfter_add]
    rfl

/-- The parameters of a logistic regression after `fit` for no epoch: the random numbers that come next. -/
theorem fitLR_zero (g : Gen σ) (w : Watch) (o : Inst) (ho : o.loaded = false) (i : InitObj) (hi : o.initializer = .obj i) (hic : i.cls = .randomNormal) (p : OptObj)
    (hp : o.optimizer = some p) (hm : MadeFor .logistic p.cls) (x : Mat) (y : RBF.Labels) (s : σ) :
    ∃ b, fitLR g w o x y 0 s = .ok ({ o with params := .arr (x.cols + 1) b, trained := true }, Init.stateAfter g.randn (x.cols + 1) s) ∧ b 0 = (g.randn s).1 := by
  have hk : kindOf i.cls = some .randomNormal := by rw [hic]; rfl
  refine ⟨fun j => (Init.callInt g.toRng .randomNormal x.cols s).1.e j 0, ?_, ?_⟩
  · unfold fitLR fitWith
    simp only [ho, Bool.false_eq_true, if_false, hi, initBeta, hk, train, hp]
    unfold run
    have e : (Init.callInt g.toRng .randomNormal x.cols s).2 = Init.stateAfter g.randn (x.cols + 1) s := by
      simp only [Init.callInt, Init.randMat, Init.draws_state, Nat.mul_one]
    rcases hm with hm | hm <;> simp only [hm, loop, e]
  · simp only [Init.callInt, Init.Mat.scale, Init.randMat, Init.attrScale, mul_one]
    exact Init.draws_getD _ _ 0 (by omega) s

/-- The parameters of a network after `fit` for no epoch. -/
theorem fitNN_zero (g : Gen σ) (w : Watch) (o : Inst) (ho : o.loaded = false) (i : InitObj) (hi : o.initializer = .obj i) (hic : i.cls = .randomNormal) (p : OptObj)
    (hp : o.optimizer = some p) (hm : MadeFor .network p.cls) (m : Nat) (rest : List Nat) (hl : o.layers = some (m :: rest)) (x : Mat) (hx : 0 < x.cols) (hm0 : 0 < m)
    (y : RBF.Labels) (s : σ) :
    ∃ L Ls, fitNN g w o x y 0 s = .ok ({ o with params := .net (L :: Ls), trained := true }, Init.stateAfter g.randn (Init.weightsAll (x.cols :: m :: rest)) s) ∧
      L.w.e 0 0 = (g.randn s).1 := by
  have hk : kindOf i.cls = some .randomNormal := by rw [hic]; rfl
  have hst := initNet_state g .randomNormal (x.cols :: m :: rest) s
  have hf : fitNN g w o x y 0 s = .ok ({ o with params := .net (netLayers g .randomNormal (x.cols :: m :: rest) s).1, trained := true },
      (netLayers g .randomNormal (x.cols :: m :: rest) s).2) := by
    unfold fitNN fitWith
    simp only [ho, Bool.false_eq_true, if_false, hi, hl, initNet, hk, train, hp]
    unfold run
    rcases hm with hm | hm
    · simp only [hm, loop]
    · simp only [hm, loop, adamStart, adamParams, layersOf_adamInit]
  rw [hst] at hf
  refine ⟨_, _, hf, ?_⟩
  simp only [Init.Mat.scale, Init.randMat, Init.layerScale, mul_one]
  rw [Nat.zero_mul, Nat.add_zero]
  exact Init.draws_getD g.randn (m * x.cols) 0 (Nat.mul_pos hm0 hx) s

/-- C177 is false of an instance that was compiled before: `compile` finds its own initialiser object, so that neither the seed of the instance nor the
operating system touches the random generator. -/
theorem C177_second_compile (g : Gen σ) (ls : List Nat) (a : Args) (o : Inst) (i : InitObj) (hi : o.initializer = .obj i) (e s : σ) :
    (compileLR g e a o s).2.1 = s ∧ (compileNN g e ls a o s).2.1 = s ∧ (compileLR g e a o s).1.initializer = .obj i ∧
    (compileNN g e ls a o s).1.initializer = .obj i := by
  refine ⟨?_, ?_, ?_, ?_⟩
  · rw [compileLR, hi, makeInit_obj]
  · rw [compileNN, hi, makeInit_obj]
  · rw [compileLR, hi, makeInit_obj]; exact (compileRest_keeps a _).2.1
  · rw [compileNN, hi, makeInit_obj]; exact (compileRest_keeps a _).2.1

/-- The default arguments of the two models. -/
def argsLR : Args := ⟨.str "newton", .str "log_likelihood", .str "accuracy"⟩
def argsNN : Args := ⟨.str "sgd", .str "crossentropy", .str "accuracy"⟩

/-- C177 is false, for EVERY seed, data set and generator whose sequence does not repeat after as many numbers as there are parameters: doing `compile` and
`fit` twice on one seeded instance gives other parameters the second time (shown for training of no epochs, where the parameters are those drawn). -/
theorem C177_violated (g : Gen σ) (w : Watch) (k : Int) (hk : 0 ≤ k ∧ k < 4294967296) (x : Mat) (y : RBF.Labels) (e s : σ) (m : Nat) (rest : List Nat)
    (hx : 0 < x.cols) (hm : 0 < m)
    (h1 : Init.nth g.randn (g.seeded k.toNat) (x.cols + 1) ≠ Init.nth g.randn (g.seeded k.toNat) 0)
    (h2 : Init.nth g.randn (g.seeded k.toNat) (Init.weightsAll (x.cols :: m :: rest)) ≠ Init.nth g.randn (g.seeded k.toNat) 0) :
    (∃ o1 s1 o2 s2, session (compileLR g e argsLR) (fun o s => fitLR g w o x y 0 s) (newLR (some k) .none) s = .ok (o1, s1) ∧
      session (compileLR g e argsLR) (fun o s => fitLR g w o x y 0 s) o1 s1 = .ok (o2, s2) ∧ o1.params ≠ o2.params) ∧
    (∃ o1 s1 o2 s2, session (compileNN g e (m :: rest) argsNN) (fun o s => fitNN g w o x y 0 s) (newNN (some k) .none) s = .ok (o1, s1) ∧
      session (compileNN g e (m :: rest) argsNN) (fun o s => fitNN g w o x y 0 s) o1 s1 = .ok (o2, s2) ∧ o1.params ≠ o2.params) := by
  have hr : makeInit g e .none (some k) s = .ok (InitCls.default (some k) .randomNormal, g.seeded k.toNat) := by
    simp only [makeInit, getInitializer, reseed, if_pos hk]
  constructor
  · let o0 : Inst := ⟨some k, .obj (InitCls.default (some k) .randomNormal), none, none, some OptCls.newton.default, some LossCls.logLikelihood.default,
      some MetricCls.accuracy.default, .none, false, false⟩
    have c1 : compileLR g e argsLR (newLR (some k) .none) s = (o0, g.seeded k.toNat, none) := by
      rw [compileLR]
      simp only [newLR] at hr ⊢
      rw [hr]
      rfl
    obtain ⟨b1, f1, v1⟩ := fitLR_zero g w o0 rfl _ rfl rfl _ rfl (.inr rfl) x y (g.seeded k.toNat)
    obtain ⟨b2, f2, v2⟩ := fitLR_zero g w { o0 with params := .arr (x.cols + 1) b1, trained := true } rfl _ rfl rfl _ rfl (.inr rfl) x y
      (Init.stateAfter g.randn (x.cols + 1) (g.seeded k.toNat))
    have e1 : session (compileLR g e argsLR) (fun o s => fitLR g w o x y 0 s) (newLR (some k) .none) s = fitLR g w o0 x y 0 (g.seeded k.toNat) := by
      simp only [session, c1]
    refine ⟨_, _, _, _, e1.trans f1, (show session (compileLR g e argsLR) (fun o s => fitLR g w o x y 0 s) _ _ = _ from f2), ?_⟩
    intro hc
    simp only [Params.arr.injEq, true_and] at hc
    rw [hc, v2, ← Init.nth_stateAfter] at v1
    exact h1 v1
  · let o0 : Inst := ⟨some k, .obj (InitCls.default (some k) .randomNormal), some (m :: rest), none, some OptCls.sgd.default,
      some LossCls.crossentropy.default, some MetricCls.accuracy.default, .net [], false, false⟩
    have c1 : compileNN g e (m :: rest) argsNN (newNN (some k) .none) s = (o0, g.seeded k.toNat, none) := by
      rw [compileNN]
      simp only [newNN] at hr ⊢
      rw [hr]
      rfl
    obtain ⟨L1, Ls1, f1, v1⟩ := fitNN_zero g w o0 rfl _ rfl rfl _ rfl (.inl rfl) m rest rfl x hx hm y (g.seeded k.toNat)
    obtain ⟨L2, Ls2, f2, v2⟩ := fitNN_zero g w { o0 with params := .net (L1 :: Ls1), trained := true } rfl _ rfl rfl _ rfl (.inl rfl) m rest rfl x hx hm y
      (Init.stateAfter g.randn (Init.weightsAll (x.cols :: m :: rest)) (g.seeded k.toNat))
    have e1 : session (compileNN g e (m :: rest) argsNN) (fun o s => fitNN g w o x y 0 s) (newNN (some k) .none) s = fitNN g w o0 x y 0 (g.seeded k.toNat) := by
      simp only [session, c1]
    refine ⟨_, _, _, _, e1.trans f1, (show session (compileNN g e (m :: rest) argsNN) (fun o s => fitNN g w o x y 0 s) _ _ = _ from f2), ?_⟩
    intro hc
    simp only [Params.net.injEq, List.cons.injEq] at hc
    rw [hc.1, v2, ← Init.nth_stateAfter] at v1
    exact h2 v1

/-- A generator that counts. -/
noncomputable def counter : Gen ℕ := ⟨⟨fun k => k, fun s => ((s : ℝ), s + 1), fun s => (0, s + 1)⟩, fun s n => (s % n, s + 1)⟩

theorem counter_nth (k s : Nat) : Init.nth counter.randn s k = ((s + k : ℕ) : ℝ) := by
  induction k generalizing s with
  | zero => rfl
  | succ k ih =>
    show Init.nth counter.randn (s + 1) k = _
    rw [ih]; congr 1; omega

/-- The hypotheses of `C177_violated` are met: two features, two hidden units, one output. -/
example : Init.nth counter.randn (counter.seeded (7 : Int).toNat) (2 + 1) ≠ Init.nth counter.randn (counter.seeded (7 : Int).toNat) 0 ∧
    Init.nth counter.randn (counter.seeded (7 : Int).toNat) (Init.weightsAll [2, 2, 1]) ≠ Init.nth counter.randn (counter.seeded (7 : Int).toNat) 0 := by
  simp only [counter_nth]
  constructor <;> norm_num [counter, Init.weightsAll, Init.weightsBefore]

/-- C178 is false: without a seed `compile` takes the state of the random generator from the operating system, so that what the user did with `np.random.seed`
before has no influence at all… -/
theorem C178_user_seed_ignored (g : Gen σ) (w : Watch) (ls : List Nat) (h : Except PyErr Int) (a : Args) (o : Inst) (ho : ∀ i, o.initializer ≠ .obj i) (x : Mat)
    (y : RBF.Labels) (epochs : Nat) (e s s' : σ) :
    session (compileLR g e a) (fun o s => fitLR g w o x y epochs s) o s = session (compileLR g e a) (fun o s => fitLR g w o x y epochs s) o s' ∧
    session (compileNN g e ls a) (fun o s => fitNN g w o x y epochs s) o s = session (compileNN g e ls a) (fun o s => fitNN g w o x y epochs s) o s' ∧
    session (compileRBF g e h a) (fun o s => fitRBF g w o x y epochs s) o s = session (compileRBF g e h a) (fun o s => fitRBF g w o x y epochs s) o s' := by
  have hm : ∀ arg : Arg InitObj, (∀ i, arg ≠ .obj i) → (∃ r, makeInit g e arg o.seed s = .ok r ∧ makeInit g e arg o.seed s' = .ok r) ∨
      ∃ er, makeInit g e arg o.seed s = .error er ∧ makeInit g e arg o.seed s' = .error er := by
    intro arg ha
    unfold makeInit
    cases getInitializer arg o.seed with
    | error er => exact .inr ⟨er, rfl, rfl⟩
    | ok i =>
      dsimp only
      cases arg with
      | obj j => exact absurd rfl (ha j)
      | _ =>
        dsimp only
        cases reseed g e o.seed with
        | error er => exact .inr ⟨er, rfl, rfl⟩
        | ok s => exact .inl ⟨_, rfl, rfl⟩
  refine ⟨?_, ?_, ?_⟩
  · unfold session compileLR
    rcases hm _ ho with ⟨r, h1, h2⟩ | ⟨er, h1, h2⟩ <;> rw [h1, h2]
  · unfold session compileNN
    rcases hm _ ho with ⟨r, h1, h2⟩ | ⟨er, h1, h2⟩ <;> rw [h1, h2]
  · unfold session
    cases h with
    | error er => rfl
    | ok h =>
      unfold compileRBF
      rcases hm (.str "rbf_normal") (by simp) with ⟨r, h1, h2⟩ | ⟨er, h1, h2⟩ <;> dsimp only <;> rw [h1, h2]

/-- …and two runs of the same program, with the same seed set by the user, end with other parameters whenever the operating system gives two states with other
first numbers. -/
theorem C178_violated (g : Gen σ) (w : Watch) (x : Mat) (y : RBF.Labels) (e e' s : σ) (he : (g.randn e).1 ≠ (g.randn e').1) :
    ∃ o1 s1 o2 s2, session (compileLR g e argsLR) (fun o s => fitLR g w o x y 0 s) (newLR none .none) s = .ok (o1, s1) ∧
      session (compileLR g e' argsLR) (fun o s => fitLR g w o x y 0 s) (newLR none .none) s = .ok (o2, s2) ∧ o1.params ≠ o2.params := by
  let o0 : Inst := ⟨none, .obj (InitCls.default none .randomNormal), none, none, some OptCls.newton.default, some LossCls.logLikelihood.default,
    some MetricCls.accuracy.default, .none, false, false⟩
  obtain ⟨b1, f1, v1⟩ := fitLR_zero g w o0 rfl _ rfl rfl _ rfl (.inr rfl) x y e
  obtain ⟨b2, f2, v2⟩ := fitLR_zero g w o0 rfl _ rfl rfl _ rfl (.inr rfl) x y e'
  refine ⟨_, _, _, _, (show session (compileLR g e argsLR) (fun o s => fitLR g w o x y 0 s) _ _ = _ from f1),
    (show session (compileLR g e' argsLR) (fun o s => fitLR g w o x y 0 s) _ _ = _ from f2), ?_⟩
  intro hc
  simp only [Params.arr.injEq, true_and] at hc
  rw [hc, v2] at v1
  exact he v1.symm

/-- C178, the part that holds: with an initialiser object in hand `compile` leaves the random generator alone, and the session depends on the state the user
set, not on the operating system. -/
theorem C178_object_partial (g : Gen σ) (w : Watch) (ls : List Nat) (a : Args) (o : Inst) (i : InitObj) (hi : o.initializer = .obj i) (x : Mat) (y : RBF.Labels)
    (epochs : Nat) (e e' s : σ) :
    session (compileLR g e a) (fun o s => fitLR g w o x y epochs s) o s = session (compileLR g e' a) (fun o s => fitLR g w o x y epochs s) o s ∧
    session (compileNN g e ls a) (fun o s => fitNN g w o x y epochs s) o s = session (compileNN g e' ls a) (fun o s => fitNN g w o x y epochs s) o s := by
  unfold session compileLR compileNN
  rw [hi, makeInit_obj, makeInit_obj]
  exact ⟨rfl, rfl⟩

end CML.Comp
