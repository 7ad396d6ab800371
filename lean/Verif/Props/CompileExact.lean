import Verif.Props.CompileSeed
import Verif.Props.CompileTrain

set_option linter.unusedSectionVars false

/-! # C202: what `fit` and `predict` of a compiled model compute; which exceptions a wrong configuration raises -/

namespace CML.Comp
open CML.Net (Mat Layer)
open CML.Getters

variable {σ : Type}

/-- One parameter step per epoch. -/
def iterE {P : Type} (f : P → Except PyErr P) : Nat → P → Except PyErr P
  | 0, p => .ok p
  | k + 1, p =>
    match f p with
    | .error e => .error e
    | .ok q => iterE f k q

theorem loop_pure1 (f : Params → Except PyErr Params) {mon : Params → Except PyErr Unit} (hm : ∀ p, mon p = .ok ()) (s : σ) : ∀ (k t : Nat) (p : Params),
    loop (pure1 f) mon t k p s = match iterE f k p with | .error e => .error e | .ok q => .ok (q, s)
  | 0, _, _ => rfl
  | k + 1, t, p => by
    rw [loop, iterE]
    cases hf : f p with
    | error e => simp only [pure1, hf]
    | ok q =>
      simp only [pure1, hf, hm]
      exact loop_pure1 f hm s k (t + 1) q

theorem flat_of_labels {y : RBF.Labels} {n : Nat} {f : ℕ → ℝ} (h : LabelsAre y n f) : (flat y).1 = n ∧ ∀ i < n, (flat y).2 i = f i := by
  cases y with
  | vec m v => exact h
  | mat m =>
    obtain ⟨h1, h2⟩ := h
    refine ⟨h1, fun i hi => ?_⟩
    have hc : 0 < m.cols := by
      rcases Nat.eq_zero_or_pos m.cols with h0 | h0
      · rw [h0, Nat.mul_zero] at h1; omega
      · exact h0
    have := h2 (i / m.cols) (Nat.div_lt_of_lt_mul (by rw [Nat.mul_comm]; omega)) (i % m.cols) (Nat.mod_lt _ hc)
    rw [Nat.mul_comm, Nat.div_add_mod] at this
    exact this

theorem extend_lt {k : Nat} (f : Fin k → ℝ) (j : Fin k) : extend f j = f j := by
  unfold extend
  rw [dif_pos j.2]

theorem gd_iter (lr : ℝ) (x : Mat) {y : RBF.Labels} {f : ℕ → ℝ} (hy : LabelsAre y x.rows f) : ∀ (k : Nat) (b : ℕ → ℝ), ∃ b',
    iterE (gdEpoch lr x y) k (.arr (x.cols + 1) b) = .ok (.arr (x.cols + 1) b') ∧
      ∀ j : Fin (x.cols + 1), b' j = LogReg.gdRun lr (xFin x) (fun i => f i) k (fun j => b j) j
  | 0, b => ⟨b, rfl, fun _ => rfl⟩
  | k + 1, b => by
    obtain ⟨h1, h2⟩ := flat_of_labels hy
    obtain ⟨b', h3, h4⟩ := gd_iter lr x hy k (extend (LogReg.gdStep lr (xFin x) (fun i => (flat y).2 i) fun j => b j))
    refine ⟨b', ?_, fun j => ?_⟩
    · rw [iterE]
      simp only [gdEpoch, h1, and_self, if_true]
      exact h3
    · rw [h4, LogReg.gdRun]
      congr 1
      funext l
      rw [extend_lt]
      congr 1
      funext i
      exact h2 i i.2

theorem newton_iter (x : Mat) {y : RBF.Labels} {f : ℕ → ℝ} (hy : LabelsAre y x.rows f) : ∀ (k : Nat) (b : ℕ → ℝ),
    match LogReg.newtonRun (xFin x) (fun i => f i) k (fun j => b j) with
    | .error e => iterE (newtonEpoch x y) k (.arr (x.cols + 1) b) = .error e
    | .ok r => ∃ b', iterE (newtonEpoch x y) k (.arr (x.cols + 1) b) = .ok (.arr (x.cols + 1) b') ∧ ∀ j : Fin (x.cols + 1), b' j = r j
  | 0, b => ⟨b, rfl, fun _ => rfl⟩
  | k + 1, b => by
    obtain ⟨h1, h2⟩ := flat_of_labels hy
    have e : (fun i : Fin x.rows => (flat y).2 i) = fun i : Fin x.rows => f i := funext fun i => h2 i i.2
    rw [LogReg.newtonRun, iterE]
    simp only [newtonEpoch, h1, and_self, if_true, e]
    cases hs : LogReg.newtonStep (xFin x) (fun i => f i) (fun j => b j) with
    | error er => rfl
    | ok r =>
      have := newton_iter x hy k (extend r)
      have e2 : (fun j : Fin (x.cols + 1) => extend r j) = r := funext fun j => extend_lt r j
      rw [e2] at this
      exact this

/-- The drawn parameters of a logistic regression: normal numbers times the factor of the initialiser. -/
theorem initBeta_eq (g : Gen σ) (i : InitObj) {k : Init.Kind} (hk : kindOf i.cls = some k) (d : Nat) (s : σ) :
    ∃ b, initBeta g (.obj i) d s = .ok (.arr (d + 1) b, Init.stateAfter g.randn (d + 1) s) ∧
      ∀ j < d + 1, b j = Init.nth g.randn s j * Init.attrScale k d := by
  refine ⟨fun j => (Init.callInt g.toRng k d s).1.e j 0, ?_, fun j hj => ?_⟩
  · simp only [initBeta, hk]
    have e : (Init.callInt g.toRng k d s).2 = Init.stateAfter g.randn (d + 1) s := by
      simp only [Init.callInt, Init.randMat, Init.draws_state, Nat.mul_one]
    rw [e]
  · simp only [Init.callInt, Init.Mat.scale, Init.randMat, Nat.mul_one, Nat.add_zero]
    rw [Init.draws_getD _ _ j hj]

/-- C202 for logistic regression with gradient descent, watched or not: `epochs` steps of gradient descent on all samples, from normal numbers times the factor
of the initialiser. -/
theorem C202_gradient_descent (g : Gen σ) {w : Watch} (hw : w.Clean) (o : Inst) (ho : o.loaded = false) (p : OptObj) (hp : o.optimizer = some p) (hc : p.cls = .gd)
    (lr : ℚ) (hlr : p.hyper = [lr]) (i : InitObj) (hi : o.initializer = .obj i) (k : Init.Kind) (hk : kindOf i.cls = some k)
    (hwt : Watchable w .gd o.loss o.metric) (x : Mat) (y : RBF.Labels) (f : ℕ → ℝ) (hy : LabelsAre y x.rows f) (epochs : Nat) (s : σ) :
    ∃ b, fitLR g w o x y epochs s = .ok ({ o with params := .arr (x.cols + 1) b, trained := true }, Init.stateAfter g.randn (x.cols + 1) s) ∧
      ∀ j : Fin (x.cols + 1), b j = LogReg.gdRun (lr : ℝ) (xFin x) (fun i => f i) epochs (fun j => Init.nth g.randn s j * Init.attrScale k x.cols) j := by
  obtain ⟨b0, h0, hb0⟩ := initBeta_eq g i hk x.cols s
  obtain ⟨b, h1, h2⟩ := gd_iter (hyp p 0) x hy epochs b0
  refine ⟨b, ?_, fun j => ?_⟩
  · unfold fitLR fitWith
    simp only [ho, Bool.false_eq_true, if_false, hi, h0, train, hp]
    unfold run
    simp only [hc]
    rw [loop_pure1 _ (watch_ok hw hwt), h1]
  · rw [h2]
    have e : hyp p 0 = (lr : ℝ) := by simp [hyp, hlr]
    rw [e]
    congr 1
    funext l
    exact hb0 l l.2

/-- C202 for Newton's method: the same, and a singular Hessian raises. -/
theorem C202_newton (g : Gen σ) {w : Watch} (hw : w.Clean) (o : Inst) (ho : o.loaded = false) (p : OptObj) (hp : o.optimizer = some p) (hc : p.cls = .newton)
    (i : InitObj) (hi : o.initializer = .obj i) (k : Init.Kind) (hk : kindOf i.cls = some k)
    (hwt : Watchable w .newton o.loss o.metric) (x : Mat) (y : RBF.Labels) (f : ℕ → ℝ) (hy : LabelsAre y x.rows f) (epochs : Nat) (s : σ) :
    match LogReg.newtonRun (xFin x) (fun i => f i) epochs (fun j => Init.nth g.randn s j * Init.attrScale k x.cols) with
    | .error e => fitLR g w o x y epochs s = .error e
    | .ok r => ∃ b, fitLR g w o x y epochs s = .ok ({ o with params := .arr (x.cols + 1) b, trained := true }, Init.stateAfter g.randn (x.cols + 1) s) ∧
        ∀ j : Fin (x.cols + 1), b j = r j := by
  obtain ⟨b0, h0, hb0⟩ := initBeta_eq g i hk x.cols s
  have h1 := newton_iter x hy epochs b0
  have e : (fun j : Fin (x.cols + 1) => b0 j) = fun j : Fin (x.cols + 1) => Init.nth g.randn s j * Init.attrScale k x.cols := funext fun j => hb0 j j.2
  rw [e] at h1
  have hf : fitLR g w o x y epochs s = match iterE (newtonEpoch x y) epochs (.arr (x.cols + 1) b0) with
      | .error e => .error e
      | .ok q => .ok ({ o with params := q, trained := true }, Init.stateAfter g.randn (x.cols + 1) s) := by
    unfold fitLR fitWith
    simp only [ho, Bool.false_eq_true, if_false, hi, h0, train, hp]
    unfold run
    simp only [hc]
    rw [loop_pure1 _ (watch_ok hw hwt)]
    cases iterE (newtonEpoch x y) epochs (.arr (x.cols + 1) b0) <;> rfl
  rw [hf]
  split at h1
  · rw [h1]
  · obtain ⟨b', h2, h3⟩ := h1
    exact ⟨b', by rw [h2], h3⟩

/-- C202: the probability that a logistic regression predicts for a row; another number of columns raises `ValueError`. -/
theorem C202_predict_logistic (o : Inst) (ht : o.trained = true ∨ o.loaded = true) (p : OptObj) (hp : o.optimizer = some p) (hc : MadeFor .logistic p.cls) (k : Nat)
    (b : ℕ → ℝ) (hq : o.params = .arr k b) (z : Mat) :
    (k = z.cols + 1 → ∃ m, predict o z = .ok m ∧ m.rows = z.rows ∧ m.cols = 1 ∧
      ∀ i < z.rows, m.e i 0 = 1 / (1 + Real.exp (-((∑ j ∈ Finset.range z.cols, z.e i j * b j) + b z.cols)))) ∧
    (k ≠ z.cols + 1 → predict o z = .error .valueError) := by
  have hn : ¬ (o.trained = false ∧ o.loaded = false) := by rcases ht with h | h <;> simp [h]
  have hpr : predict o z = if k = z.cols + 1 then .ok ⟨z.rows, 1, fun i _ => extend (LogReg.forward (xFin z) fun j => b j) i⟩ else .error .valueError := by
    unfold predict
    rw [if_neg hn]
    simp only [hp, hq]
    unfold forward
    rcases hc with h | h <;> simp only [h]
  rw [hpr]
  refine ⟨fun h => ⟨_, if_pos h, rfl, rfl, fun i hi => ?_⟩, fun h => if_neg h⟩
  have e : extend (LogReg.forward (xFin z) fun j => b j) i = LogReg.forward (xFin z) (fun j => b j) ⟨i, hi⟩ := extend_lt _ (⟨i, hi⟩ : Fin z.rows)
  dsimp only
  rw [e]
  unfold LogReg.forward LogReg.scores
  rw [Fin.sum_univ_castSucc]
  simp only [LogReg.hat, Fin.snoc_castSucc, Fin.snoc_last, one_mul, Fin.val_castSucc, Fin.val_last, sigmoid, xFin]
  rw [Finset.sum_range]

/-! ## Networks -/

theorem sgd_loop (g : Gen σ) (lr : ℝ) {x : Mat} (hx : 0 < x.rows) (y : RBF.Labels) {mon : Params → Except PyErr Unit} (hm : ∀ p, mon p = .ok ()) :
    ∀ (k t : Nat) (P : List Layer) (s : σ), loop (uncounted (sgdEpoch g lr x y)) mon t k (.net P) s =
      match Net.sgdRun lr x (asMat y) (indices g x.rows k s).1 P with
      | .error e => .error e
      | .ok P' => .ok (.net P', (indices g x.rows k s).2)
  | 0, _, _, _ => rfl
  | k + 1, t, P, s => by
    rw [loop]
    simp only [uncounted, sgdEpoch, if_neg (show ¬ x.rows = 0 by omega), indices, Net.sgdRun]
    cases hs : Net.sgdStep lr x (asMat y) P (g.randint s x.rows).1 with
    | error e => rfl
    | ok P' =>
      simp only [hm]
      exact sgd_loop g lr hx y hm k (t + 1) P' _

theorem adam_loop (g : Gen σ) (o : OptObj) {x : Mat} (hx : 0 < x.rows) (y : RBF.Labels) {mon : (List Net.AdamLayer ⊕ Params) → Except PyErr Unit}
    (hm : ∀ p, mon p = .ok ()) :
    ∀ (k t : Nat) (S : List Net.AdamLayer) (s : σ), loop (adamEpoch g o x y) mon t k (.inl S) s =
      match Net.adamLoop (hyp o 0) (hyp o 1) (hyp o 2) (hyp o 3) x (asMat y) t (indices g x.rows k s).1 S with
      | .error e => .error e
      | .ok S' => .ok (.inl S', (indices g x.rows k s).2)
  | 0, _, _, _ => rfl
  | k + 1, t, S, s => by
    rw [loop]
    simp only [adamEpoch, if_neg (show ¬ x.rows = 0 by omega), indices, Net.adamLoop]
    cases hs : Net.sampleGrad x (asMat y) (Net.layersOf S) (g.randint s x.rows).1 with
    | error e => rfl
    | ok gs =>
      dsimp only
      cases hu : Net.adamUpdate (hyp o 0) (hyp o 1) (hyp o 2) (hyp o 3) t S gs with
      | error e => rfl
      | ok S' =>
        simp only [hm]
        exact adam_loop g o hx y hm k (t + 1) S' _

theorem netLayers_starts (g : Gen σ) (k : Init.Kind) : ∀ (sizes : List Nat) (s : σ), sizes ≠ [] → StartsAs g k sizes s (netLayers g k sizes s).1
  | [], _, h => absurd rfl h
  | [a], s, _ => ⟨rfl, fun l nIn nOut L _ h2 _ => by cases l <;> simp at h2⟩
  | d :: m :: rest, s, _ => by
    obtain ⟨h1, h2⟩ := netLayers_starts g k (m :: rest) (Init.randMat g.randn m d s).2 (by simp)
    refine ⟨by rw [netLayers]; simpa using h1, ?_⟩
    intro l nIn nOut L hIn hOut hL
    rw [netLayers] at hL
    cases l with
    | zero =>
      simp only [List.getElem?_cons_zero, Option.some.injEq, List.getElem?_cons_succ] at hIn hOut hL
      subst hIn hOut hL
      refine ⟨⟨rfl, rfl, _, Init.layerScale_spec k d m, fun i hi j hj => ?_⟩, rfl, rfl, fun j hj => rfl⟩
      simp only [Init.Mat.scale, Init.weightsBefore, Nat.zero_add]
      rw [Init.randMat_e _ _ _ _ _ _ hi hj]
    | succ l =>
      simp only [List.getElem?_cons_succ] at hIn hOut hL
      obtain ⟨⟨a1, a2, c, a3, a4⟩, a5⟩ := h2 l nIn nOut L hIn hOut hL
      refine ⟨⟨a1, a2, c, a3, fun i hi j hj => ?_⟩, a5⟩
      rw [a4 i hi j hj]
      simp only [Init.randMat, Init.draws_state, Init.nth_add, Init.weightsBefore]
      congr 2
      omega

/-- C202 for networks with stochastic gradient descent, watched or not: one step per epoch, on the sample that the generator draws, from the parameters that
the initialiser draws; the labels are one row for every sample. -/
theorem C202_sgd (g : Gen σ) {w : Watch} (hw : w.Clean) (o : Inst) (ho : o.loaded = false) (p : OptObj) (hp : o.optimizer = some p) (hc : p.cls = .sgd) (lr : ℚ)
    (hlr : p.hyper = [lr]) (i : InitObj) (hi : o.initializer = .obj i) (k : Init.Kind) (hk : kindOf i.cls = some k) (ls : List Nat) (hl : o.layers = some ls)
    (hwt : Watchable w .sgd o.loss o.metric) (x : Mat) (hx : 0 < x.rows) (y : RBF.Labels) (s : σ) :
    ∃ P0 ym, StartsAs g k (x.cols :: ls) s P0 ∧ RowsAre y ym ∧ ∀ epochs,
      fitNN g w o x y epochs s =
        match Net.sgdRun (lr : ℝ) x ym (indices g x.rows epochs (Init.stateAfter g.randn (Init.weightsAll (x.cols :: ls)) s)).1 P0 with
        | .error e => .error e
        | .ok P => .ok ({ o with params := .net P, trained := true }, (indices g x.rows epochs (Init.stateAfter g.randn (Init.weightsAll (x.cols :: ls)) s)).2) := by
  refine ⟨_, asMat y, netLayers_starts g k _ s (by simp), ?_, fun epochs => ?_⟩
  · cases y with
    | vec n v => exact ⟨rfl, rfl, fun _ => rfl⟩
    | mat m => exact rfl
  · have e : hyp p 0 = (lr : ℝ) := by simp [hyp, hlr]
    unfold fitNN fitWith
    simp only [ho, Bool.false_eq_true, if_false, hi, hl, initNet, hk, train, hp]
    unfold run
    simp only [hc]
    rw [sgd_loop g _ hx y (watch_ok hw hwt), initNet_state, e]
    cases Net.sgdRun (lr : ℝ) x (asMat y) (indices g x.rows epochs (Init.stateAfter g.randn (Init.weightsAll (x.cols :: ls)) s)).1
      (netLayers g k (x.cols :: ls) s).1 <;> rfl

/-- C202 for networks with Adam; epochs are counted from 1. -/
theorem C202_adam (g : Gen σ) {w : Watch} (hw : w.Clean) (o : Inst) (ho : o.loaded = false) (p : OptObj) (hp : o.optimizer = some p) (hc : p.cls = .adam)
    (lr b1 b2 eps : ℚ) (hlr : p.hyper = [lr, b1, b2, eps]) (i : InitObj) (hi : o.initializer = .obj i) (k : Init.Kind) (hk : kindOf i.cls = some k) (ls : List Nat)
    (hl : o.layers = some ls) (hwt : Watchable w .adam o.loss o.metric) (x : Mat) (hx : 0 < x.rows) (y : RBF.Labels) (s : σ) :
    ∃ P0 ym, StartsAs g k (x.cols :: ls) s P0 ∧ RowsAre y ym ∧ ∀ epochs,
      fitNN g w o x y epochs s =
        match Net.adamTrain (lr : ℝ) b1 b2 eps x ym (indices g x.rows epochs (Init.stateAfter g.randn (Init.weightsAll (x.cols :: ls)) s)).1 P0 with
        | .error e => .error e
        | .ok P => .ok ({ o with params := .net P, trained := true }, (indices g x.rows epochs (Init.stateAfter g.randn (Init.weightsAll (x.cols :: ls)) s)).2) := by
  refine ⟨_, asMat y, netLayers_starts g k _ s (by simp), ?_, fun epochs => ?_⟩
  · cases y with
    | vec n v => exact ⟨rfl, rfl, fun _ => rfl⟩
    | mat m => exact rfl
  · have e0 : hyp p 0 = (lr : ℝ) := by simp [hyp, hlr]
    have e1 : hyp p 1 = (b1 : ℝ) := by simp [hyp, hlr]
    have e2 : hyp p 2 = (b2 : ℝ) := by simp [hyp, hlr]
    have e3 : hyp p 3 = (eps : ℝ) := by simp [hyp, hlr]
    unfold fitNN fitWith
    simp only [ho, Bool.false_eq_true, if_false, hi, hl, initNet, hk, train, hp]
    unfold run
    simp only [hc, adamStart]
    rw [adam_loop g p hx y (fun _ => watch_ok hw hwt _), initNet_state, e0, e1, e2, e3, Net.adamTrain]
    cases Net.adamLoop (lr : ℝ) b1 b2 eps x (asMat y) 1 (indices g x.rows epochs (Init.stateAfter g.randn (Init.weightsAll (x.cols :: ls)) s)).1
      (Net.adamInit (netLayers g k (x.cols :: ls) s).1) <;> rfl

/-- C202: the predictions of a network are its forward pass. -/
theorem C202_predict_network (o : Inst) (ht : o.trained = true ∨ o.loaded = true) (p : OptObj) (hp : o.optimizer = some p) (hc : MadeFor .network p.cls)
    (P : List Layer) (hq : o.params = .net P) (z : Mat) :
    predict o z = match Net.forward z P with | .error e => .error e | .ok (m, _) => .ok m := by
  have hn : ¬ (o.trained = false ∧ o.loaded = false) := by rcases ht with h | h <;> simp [h]
  unfold predict
  rw [if_neg hn]
  simp only [hp, hq]
  unfold forward
  rcases hc with h | h <;> simp only [h] <;> rfl

/-! ## RBF networks -/

theorem rbf_iter (lr : ℝ) (x : Mat) (y : RBF.Labels) : ∀ (k : Nat) (P : RBF.Params), iterE (rbfEpoch lr x y) k (.rbf P) =
    match RBF.run lr x y k P with | .error e => .error e | .ok P' => .ok (.rbf P')
  | 0, _ => rfl
  | k + 1, P => by
    rw [iterE, RBF.run]
    simp only [rbfEpoch]
    cases RBF.step lr x y P with
    | error e => rfl
    | ok P' => exact rbf_iter lr x y k P'

/-- C202 for RBF networks: one step on all samples per epoch, from the parameters that `RBFNormal` draws. -/
theorem C202_rbf (g : Gen σ) {w : Watch} (hw : w.Clean) (o : Inst) (ho : o.loaded = false) (p : OptObj) (hp : o.optimizer = some p) (hc : p.cls = .rbf) (lr : ℚ)
    (hlr : p.hyper = [lr]) (i : InitObj) (hi : o.initializer = .obj i) (hic : i.cls = .rbfNormal) (h : Nat) (hh : o.hidden = some (h : Int))
    (hwt : Watchable w .rbf o.loss o.metric) (x : Mat) (y : RBF.Labels) (s : σ) :
    ∃ P0, StartsRBF g h s (Init.stateAfter g.rand (2 * h) s) P0 ∧ ∀ epochs,
      fitRBF g w o x y epochs s =
        match RBF.run (lr : ℝ) x y epochs P0 with
        | .error e => .error e
        | .ok P => .ok ({ o with params := .rbf P, trained := true }, Init.stateAfter g.randn h (Init.stateAfter g.rand (2 * h) s)) := by
  have ec : (Init.randMat g.rand h 2 s).2 = Init.stateAfter g.rand (2 * h) s := by simp only [Init.randMat, Init.draws_state, Nat.mul_comm]
  refine ⟨RBF.init h (Init.randMat g.rand h 2 s).1.e (Init.randMat g.randn 1 h (Init.stateAfter g.rand (2 * h) s)).1.e,
    ⟨⟨rfl, rfl, fun _ _ => rfl⟩, ⟨rfl, rfl, rfl⟩, ⟨rfl, rfl, fun i hi j hj => Init.randMat_e _ _ _ _ _ _ hi hj⟩, rfl, rfl, fun j hj => ?_⟩, fun epochs => ?_⟩
  · have := Init.randMat_e g.randn 1 h (Init.stateAfter g.rand (2 * h) s) 0 j (by omega) hj
    rw [Nat.zero_mul, Nat.zero_add] at this
    exact this
  · have e : hyp p 0 = (lr : ℝ) := by simp [hyp, hlr]
    have e2 : (Init.randMat g.randn 1 h (Init.stateAfter g.rand (2 * h) s)).2 = Init.stateAfter g.randn h (Init.stateAfter g.rand (2 * h) s) := by
      simp only [Init.randMat, Init.draws_state, Nat.one_mul]
    unfold fitRBF fitWith
    simp only [ho, Bool.false_eq_true, if_false, hi, hh, initRBF, hic, if_true, if_neg (show ¬ (h : Int) < 0 by omega), Int.toNat_natCast, ec, e2, train, hp]
    unfold run
    simp only [hc]
    rw [loop_pure1 _ (watch_ok hw hwt), rbf_iter, e]
    cases RBF.run (lr : ℝ) x y epochs (RBF.init h (Init.randMat g.rand h 2 s).1.e (Init.randMat g.randn 1 h (Init.stateAfter g.rand (2 * h) s)).1.e) <;> rfl

/-- C202: the predictions of an RBF network are its forward pass. -/
theorem C202_predict_rbf (o : Inst) (ht : o.trained = true ∨ o.loaded = true) (p : OptObj) (hp : o.optimizer = some p) (hc : MadeFor .rbfNetwork p.cls)
    (P : RBF.Params) (hq : o.params = .rbf P) (z : Mat) :
    predict o z = match RBF.forward z P with | .error e => .error e | .ok (m, _) => .ok m := by
  have hn : ¬ (o.trained = false ∧ o.loaded = false) := by rcases ht with h | h <;> simp [h]
  have hc : p.cls = .rbf := hc
  unfold predict
  rw [if_neg hn]
  simp only [hp, hq]
  unfold forward
  simp only [hc]
  rfl

/-! ## Loaded weights -/

/-- C202 for loaded weights: nothing is drawn for the start, training goes on from the parameters that were loaded; no initialiser is needed. -/
theorem C202_loaded (g : Gen σ) (w : Watch) (o : Inst) (ho : o.loaded = true) (x : Mat) (y : RBF.Labels) (epochs : Nat) (s : σ) :
    (∀ fit ∈ [fitLR g w, fitNN g w, fitRBF g w], fit o x y epochs s = train g w o x y epochs o.params s) ∧
    (o.optimizer = none → train g w o x y epochs o.params s = .error .typeError ∧ ∀ z, predict o z = .error .attributeError) := by
  refine ⟨?_, fun h => ⟨by simp only [train, h], fun z => ?_⟩⟩
  · intro fit hf
    simp only [List.mem_cons, List.not_mem_nil, or_false] at hf
    rcases hf with rfl | rfl | rfl
    · exact if_pos ho
    · exact if_pos ho
    · exact if_pos ho
  · unfold predict
    rw [if_neg (by simp [ho])]
    simp only [h]

/-! ## The exceptions -/

theorem loop_err_eq {S : Type} {step : Nat → S → σ → Except PyErr (S × σ)} {mon : S → Except PyErr Unit} {S : S} {s : σ} {k t : Nat} (hk : 0 < k) {e : PyErr}
    (h : step t S s = .error e) : loop step mon t k S s = .error e := by
  obtain ⟨k, rfl⟩ : ∃ j, k = j + 1 := ⟨k - 1, by omega⟩
  rw [loop, h]

theorem run_wrong (g : Gen σ) (w : Watch) (p : OptObj) (loss : Option LossObj) (metric : Option MetricObj) (x : Mat) (hx : 0 < x.rows) (y : RBF.Labels)
    (epochs : Nat) (he : 0 < epochs) (s : σ) (fam : Family) (q : Params) (hq : fam.Holds q) (e : PyErr) (hw : wrongOptimizer fam p.cls = some e) :
    run g w p loss metric x y epochs q s = .error e := by
  have hx0 : ¬ x.rows = 0 := by omega
  unfold run
  cases fam with
  | logistic =>
    obtain ⟨k, b, rfl⟩ := hq
    cases hc : p.cls <;> rw [hc] at hw <;> simp only [wrongOptimizer, Option.some.injEq, reduceCtorEq] at hw <;> subst hw
    · exact loop_err_eq he (by simp only [uncounted, sgdEpoch, if_neg hx0])
    · dsimp only [adamStart]
      by_cases h2 : 2 ≤ k
      · rw [if_pos h2]
      · rw [if_neg h2]
        dsimp only
        rw [loop_err_eq he (e := .indexError) (by simp only [adamEpoch, if_neg hx0])]
    · exact loop_err_eq he rfl
    · rfl
  | network =>
    obtain ⟨P, rfl⟩ := hq
    cases hc : p.cls <;> rw [hc] at hw <;> simp only [wrongOptimizer, Option.some.injEq, reduceCtorEq] at hw <;> subst hw
    · exact loop_err_eq he rfl
    · exact loop_err_eq he rfl
    · exact loop_err_eq he rfl
    · rfl
  | rbfNetwork =>
    obtain ⟨P, rfl⟩ := hq
    cases hc : p.cls <;> rw [hc] at hw <;> simp only [wrongOptimizer, Option.some.injEq, reduceCtorEq] at hw <;> subst hw
    · exact loop_err_eq he rfl
    · exact loop_err_eq he rfl
    · exact loop_err_eq he (by simp only [uncounted, sgdEpoch, if_neg hx0])
    · rfl
    · rfl

/-- C174, the exceptions: `fit` of a model compiled with the optimiser of another family raises the exception of the table, whatever the data and the
generator, and `predict` of a trained or loaded one likewise. -/
theorem C174_wrong_optimizer (g : Gen σ) (w : Watch) (o : Inst) (ho : o.loaded = false) (p : OptObj) (hp : o.optimizer = some p) (i : InitObj)
    (hi : o.initializer = .obj i) (x : Mat) (hx : 0 < x.rows) (y : RBF.Labels) (epochs : Nat) (he : 0 < epochs) (s : σ) (e : PyErr) :
    (wrongOptimizer .logistic p.cls = some e → i.cls ≠ .rbfNormal → fitLR g w o x y epochs s = .error e) ∧
    (wrongOptimizer .network p.cls = some e → i.cls ≠ .rbfNormal → (∃ ls, o.layers = some ls) → fitNN g w o x y epochs s = .error e) ∧
    (wrongOptimizer .rbfNetwork p.cls = some e → i.cls = .rbfNormal → (∃ h, o.hidden = some h ∧ 0 ≤ h) → fitRBF g w o x y epochs s = .error e) := by
  have hk : i.cls ≠ .rbfNormal → ∃ k, kindOf i.cls = some k := by
    intro hic
    cases hc : i.cls <;> first | exact ⟨_, rfl⟩ | exact absurd hc hic
  refine ⟨fun h hic => ?_, fun h hic hl => ?_, fun h hic hh => ?_⟩
  · obtain ⟨k, hk⟩ := hk hic
    unfold fitLR fitWith
    simp only [ho, Bool.false_eq_true, if_false, hi, initBeta, hk, train, hp]
    rw [run_wrong g w p _ _ x hx y epochs he _ .logistic _ ⟨_, _, rfl⟩ e h]
  · obtain ⟨k, hk⟩ := hk hic
    obtain ⟨ls, hl⟩ := hl
    unfold fitNN fitWith
    simp only [ho, Bool.false_eq_true, if_false, hi, hl, initNet, hk, train, hp]
    rw [run_wrong g w p _ _ x hx y epochs he _ .network _ ⟨_, rfl⟩ e h]
  · obtain ⟨n, hn, h0⟩ := hh
    unfold fitRBF fitWith
    simp only [ho, Bool.false_eq_true, if_false, hi, hn, initRBF, hic, if_true, if_neg (show ¬ n < 0 by omega), train, hp]
    rw [run_wrong g w p _ _ x hx y epochs he _ .rbfNetwork _ ⟨_, rfl⟩ e h]

/-- C174, the exceptions of the initialisers: that of RBF networks in another model, another one in an RBF network and no initialiser raise `TypeError`; no structure
`AttributeError`; a negative number of hidden units `ValueError`; no number `TypeError`. -/
theorem C174_wrong_initializer (g : Gen σ) (w : Watch) (o : Inst) (ho : o.loaded = false) (x : Mat) (y : RBF.Labels) (epochs : Nat) (s : σ) :
    ((∀ i, o.initializer = .obj i → i.cls = .rbfNormal) → fitLR g w o x y epochs s = .error .typeError ∧
      (o.layers ≠ none → fitNN g w o x y epochs s = .error .typeError)) ∧
    (o.layers = none → fitNN g w o x y epochs s = .error .attributeError) ∧
    ((∀ i, o.initializer = .obj i → i.cls ≠ .rbfNormal) → fitRBF g w o x y epochs s = .error .typeError) ∧
    (∀ i, o.initializer = .obj i → i.cls = .rbfNormal → (o.hidden = none → fitRBF g w o x y epochs s = .error .typeError) ∧
      ∀ h, o.hidden = some h → h < 0 → fitRBF g w o x y epochs s = .error .valueError) := by
  unfold fitLR fitNN fitRBF fitWith
  simp only [ho, Bool.false_eq_true, if_false]
  refine ⟨fun h => ⟨?_, fun hl => ?_⟩, fun h => ?_, fun h => ?_, fun i hi hic => ⟨fun hh => ?_, fun n hn h0 => ?_⟩⟩
  · cases hi : o.initializer with
    | obj i => simp only [initBeta, h i hi, kindOf]
    | str _ => rfl
    | none => rfl
    | other => rfl
  · cases hls : o.layers with
    | none => exact absurd hls hl
    | some ls =>
      cases hi : o.initializer with
      | obj i => simp only [initNet, h i hi, kindOf]
      | str _ => rfl
      | none => rfl
      | other => rfl
  · rw [h]; rfl
  · cases hi : o.initializer with
    | obj i => simp only [initRBF, if_neg (h i hi)]
    | str _ => rfl
    | none => rfl
    | other => rfl
  · rw [hi, hh]; simp only [initRBF, if_pos hic]
  · rw [hi, hn]; simp only [initRBF, if_pos hic, if_pos h0]

/-- C174: labels that do not match the samples (neither of them single) raise `ValueError` with the optimisers of the logistic regression; no samples raise
`ValueError` with those of the networks. -/
theorem C174_wrong_data (g : Gen σ) (w : Watch) (o : Inst) (ho : o.loaded = false) (p : OptObj) (hp : o.optimizer = some p) (i : InitObj)
    (hi : o.initializer = .obj i) (hic : i.cls ≠ .rbfNormal) (x : Mat) (y : RBF.Labels) (epochs : Nat) (he : 0 < epochs) (s : σ) :
    (MadeFor .logistic p.cls → ∀ n f, LabelsAre y n f → n ≠ x.rows → n ≠ 1 → x.rows ≠ 1 → fitLR g w o x y epochs s = .error .valueError) ∧
    (MadeFor .network p.cls → (∃ ls, o.layers = some ls) → x.rows = 0 → fitNN g w o x y epochs s = .error .valueError) := by
  obtain ⟨k, hk⟩ : ∃ k, kindOf i.cls = some k := by
    cases hc : i.cls <;> first | exact ⟨_, rfl⟩ | exact absurd hc hic
  refine ⟨fun hm n f hy hn _ _ => ?_, fun hm hl hx => ?_⟩
  · unfold fitLR fitWith
    simp only [ho, Bool.false_eq_true, if_false, hi, initBeta, hk, train, hp]
    have hne : ¬ ((flat y).1 = x.rows) := by rw [(flat_of_labels hy).1]; exact hn
    unfold run
    rcases hm with hm | hm <;> simp only [hm]
    · rw [loop_err_eq he (e := .valueError) (by simp only [pure1, gdEpoch, hne, and_false, if_false])]
    · rw [loop_err_eq he (e := .valueError) (by simp only [pure1, newtonEpoch, hne, and_false, if_false])]
  · obtain ⟨ls, hl⟩ := hl
    unfold fitNN fitWith
    simp only [ho, Bool.false_eq_true, if_false, hi, hl, initNet, hk, train, hp]
    unfold run
    rcases hm with hm | hm <;> simp only [hm]
    · rw [loop_err_eq he (e := .valueError) (by simp only [uncounted, sgdEpoch, if_pos hx])]
    · dsimp only [adamStart]
      rw [loop_err_eq he (e := .valueError) (by simp only [adamEpoch, if_pos hx])]

/-- C176, the exceptions of `predict` after a call of `compile` with the optimiser of another family. -/
theorem C176_wrong_optimizer (o : Inst) (ht : o.trained = true ∨ o.loaded = true) (p : OptObj) (hp : o.optimizer = some p) (fam : Family) (hq : fam.Holds o.params)
    (e : PyErr) (hw : wrongPredictor fam p.cls = some e) (z : Mat) : predict o z = .error e := by
  have hn : ¬ (o.trained = false ∧ o.loaded = false) := by rcases ht with h | h <;> simp [h]
  unfold predict
  rw [if_neg hn]
  simp only [hp]
  unfold forward
  cases fam with
  | logistic =>
    obtain ⟨k, b, hq⟩ := hq
    rw [hq]
    cases hc : p.cls <;> rw [hc] at hw <;> simp only [wrongPredictor, wrongOptimizer, Option.some.injEq, reduceCtorEq] at hw <;> subst hw <;> rfl
  | network =>
    obtain ⟨P, hq⟩ := hq
    rw [hq]
    cases hc : p.cls <;> rw [hc] at hw <;> simp only [wrongPredictor, wrongOptimizer, Option.some.injEq, reduceCtorEq] at hw <;> subst hw <;> rfl
  | rbfNetwork =>
    obtain ⟨P, hq⟩ := hq
    rw [hq]
    cases hc : p.cls <;> rw [hc] at hw <;> simp only [wrongPredictor, wrongOptimizer, Option.some.injEq, reduceCtorEq] at hw <;> subst hw <;> rfl

/-- The two tables cover exactly the optimisers that were not made for the family. -/
theorem C174_table_complete (fam : Family) (c : OptCls) : (MadeFor fam c ↔ wrongOptimizer fam c = none) ∧ (MadeFor fam c ↔ wrongPredictor fam c = none) := by
  cases fam <;> cases c <;> simp [MadeFor, wrongOptimizer, wrongPredictor]

theorem watch_silent (w : Watch) (hw : w.on = false) (c : OptCls) (loss : Option LossObj) (metric : Option MetricObj) (p : Params) :
    watch w c loss metric p = .ok () := if_pos hw

/-- The exception of a run that is watched without a loss, with the log-likelihood of another family, or without a metric. -/
def watchErr (c : OptCls) (loss : Option LossObj) (metric : Option MetricObj) : Option PyErr :=
  match loss with
  | none => if c = .gd ∨ c = .newton then some .attributeError else some .typeError
  | some l => if l.cls = .logLikelihood ∧ ¬ ((c = .gd ∨ c = .newton) ∧ l.name = "log_likelihood") then some .indexError
    else if metric = none then some .typeError else none

theorem watch_eq {w : Watch} (hw : w.Clean) (hon : w.on = true) (c : OptCls) (loss : Option LossObj) (metric : Option MetricObj) (e : PyErr)
    (h : watchErr c loss metric = some e) (p : Params) : watch w c loss metric p = .error e := by
  unfold watch
  rw [if_neg (by simp [hon])]
  cases loss with
  | none =>
    simp only [watchErr] at h
    by_cases hc : c = .gd ∨ c = .newton
    · rw [if_pos hc] at h; cases h; simp only [if_pos hc]
    · rw [if_neg hc] at h; cases h; simp only [if_neg hc]
  | some l =>
    simp only [watchErr] at h
    by_cases hl : l.cls = .logLikelihood ∧ ¬ ((c = .gd ∨ c = .newton) ∧ l.name = "log_likelihood")
    · rw [if_pos hl] at h; cases h; simp only [if_pos hl]
    · rw [if_neg hl] at h
      simp only [if_neg hl, hw.1]
      by_cases hm : metric = none
      · rw [if_pos hm] at h; cases h; rw [hm]
      · rw [if_neg hm] at h; cases h

theorem loop_watch_err {S : Type} {step : Nat → S → σ → Except PyErr (S × σ)} {mon mon' : S → Except PyErr Unit} {e : PyErr} (hm : ∀ S, mon S = .error e)
    (S : S) (s : σ) (k t : Nat) (hk : 0 < k) (h : ∃ r, loop step mon' t 1 S s = .ok r) : loop step mon t k S s = .error e := by
  obtain ⟨k, rfl⟩ : ∃ j, k = j + 1 := ⟨k - 1, by omega⟩
  obtain ⟨r, hr⟩ := h
  rw [loop] at hr ⊢
  cases hs : step t S s with
  | error e => rw [hs] at hr; cases hr
  | ok q => simp only [hm]

/-- C174, the exceptions of watched training: if one epoch works unwatched, watched training without a loss, with a log-likelihood that does not fit, or without
a metric raises the exception named, for every positive number of epochs. -/
theorem C174_watched (g : Gen σ) {w : Watch} (hw : w.Clean) (hon : w.on = true) (o : Inst) (p : OptObj) (hp : o.optimizer = some p) (x : Mat) (y : RBF.Labels)
    (epochs : Nat) (he : 0 < epochs) (q : Params) (s : σ) (e : PyErr) (hwe : watchErr p.cls o.loss o.metric = some e)
    (h : ∃ r, train g { w with on := false } o x y 1 q s = .ok r) : train g w o x y epochs q s = .error e := by
  have hr : ∃ r, run g { w with on := false } p o.loss o.metric x y 1 q s = .ok r := by
    obtain ⟨r, hr⟩ := h
    simp only [train, hp] at hr
    cases hc : run g { w with on := false } p o.loss o.metric x y 1 q s with
    | error e => rw [hc] at hr; cases hr
    | ok r' => exact ⟨r', rfl⟩
  suffices hs : run g w p o.loss o.metric x y epochs q s = .error e by simp only [train, hp, hs]
  unfold run at hr ⊢
  cases hc : p.cls with
  | gd => rw [hc] at hr hwe; exact loop_watch_err (fun S => watch_eq hw hon _ _ _ e hwe S) _ _ _ _ he hr
  | newton => rw [hc] at hr hwe; exact loop_watch_err (fun S => watch_eq hw hon _ _ _ e hwe S) _ _ _ _ he hr
  | sgd => rw [hc] at hr hwe; exact loop_watch_err (fun S => watch_eq hw hon _ _ _ e hwe S) _ _ _ _ he hr
  | rbf => rw [hc] at hr hwe; exact loop_watch_err (fun S => watch_eq hw hon _ _ _ e hwe S) _ _ _ _ he hr
  | smo => rw [hc] at hr; obtain ⟨r, hr⟩ := hr; cases hr
  | adam =>
    rw [hc] at hr hwe
    dsimp only at hr ⊢
    cases ha : adamStart q with
    | error e' => rw [ha] at hr; obtain ⟨r, hr⟩ := hr; cases hr
    | ok S =>
      rw [ha] at hr
      dsimp only at hr ⊢
      rw [loop_watch_err (fun S => watch_eq hw hon _ _ _ e hwe _) S s epochs 1 he (mon' := fun S => watch { w with on := false } .adam o.loss o.metric (adamParams S))]
      obtain ⟨r, hr⟩ := hr
      cases hl : loop (adamEpoch g p x y) (fun S => watch { w with on := false } .adam o.loss o.metric (adamParams S)) 1 1 S s with
      | error e' => rw [hl] at hr; cases hr
      | ok r' => exact ⟨r', rfl⟩

/-- C177: a seed outside of `[0, 2^32)` raises `ValueError` in `compile` (unless the initialiser is an object), before anything but the structure is stored. -/
theorem C177_bad_seed (g : Gen σ) (entropy : σ) (ls : List Nat) (h : Int) (a : Args) (o : Inst) (k : Int) (hk : o.seed = some k) (hb : k < 0 ∨ 4294967296 ≤ k)
    (hi : o.initializer = .none) (s : σ) :
    compileLR g entropy a o s = (o, s, some .valueError) ∧ compileNN g entropy ls a o s = ({ o with layers := some ls }, s, some .valueError) ∧
    compileRBF g entropy (.ok h) a o s = ({ o with hidden := some h }, s, some .valueError) := by
  have hr : reseed g entropy (some k) = .error .valueError := if_neg (by omega)
  have h1 : makeInit g entropy .none (some k) s = .error .valueError := by simp only [makeInit, getInitializer, hr]
  have h2 : makeInit g entropy (.str "rbf_normal") (some k) s = .error .valueError := by simp [makeInit, getInitializer, hr]
  refine ⟨?_, ?_, ?_⟩
  · rw [compileLR, hi, hk, h1]
  · rw [compileNN, hi, hk, h1]
  · rw [compileRBF, hk, h2]

/-- The hypotheses are met: a network compiled with the defaults and two samples; labels in a column, in a row, and in a vector. -/
example : (∃ o p i k, (compileNN plain 0 [3, 1] ⟨.str "sgd", .str "crossentropy", .str "accuracy"⟩ (newNN (some 3) .none) 5).1 = o ∧ o.loaded = false ∧
      o.optimizer = some p ∧ p.cls = .sgd ∧ p.hyper = [1 / 100] ∧ o.initializer = .obj i ∧ kindOf i.cls = some k ∧ o.layers = some [3, 1] ∧
      Watchable bar .sgd o.loss o.metric) ∧
    LabelsAre (.mat ⟨2, 1, fun i _ => (i : ℝ)⟩) 2 (fun i => (i : ℝ)) ∧ LabelsAre (.mat ⟨1, 2, fun _ j => (j : ℝ)⟩) 2 (fun i => (i : ℝ)) ∧
    LabelsAre (.vec 2 fun i => (i : ℝ)) 2 (fun i => (i : ℝ)) := by
  refine ⟨⟨_, OptCls.sgd.default, _, .randomNormal, rfl, rfl, rfl, rfl, by simp [OptCls.default], rfl, rfl, rfl, fun _ => ⟨_, _, rfl, rfl, fun h => by cases h⟩⟩, ⟨rfl, ?_⟩, ⟨rfl, ?_⟩, rfl,
    fun _ _ => rfl⟩
  · intro a ha b hb
    have : b = 0 := by simpa using hb
    subst this; simp
  · intro a ha b hb
    have : a = 0 := by simpa using ha
    subst this; simp

/-- The draws in such a session: the first weight is the first normal number (seed 3), and the first sample is drawn in the state after all six weights. -/
example : (indices plain 2 2 (Init.stateAfter plain.randn (Init.weightsAll [1, 3, 1]) 3)).1 = [1, 0] := by decide

end CML.Comp
