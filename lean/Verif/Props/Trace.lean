import Verif.Spec.Trace
import Verif.Props.FailedFit

set_option linter.unusedSectionVars false

/-! # Properties C265, C266: histories of calls -/

namespace CML.Failed

variable {K : Type} [Field K] [LinearOrder K] {d : Nat}

theorem run_append {O E : Type*} (step : O → E → O × Option PyErr) : ∀ (h h' : List E) (o : O), run step o (h ++ h') = run step (run step o h) h'
  | [], _, _ => rfl
  | e :: h, h', o => run_append step h h' _

/-- If completing is the only way to become ready and readiness is never lost, an instance is ready exactly after a completed call. -/
theorem ready_iff {O E : Type*} (step : O → E → O × Option PyErr) (ready : O → Prop) (inv : O → Prop)
    (h1 : ∀ o c, inv o → inv (step o c).1) (h2 : ∀ o c, inv o → (step o c).2 = none → ready (step o c).1) (h3 : ∀ o c, inv o → ready o → ready (step o c).1)
    (h4 : ∀ o c, inv o → (step o c).2 ≠ none → (ready (step o c).1 ↔ ready o)) :
    ∀ (h : List E) (o : O), inv o → (ready (run step o h) ↔ ready o ∨ SomeCompleted step o h)
  | [], o, _ => by simp [run, SomeCompleted]
  | c :: h, o, hi => by
    rw [run, ready_iff step ready inv h1 h2 h3 h4 h _ (h1 o c hi)]
    constructor
    · rintro (hr | ⟨pre, c', post, rfl, hc⟩)
      · by_cases hc : (step o c).2 = none
        · exact .inr ⟨[], c, h, rfl, hc⟩
        · exact .inl ((h4 o c hi hc).1 hr)
      · exact .inr ⟨c :: pre, c', post, rfl, hc⟩
    · rintro (hr | ⟨pre, c', post, he, hc⟩)
      · exact .inl (h3 o c hi hr)
      · cases pre with
        | nil => cases he; exact .inl (h2 o c hi hc)
        | cons p pre => cases he; exact .inr ⟨pre, c', post, rfl, hc⟩

/-! ## LDA -/

variable (gw : ∀ d : Nat, Matrix (Fin d) (Fin d) K → (Fin d → K) → (Fin d → K) → Except PyErr (Fin d → K))

theorem lda_step (o : LDAObj K) (c : LDACall K) :
    ((o.step gw c).2 = none → (∀ o2 : LDAObj K, (o2.step gw c).2 = none ∧ (o2.step gw c).1.w = (o.step gw c).1.w ∧ (o2.step gw c).1.mu0 = (o.step gw c).1.mu0 ∧
        (o2.step gw c).1.mu1 = (o.step gw c).1.mu1) ∧
      ((o.step gw c).1.trained = true ∨ (o.step gw c).1.loaded = true) ∧ (o.step gw c).1.w ≠ none ∧ (o.step gw c).1.mu0 ≠ none ∧ (o.step gw c).1.mu1 ≠ none) ∧
    ((o.step gw c).2 ≠ none → (o.step gw c).1.trained = o.trained ∧ (o.step gw c).1.loaded = o.loaded) ∧
    ((o.trained = true ∨ o.loaded = true) → ((o.step gw c).1.trained = true ∨ (o.step gw c).1.loaded = true)) ∧
    (o.w ≠ none → (o.step gw c).1.w ≠ none) ∧ (o.mu0 ≠ none → (o.step gw c).1.mu0 ≠ none) ∧ (o.mu1 ≠ none → (o.step gw c).1.mu1 ≠ none) := by
  cases c with
  | fit d x y =>
    simp only [LDAObj.step, LDAObj.fit]
    by_cases hl : x.length ≠ y.length
    · simp [hl]
    · simp only [if_neg hl]
      cases gw d (LDA.scatter (LDA.rowsOf x y 0) (LDA.rowsOf x y 1) ((LDA.colMean (LDA.rowsOf x y 0)).getD 0) ((LDA.colMean (LDA.rowsOf x y 1)).getD 0))
        ((LDA.colMean (LDA.rowsOf x y 0)).getD 0) ((LDA.colMean (LDA.rowsOf x y 1)).getD 0) <;> simp
  | load w m0 m1 => cases w <;> cases m0 <;> cases m1 <;> simp [LDAObj.step, LDAObj.load]
  | badFile e => simp [LDAObj.step]

theorem lda_predict_ready (o : LDAObj K) (q : List (Fin d → K)) :
    ((o.trained = false ∧ o.loaded = false) → o.predict q = .error .valueError) ∧
    ((o.trained = true ∨ o.loaded = true) → o.w ≠ none → o.mu0 ≠ none → o.mu1 ≠ none → ∀ e, o.predict q = .error e → e = .valueError) := by
  refine ⟨fun h => if_pos h, fun h hw h0 h1 e he => ?_⟩
  rw [LDAObj.predict, if_neg (by rcases h with h | h <;> simp [h])] at he
  obtain ⟨w, hw⟩ := Option.ne_none_iff_exists'.1 hw
  obtain ⟨m0, h0⟩ := Option.ne_none_iff_exists'.1 h0
  obtain ⟨m1, h1⟩ := Option.ne_none_iff_exists'.1 h1
  rw [hw, h0, h1] at he
  dsimp only at he
  cases a : asLen d w <;> cases b : asLen d m0 <;> cases c : asLen d m1 <;> rw [a, b, c] at he <;> cases he <;> rfl

/-- What holds of an LDA instance after every history. -/
def LDAInv (o : LDAObj K) : Prop := (o.trained = true ∨ o.loaded = true) → o.w ≠ none ∧ o.mu0 ≠ none ∧ o.mu1 ≠ none

theorem lda_inv (o : LDAObj K) (c : LDACall K) (h : LDAInv o) : LDAInv (o.step gw c).1 := by
  obtain ⟨h1, h2, h3, h4, h5, h6⟩ := lda_step gw o c
  intro hr
  by_cases hc : (o.step gw c).2 = none
  · exact (h1 hc).2.2
  · obtain ⟨e1, e2⟩ := h2 hc
    rw [e1, e2] at hr
    exact ⟨h4 (h hr).1, h5 (h hr).2.1, h6 (h hr).2.2⟩

/-- C265 (LDA): after any history of calls of `fit` and `load_weights` on a new instance, some of which may have raised, `predict` refuses every question
if no call completed; once one completed it never fails for want of an attribute - only, with `ValueError`, for a wrong number of features - whatever
failed afterwards. -/
theorem C265_lda (h : List (LDACall K)) (q : List (Fin d → K)) :
    (¬ SomeCompleted (LDAObj.step gw) {} h → (run (LDAObj.step gw) {} h).predict q = .error .valueError) ∧
    (SomeCompleted (LDAObj.step gw) {} h → ∀ e, (run (LDAObj.step gw) {} h).predict q = .error e → e = .valueError) := by
  have hi : ∀ (h : List (LDACall K)) (o : LDAObj K), LDAInv o → LDAInv (run (LDAObj.step gw) o h) := by
    intro h
    induction h with
    | nil => exact fun _ h => h
    | cons c h ih => exact fun o ho => ih _ (lda_inv gw o c ho)
  have key := ready_iff (LDAObj.step gw) (fun o => o.trained = true ∨ o.loaded = true) (fun _ => True) (fun _ _ _ => trivial)
    (fun o c _ hc => ((lda_step gw o c).1 hc).2.1) (fun o c _ hr => (lda_step gw o c).2.2.1 hr)
    (fun o c _ hc => by rw [((lda_step gw o c).2.1 hc).1, ((lda_step gw o c).2.1 hc).2]) h {} trivial
  simp only [Bool.false_eq_true, or_self, false_or] at key
  refine ⟨fun hn => (lda_predict_ready _ q).1 ?_, fun hs => ?_⟩
  · rw [← key] at hn; simpa using hn
  · have hr := key.2 hs
    obtain ⟨a, b, c⟩ := hi h {} (fun h => by simp at h) hr
    exact (lda_predict_ready _ q).2 hr a b c

/-- C266 (LDA): if the last call of a history completed, the instance answers every question as a new instance on which that call alone was made. -/
theorem C266_lda (h : List (LDACall K)) (c : LDACall K) (hc : ((run (LDAObj.step gw) {} h).step gw c).2 = none) :
    SameAnswers LDAObj.answer (run (LDAObj.step gw) {} [c]) (run (LDAObj.step gw) {} (h ++ [c])) := by
  rw [run_append]
  simp only [run]
  obtain ⟨h1, h2, -⟩ := (lda_step gw _ c).1 hc
  obtain ⟨g0, g1, g2, g3⟩ := h1 {}
  have h2' := ((lda_step gw {} c).1 g0).2.1
  intro q
  simp only [LDAObj.answer, LDAObj.predict, g1, g2, g3]
  rw [if_neg (by rcases h2 with h | h <;> simp [h]), if_neg (by rcases h2' with h | h <;> simp [h])]

/-- A failed call, a completed one, a half loaded file: the question is answered (with the loaded projection vector). -/
example : let h : List (LDACall ℚ) := [.fit 1 [![1]] [], .fit 1 [![0], ![2]] [0, 1], .load (some ⟨1, some ![-1]⟩) none none]
    (run (LDAObj.step fun _ _ _ _ => .ok fun _ => 1) {} h).predict [![5], ![-3]] = .ok [1, 0] ∧
    (run (LDAObj.step fun _ _ _ _ => .ok fun _ => 1) {} (h.take 1)).predict [![5]] = .error .valueError := by decide +kernel

/-! ## k-means -/

theorem km_step (root : K → K) (o : KMObj K d) (c : KMCall K d) :
    ((o.step root c).2 = none → (∀ o2 : KMObj K d, (o2.step root c).2 = none ∧ (o2.step root c).1.centroids = (o.step root c).1.centroids) ∧
      ((o.step root c).1.trained = true ∨ (o.step root c).1.loaded = true) ∧ (o.step root c).1.centroids ≠ none) ∧
    ((o.step root c).2 ≠ none → (o.step root c).1.trained = o.trained ∧ (o.step root c).1.loaded = o.loaded) ∧
    ((o.trained = true ∨ o.loaded = true) → ((o.step root c).1.trained = true ∨ (o.step root c).1.loaded = true)) ∧
    (o.centroids ≠ none → (o.step root c).1.centroids ≠ none) := by
  cases c with
  | fit x tol epochs start =>
    cases start with
    | error e => simp [KMObj.step, KMObj.fit]
    | ok init =>
      have hold := loop_old root x tol epochs (init.map some)
      simp only [KMObj.step, KMObj.fit]
      have h1 := fun o2 => (hold o2 o).1
      have h2 := fun o2 => (hold o2 o).2.1
      have h3 := (hold o o).2.2.1
      have h4 := (hold o o).2.2.2.1
      have h5 := (hold o o).2.2.2.2
      generalize hr : KMObj.loop root x tol epochs (init.map some) o = r at *
      obtain ⟨o', e⟩ := r
      simp only at h1 h2 h3 h4 h5
      cases e with
      | none =>
        simp only
        refine ⟨fun _ => ⟨fun o2 => ?_, .inl trivial, h5⟩, fun h => absurd rfl h, fun _ => .inl trivial, fun _ => h5⟩
        have a := h1 o2
        have b := h2 o2
        generalize KMObj.loop root x tol epochs (init.map some) o2 = r2 at *
        obtain ⟨o2', e2⟩ := r2
        simp only at a b
        subst a
        exact ⟨rfl, b⟩
      | some e =>
        simp only
        exact ⟨fun h => by simp at h, fun _ => ⟨h3, h4⟩, fun h => by rw [h3, h4]; exact h, fun _ => h5⟩
  | load c l => cases c <;> cases l <;> simp [KMObj.step, KMObj.load]
  | badFile e => simp [KMObj.step]

/-- C265 (k-means): as for LDA. Once a call completed, `predict` only fails, with `ValueError`, when there is no centroid at all. -/
theorem C265_kmeans (root : K → K) (h : List (KMCall K d)) (q : List (Fin d → K)) :
    (¬ SomeCompleted (KMObj.step root) {} h → (run (KMObj.step root) {} h).predict root q = .error .valueError) ∧
    (SomeCompleted (KMObj.step root) {} h → (∀ e, (run (KMObj.step root) {} h).predict root q = .error e → e = .valueError) ∧
      ∃ cs, (run (KMObj.step root) {} h).centroids = some cs) := by
  have hi : ∀ (h : List (KMCall K d)) (o : KMObj K d), ((o.trained = true ∨ o.loaded = true) → o.centroids ≠ none) →
      (((run (KMObj.step root) o h).trained = true ∨ (run (KMObj.step root) o h).loaded = true) → (run (KMObj.step root) o h).centroids ≠ none) := by
    intro h
    induction h with
    | nil => exact fun _ h => h
    | cons c h ih =>
      intro o ho
      refine ih _ fun hr => ?_
      obtain ⟨h1, h2, h3, h4⟩ := km_step root o c
      by_cases hc : (o.step root c).2 = none
      · exact (h1 hc).2.2
      · obtain ⟨e1, e2⟩ := h2 hc
        rw [e1, e2] at hr
        exact h4 (ho hr)
  have key := ready_iff (KMObj.step root) (fun o : KMObj K d => o.trained = true ∨ o.loaded = true) (fun _ => True) (fun _ _ _ => trivial)
    (fun o c _ hc => ((km_step root o c).1 hc).2.1) (fun o c _ hr => (km_step root o c).2.2.1 hr)
    (fun o c _ hc => by rw [((km_step root o c).2.1 hc).1, ((km_step root o c).2.1 hc).2]) h {} trivial
  simp only [Bool.false_eq_true, or_self, false_or] at key
  refine ⟨fun hn => if_pos ?_, fun hs => ?_⟩
  · rw [← key] at hn; simpa using hn
  · have hr := key.2 hs
    obtain ⟨cs, hcs⟩ := Option.ne_none_iff_exists'.1 (hi h {} (fun h => by simp at h) hr)
    refine ⟨fun e he => ?_, cs, hcs⟩
    rw [KMObj.predict, if_neg (by rcases hr with h | h <;> simp [h]), hcs] at he
    dsimp only at he
    cases hg : KMeans.getCluster root q cs with
    | none => rw [hg] at he; cases he; rfl
    | some l => rw [hg] at he; cases he

/-- C266 (k-means): if the last call of a history completed, the instance answers every question as a new instance on which that call alone was made. -/
theorem C266_kmeans (root : K → K) (h : List (KMCall K d)) (c : KMCall K d) (hc : ((run (KMObj.step root) {} h).step root c).2 = none) :
    SameAnswers (KMObj.predict root) (run (KMObj.step root) {} [c]) (run (KMObj.step root) {} (h ++ [c])) := by
  rw [run_append]
  simp only [run]
  obtain ⟨h1, h2, -⟩ := (km_step root _ c).1 hc
  obtain ⟨g0, g1⟩ := h1 {}
  have h2' := ((km_step root {} c).1 g0).2.1
  intro q
  simp only [KMObj.predict, g1]
  rw [if_neg (by rcases h2 with h | h <;> simp [h]), if_neg (by rcases h2' with h | h <;> simp [h])]

example : let h : List (KMCall ℚ 1) := [.fit [![0], ![10]] (1/1000) 5 (.error .valueError), .fit [![0], ![10]] (1/1000) 5 (.ok [![1], ![9]])]
    (run (KMObj.step id) {} h).predict id [![2], ![7]] = .ok [0, 1] ∧ (run (KMObj.step id) {} (h.take 1)).predict id [![2]] = .error .valueError := by decide +kernel

/-! ## Logistic regression -/

theorem lr_step (o : LR) (ho : o.loaded = true → o.beta ≠ none) (c : LRCall) :
    ((o.step c).2 = none → (o.step c).1.trained = true ∨ (o.step c).1.loaded = true) ∧
    ((o.step c).2 ≠ none → (o.step c).1.trained = o.trained ∧ (o.step c).1.loaded = o.loaded) ∧
    ((o.trained = true ∨ o.loaded = true) → ((o.step c).1.trained = true ∨ (o.step c).1.loaded = true)) ∧
    (o.beta ≠ none → (o.step c).1.beta ≠ none) ∧ ((o.step c).2 = none → (o.step c).1.beta ≠ none) := by
  cases c with
  | fit n d draw x y epochs =>
    have ht : ∀ b : Fin (d + 1) → ℝ, ((o.train x y epochs b).2 = none → (o.train x y epochs b).1.trained = true ∨ (o.train x y epochs b).1.loaded = true) ∧
        ((o.train x y epochs b).2 ≠ none → (o.train x y epochs b).1.trained = o.trained ∧ (o.train x y epochs b).1.loaded = o.loaded) ∧
        ((o.trained = true ∨ o.loaded = true) → ((o.train x y epochs b).1.trained = true ∨ (o.train x y epochs b).1.loaded = true)) ∧
        (o.train x y epochs b).1.beta ≠ none := by
      intro b
      simp only [LR.train]
      generalize newtonLoop x y epochs b = r
      obtain ⟨b', e⟩ := r
      cases e <;> simp
    simp only [LR.step, LR.fit]
    obtain ⟨beta, trained, loaded⟩ := o
    cases loaded with
    | false =>
      obtain ⟨h1, h2, h3, h4⟩ := ht draw
      exact ⟨h1, h2, h3, fun _ => h4, fun _ => h4⟩
    | true =>
      cases beta with
      | none => exact absurd rfl (ho rfl)
      | some p =>
        obtain ⟨d', b⟩ := p
        simp only
        by_cases hd : d' = d
        · subst hd
          simp only [dif_pos]
          obtain ⟨h1, h2, h3, h4⟩ := ht b
          exact ⟨h1, h2, fun _ => h3 (.inr rfl), fun _ => h4, fun _ => h4⟩
        · simp only [dif_neg hd]
          by_cases he : epochs = 0 <;> simp [he]
  | load b => cases b <;> simp [LR.step]
  | badFile e => simp [LR.step]

/-- C265 (logistic regression): as for LDA. Once a call completed, `predict` answers exactly the questions with the number of features of the current
parameters, and raises `ValueError` for the others. -/
theorem C265_logistic (h : List LRCall) {m : Nat} (q : Fin m → Fin d → ℝ) :
    (¬ SomeCompleted LR.step {} h → (run LR.step {} h).predict q = .error .valueError) ∧
    (SomeCompleted LR.step {} h → ∃ d' b, (run LR.step {} h).beta = some ⟨d', b⟩ ∧
      ((run LR.step {} h).predict q = .error .valueError ↔ d' ≠ d) ∧ ∀ e, (run LR.step {} h).predict q = .error e → e = .valueError) := by
  have inv0 : ∀ (o : LR) (c : LRCall), ((o.trained = true ∨ o.loaded = true) → o.beta ≠ none) →
      (((o.step c).1.trained = true ∨ (o.step c).1.loaded = true) → (o.step c).1.beta ≠ none) := by
    intro o c ho hr
    obtain ⟨h1, h2, h3, h4, h5⟩ := lr_step o (fun h => ho (.inr h)) c
    by_cases hc : (o.step c).2 = none
    · exact h5 hc
    · obtain ⟨e1, e2⟩ := h2 hc
      rw [e1, e2] at hr
      exact h4 (ho hr)
  have hi : ∀ (h : List LRCall) (o : LR), ((o.trained = true ∨ o.loaded = true) → o.beta ≠ none) →
      (((run LR.step o h).trained = true ∨ (run LR.step o h).loaded = true) → (run LR.step o h).beta ≠ none) := by
    intro h
    induction h with
    | nil => exact fun _ h => h
    | cons c h ih => exact fun o ho => ih _ (inv0 o c ho)
  have key := ready_iff LR.step (fun o => o.trained = true ∨ o.loaded = true) (fun o => (o.trained = true ∨ o.loaded = true) → o.beta ≠ none) inv0
    (fun o c hi hc => (lr_step o (fun h => hi (.inr h)) c).1 hc) (fun o c hi hr => (lr_step o (fun h => hi (.inr h)) c).2.2.1 hr)
    (fun o c hi hc => by rw [((lr_step o (fun h => hi (.inr h)) c).2.1 hc).1, ((lr_step o (fun h => hi (.inr h)) c).2.1 hc).2]) h {} (fun h => by simp at h)
  simp only [Bool.false_eq_true, or_self, false_or] at key
  refine ⟨fun hn => if_pos ?_, fun hs => ?_⟩
  · rw [← key] at hn; simpa using hn
  · have hr := key.2 hs
    obtain ⟨⟨d', b⟩, hb⟩ := Option.ne_none_iff_exists'.1 (hi h {} (fun h => by simp at h) hr)
    refine ⟨d', b, hb, ?_, fun e he => ?_⟩
    · rw [LR.predict, if_neg (by rcases hr with h | h <;> simp [h]), hb]
      by_cases hd : d' = d <;> simp [hd]
    · rw [LR.predict, if_neg (by rcases hr with h | h <;> simp [h]), hb] at he
      by_cases hd : d' = d
      · simp [hd] at he
      · simp only [dif_neg hd] at he; cases he; rfl

/-- C266 (logistic regression, part): if the last call of a history completed and no file was loaded before, the instance is that of a new instance on which
that call alone was made; the same holds when the last call is `load_weights`. -/
theorem C266_logistic_partial (h : List LRCall) (c : LRCall) (hc : ((run LR.step {} h).step c).2 = none)
    (hl : (∃ b, c = .load b) ∨ (run LR.step {} h).loaded = false) :
    SameAnswers LR.answer (run LR.step {} [c]) (run LR.step {} (h ++ [c])) := by
  rw [run_append]
  simp only [run]
  cases c with
  | fit n d draw x y epochs =>
    rcases hl with ⟨b, hb⟩ | hl
    · cases hb
    · have := C172_logistic_partial draw (run LR.step {} h) {} hl rfl x y epochs hc
      intro q
      simp only [LR.step, this]
  | load b =>
    cases b with
    | none => cases hc
    | some b => intro q; simp [LR.step, LR.answer, LR.predict]
  | badFile e => cases hc

/-- C266 fails for logistic regression after a load: the training starts from the loaded parameters, now and in every later call. (With no epoch, so that the
start is visible; `draw` is what a new instance starts from.) -/
theorem C266_logistic_violated (b draw : Fin (d + 1) → ℝ) (hne : b ≠ draw) {n : Nat} (x : Fin n → Fin d → ℝ) (y : Fin n → ℝ) :
    ¬ SameAnswers LR.answer (run LR.step {} [.fit n d draw x y 0]) (run LR.step {} [.load (some ⟨d, b⟩), .fit n d draw x y 0, .fit n d draw x y 0]) := by
  intro h
  have e1 : run LR.step {} [.fit n d draw x y 0] = { beta := some ⟨d, draw⟩, trained := true } := rfl
  have e2 : run LR.step {} [.load (some ⟨d, b⟩), .fit n d draw x y 0, .fit n d draw x y 0] = { beta := some ⟨d, b⟩, trained := true, loaded := true } := by
    simp [run, LR.step, LR.fit, LR.train, newtonLoop]
  rw [e1, e2] at h
  obtain ⟨r, hr⟩ := forward_injective hne
  have := h ⟨1, d, fun _ => r⟩
  simp only [LR.answer, LR.predict] at this
  simp only [Bool.true_eq_false, false_and, if_false, dite_true, Except.ok.injEq, List.ofFn_inj] at this
  exact hr this

end CML.Failed
