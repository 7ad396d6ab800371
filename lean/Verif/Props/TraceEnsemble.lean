import Verif.Props.Trace
import Verif.Props.FailedFit3

set_option linter.unusedSectionVars false

/-! # Properties C265, C266: histories of calls on ensembles -/

namespace CML.Failed

variable {Q E : Type}

/-! ## Bagging -/

theorem bag_step (rng : Option Nat → (n : Nat) → Fin n → Fin n) (o : Bagging.Obj E) (c : BagCall Q E) :
    ((bagStep rng o c).2 = none → (bagStep rng o c).1.trained = true ∨ (bagStep rng o c).1.loaded = true) ∧
    ((bagStep rng o c).2 ≠ none → (bagStep rng o c).1.trained = o.trained ∧ (bagStep rng o c).1.loaded = o.loaded) ∧
    ((o.trained = true ∨ o.loaded = true) → ((bagStep rng o c).1.trained = true ∨ (bagStep rng o c).1.loaded = true)) := by
  cases c with
  | fit learn x y k =>
    simp only [bagStep]
    cases h : bagFit rng learn x y k o with
    | mk o' e =>
      cases e with
      | none =>
        have ht : o'.trained = true := by
          unfold bagFit at h
          split at h
          · simp only [Prod.mk.injEq, and_true] at h; rw [← h]
          · simp at h
        simp [ht]
      | some e =>
        obtain ⟨h1, h2, -⟩ := C171_bagging_failed rng learn x y k o o' e h
        simp [h1, h2]
  | load ms s => cases ms <;> cases s <;> simp [bagStep]
  | badFile e => simp [bagStep]

/-- C265 (bagging): after any history of calls of `fit` and `load_weights` on a new instance, `predict` answers exactly if some call completed. -/
theorem C265_bagging (rng : Option Nat → (n : Nat) → Fin n → Fin n) (s : Nat) (h : List (BagCall Q E)) {X : Type*} (pred : E → X → Int) (rows : List X) :
    (¬ SomeCompleted (bagStep rng) { seed := s } h → (run (bagStep rng) { seed := s } h).predict pred rows = .error .valueError) ∧
    (SomeCompleted (bagStep rng) { seed := s } h → ∃ a, (run (bagStep rng) { seed := s } h).predict pred rows = .ok a ∧ a.length = rows.length) := by
  have key := ready_iff (bagStep (Q := Q) rng) (fun o : Bagging.Obj E => o.trained = true ∨ o.loaded = true) (fun _ => True) (fun _ _ _ => trivial)
    (fun o c _ hc => (bag_step rng o c).1 hc) (fun o c _ hr => (bag_step rng o c).2.2 hr)
    (fun o c _ hc => by rw [((bag_step rng o c).2.1 hc).1, ((bag_step rng o c).2.1 hc).2]) h { seed := s } trivial
  simp only [Bool.false_eq_true, or_self, false_or] at key
  refine ⟨fun hn => if_pos ?_, fun hs => ⟨_, if_neg ?_, List.length_map _⟩⟩
  · rw [← key] at hn; simpa using hn
  · have := key.2 hs
    rcases this with h | h <;> simp [h]

/-- C266 (bagging, part): after `load_weights` the instance is that of a new instance on which that call alone was made. -/
theorem C266_bagging_partial (rng : Option Nat → (n : Nat) → Fin n → Fin n) (s : Nat) (h : List (BagCall Q E)) (ms : Option (List E)) (sd : Option Nat)
    (hc : (bagStep (Q := Q) rng (run (bagStep rng) { seed := s } h) (.load ms sd)).2 = none) {X : Type*} (pred : E → X → Int) :
    SameAnswers (fun (o : Bagging.Obj E) (rows : List X) => o.predict pred rows) (run (bagStep (Q := Q) rng) { seed := s } [.load ms sd])
      (run (bagStep rng) { seed := s } (h ++ [.load ms sd])) := by
  rw [run_append]
  cases ms with
  | none => cases hc
  | some ms =>
    cases sd with
    | none => cases hc
    | some sd => intro q; simp [run, bagStep, Bagging.Obj.predict]

/-- C266 fails for bagging: after a `fit` that completed, the instance has the members it had before the call and `k` more. -/
theorem C266_bagging_accumulates (rng : Option Nat → (n : Nat) → Fin n → Fin n) (s : Nat) (h : List (BagCall Q E))
    (learn : List (List Q) → List (List Int) → Except PyErr E) (x : List (List Q)) (y : List Int) (k : Nat)
    (hc : (bagStep rng (run (bagStep rng) { seed := s } h) (.fit learn x y k)).2 = none) :
    ∃ es, (run (bagStep rng) { seed := s } (h ++ [.fit learn x y k])).members = (run (bagStep rng) { seed := s } h).members ++ es ∧ es.length = k := by
  rw [run_append]
  simp only [run, bagStep] at hc ⊢
  generalize run (bagStep rng) { seed := s } h = o at hc ⊢
  have hf := (C171_bagging_completes rng learn x y k o (bagFit rng learn x y k o).1).1 (by rw [← hc])
  obtain ⟨-, -, es', he, hl, -⟩ := Bagging.C36_fit rng learn x y k o _ hf
  exact ⟨es', he, hl⟩

/-- A learner that answers the first label it was given. -/
def firstLabel : List (List ℚ) → List (List Int) → Except PyErr Int := fun _ ys => .ok ((ys.headD []).headD 0)

/-- C266 fails for bagging: an instance trained with three members on negative samples and then with one member on positive samples goes on answering -1;
a new instance trained by the second call answers 1. -/
theorem C266_bagging_violated :
    ¬ SameAnswers (fun (o : Bagging.Obj Int) (rows : List Unit) => o.predict (fun e _ => e) rows)
      (run (bagStep cyclic) { seed := 0 } [.fit firstLabel [[1], [2]] [1, 1] 1])
      (run (bagStep cyclic) { seed := 0 } [.fit firstLabel [[1], [2]] [-1, -1] 3, .fit firstLabel [[1], [2]] [1, 1] 1]) := by
  intro h
  have := h [()]
  revert this
  decide +kernel

/-! ## AdaBoost -/

variable {X : Type}

theorem ada_step (o : Ada.Obj X) (c : AdaCall X) :
    ((adaStep o c).2 = none → ((adaStep o c).1.trained = true ∨ (adaStep o c).1.loaded = true) ∧ (adaStep o c).1.asArray = true) ∧
    ((adaStep o c).2 ≠ none → (adaStep o c).1.trained = o.trained ∧ (adaStep o c).1.loaded = o.loaded ∧ (adaStep o c).1.asArray = o.asArray) ∧
    ((o.trained = true ∨ o.loaded = true) → ((adaStep o c).1.trained = true ∨ (adaStep o c).1.loaded = true)) := by
  cases c with
  | fit n learn x y k =>
    simp only [adaStep, adaFit]
    obtain ⟨es, as, h⟩ := adaLoop_keeps learn x y k (some fun _ => 1 / (n : ℝ)) o
    generalize adaLoop learn x y k (some fun _ => 1 / (n : ℝ)) o = r at h ⊢
    obtain ⟨o', e⟩ := r
    simp only at h
    subst h
    cases e <;> simp
  | load es as => cases es <;> cases as <;> simp [adaStep]
  | badFile e => simp [adaStep]

/-- C265 (AdaBoost): after any history of calls of `fit` and `load_weights` on a new instance, `predict` answers exactly if some call completed. -/
theorem C265_adaboost (h : List (AdaCall X)) (rows : List X) :
    (¬ SomeCompleted adaStep {} h → (run adaStep {} h).predict rows = .error .valueError) ∧
    (SomeCompleted adaStep {} h → ∃ a, (run adaStep {} h).predict rows = .ok a ∧ a.length = rows.length) := by
  have key := ready_iff adaStep (fun o : Ada.Obj X => o.trained = true ∨ o.loaded = true) (fun _ => True) (fun _ _ _ => trivial)
    (fun o c _ hc => ((ada_step o c).1 hc).1) (fun o c _ hr => (ada_step o c).2.2 hr)
    (fun o c _ hc => by rw [((ada_step o c).2.1 hc).1, ((ada_step o c).2.1 hc).2.1]) h {} trivial
  simp only [Bool.false_eq_true, or_self, false_or] at key
  refine ⟨fun hn => if_pos ?_, fun hs => ⟨_, if_neg ?_, List.length_map _⟩⟩
  · rw [← key] at hn; simpa using hn
  · have := key.2 hs
    rcases this with h | h <;> simp [h]

/-- C266 (AdaBoost, part): after `load_weights` the instance answers as a new instance on which that call alone was made. -/
theorem C266_adaboost_load_partial (h : List (AdaCall X)) (es : Option (List (X → Int))) (as : Option (List (WithBot ℝ)))
    (hc : (adaStep (run adaStep {} h) (.load es as)).2 = none) :
    SameAnswers Ada.Obj.predict (run adaStep {} [.load es as]) (run adaStep {} (h ++ [.load es as])) := by
  rw [run_append]
  cases es with
  | none => cases hc
  | some es =>
    cases as with
    | none => cases hc
    | some as => intro q; simp [run, adaStep, Ada.Obj.predict]

/-- C266 (AdaBoost): once a call completed, every later `fit` with at least one estimator raises and changes nothing, so that a new training set never has
an effect. -/
theorem C266_adaboost_frozen (h : List (AdaCall X)) (hs : SomeCompleted adaStep {} h) (n : Nat) (learn : (Fin n → ℝ) → Except PyErr (X → Int)) (x : Fin n → X)
    (y : Fin n → Int) (k : Nat) (hk : 0 < k) :
    (adaStep (run adaStep {} h) (.fit n learn x y k)).2 ≠ none ∧ run adaStep {} (h ++ [.fit n learn x y k]) = run adaStep {} h := by
  have key := ready_iff adaStep (fun o : Ada.Obj X => o.asArray = true) (fun _ => True) (fun _ _ _ => trivial)
    (fun o c _ hc => ((ada_step o c).1 hc).2) (fun o c _ hr => by
      by_cases hc : (adaStep o c).2 = none
      · exact ((ada_step o c).1 hc).2
      · rw [((ada_step o c).2.1 hc).2.2]; exact hr)
    (fun o c _ hc => by rw [((ada_step o c).2.1 hc).2.2]) h {} trivial
  have ha := key.2 (.inr hs)
  have hr : (adaStep (run adaStep {} h) (.fit n learn x y k)).2 ≠ none := by
    obtain ⟨k, rfl⟩ : ∃ k', k = k' + 1 := ⟨k - 1, by omega⟩
    simp only [adaStep, adaFit, adaLoop, ha, if_true]
    cases learn fun _ => 1 / (n : ℝ) <;> simp
  refine ⟨hr, ?_⟩
  rw [run_append]
  exact C171_adaboost_partial learn x y k _ ha hr

/-- A completed call to which `C266_adaboost_frozen` applies. -/
example : SomeCompleted (adaStep (X := Bool)) {} [.load (some [fun _ => 1]) (some [1])] := ⟨[], _, [], rfl, rfl⟩

/-- C266 (AdaBoost, part): a `fit` that completes although calls before it raised keeps the members these left behind: they come first, with their
coefficients. Only after a history without any member does the instance answer as a new one. -/
theorem C266_adaboost_partial (h : List (AdaCall X)) (n : Nat) (learn : (Fin n → ℝ) → Except PyErr (X → Int)) (x : Fin n → X) (y : Fin n → Int) (k : Nat) (hk : 0 < k)
    (hc : (adaStep (run adaStep {} h) (.fit n learn x y k)).2 = none) :
    ∃ rs, Ada.fit learn x y k = .ok rs ∧
      (run adaStep {} (h ++ [.fit n learn x y k])).estimators = (run adaStep {} h).estimators ++ rs.map Ada.Round.h ∧
      (run adaStep {} (h ++ [.fit n learn x y k])).alphas = (run adaStep {} h).alphas ++ rs.map Ada.Round.alpha ∧
      ((run adaStep {} h).estimators = [] → (run adaStep {} h).alphas = [] →
        SameAnswers Ada.Obj.predict (run adaStep {} [.fit n learn x y k]) (run adaStep {} (h ++ [.fit n learn x y k]))) := by
  have ha : (run adaStep {} h).asArray = false := by
    by_contra hne
    rw [Bool.not_eq_false] at hne
    obtain ⟨k, rfl⟩ : ∃ k', k = k' + 1 := ⟨k - 1, by omega⟩
    simp only [adaStep, adaFit, adaLoop, hne, if_true] at hc
    cases hl : learn fun _ => 1 / (n : ℝ) with
    | ok a => rw [hl] at hc; simp at hc
    | error a => rw [hl] at hc; simp at hc
  rw [run_append]
  generalize run adaStep {} h = o at *
  simp only [run, adaStep] at hc ⊢
  obtain ⟨rs, hrs, ho⟩ := (C171_adaboost_completes learn x y k o (adaFit learn x y k o).1 ha).1 (by rw [← hc])
  have h0 := (C171_adaboost_completes learn x y k {} _ rfl).2 ⟨rs, hrs, rfl⟩
  refine ⟨rs, hrs, by rw [ho], by rw [ho], fun h1 h2 q => ?_⟩
  rw [ho, h0]
  simp [Ada.Obj.predict, h1, h2]

/-! ## Files without all their entries -/

/-- C265 (incomplete files): in every state, `load_weights` of a file that lacks one of the entries raises `KeyError`; of a complete file it completes; of a
file that is refused beforehand it raises that error and leaves the instance as it was. What comes before the missing entry in the order of reading is already
replaced, the rest is kept. -/
theorem C265_incomplete_files {K : Type} [Field K] [LinearOrder K] {d : Nat} {Q E X : Type}
    (gw : ∀ d : Nat, Matrix (Fin d) (Fin d) K → (Fin d → K) → (Fin d → K) → Except PyErr (Fin d → K)) (root : K → K)
    (rng : Option Nat → (n : Nat) → Fin n → Fin n) (o : LDAObj K) (k : KMObj K d) (b : Bagging.Obj E) (a : Ada.Obj X) (e : PyErr)
    (w m0 m1 : Option (RowVec K)) (c : Option (List (Option (Fin d → K)))) (l : Option (List Nat)) (ms : Option (List E)) (s : Option Nat)
    (es : Option (List (X → Int))) (as : Option (List (WithBot ℝ))) :
    ((o.step gw (.load w m0 m1)).2 = if w = none ∨ m0 = none ∨ m1 = none then some .keyError else none) ∧
    (w = none → (o.step gw (.load w m0 m1)).1 = o) ∧
    (w ≠ none → (o.step gw (.load w m0 m1)).1.w = w ∧
      (o.step gw (.load w m0 m1)).1.mu0 = (if m0 = none then o.mu0 else m0) ∧
      (o.step gw (.load w m0 m1)).1.mu1 = (if m0 = none ∨ m1 = none then o.mu1 else m1)) ∧
    ((k.step root (.load c l)).2 = if c = none ∨ l = none then some .keyError else none) ∧
    (c = none → (k.step root (.load c l)).1 = k) ∧
    (c ≠ none → (k.step root (.load c l)).1.centroids = c ∧ (k.step root (.load c l)).1.clusters = if l = none then k.clusters else l) ∧
    ((bagStep (Q := Q) rng b (.load ms s)).2 = if ms = none ∨ s = none then some .keyError else none) ∧
    (ms = none → (bagStep (Q := Q) rng b (.load ms s)).1 = b) ∧
    (∀ m, ms = some m → (bagStep (Q := Q) rng b (.load ms s)).1.members = m ∧ (bagStep (Q := Q) rng b (.load ms s)).1.seed = s.getD b.seed) ∧
    ((adaStep a (.load es as)).2 = if es = none ∨ as = none then some .keyError else none) ∧
    (es = none → (adaStep a (.load es as)).1 = a) ∧
    (∀ m, es = some m → (adaStep a (.load es as)).1.estimators = m ∧ (adaStep a (.load es as)).1.alphas = as.getD a.alphas ∧
      (adaStep a (.load es as)).1.asArray = (as.isSome || a.asArray)) ∧
    (o.step gw (.badFile e) = (o, some e) ∧ k.step root (.badFile e) = (k, some e) ∧ bagStep (Q := Q) rng b (.badFile e) = (b, some e) ∧
      adaStep a (.badFile e) = (a, some e)) := by
  refine ⟨?_, ?_, ?_, ?_, ?_, ?_, ?_, ?_, ?_, ?_, ?_, ?_, rfl, rfl, rfl, rfl⟩
  · cases w <;> cases m0 <;> cases m1 <;> simp [LDAObj.step, LDAObj.load]
  · rintro rfl; cases m0 <;> cases m1 <;> rfl
  · cases w <;> cases m0 <;> cases m1 <;> simp [LDAObj.step, LDAObj.load]
  · cases c <;> cases l <;> simp [KMObj.step, KMObj.load]
  · rintro rfl; cases l <;> rfl
  · cases c <;> cases l <;> simp [KMObj.step, KMObj.load]
  · cases ms <;> cases s <;> simp [bagStep]
  · rintro rfl; cases s <;> rfl
  · rintro m rfl; cases s <;> simp [bagStep]
  · cases es <;> cases as <;> simp [adaStep]
  · rintro rfl; cases as <;> rfl
  · rintro m rfl; cases as <;> simp [adaStep]

/-- C265 (logistic regression, incomplete files): a file without the parameters raises `KeyError` and changes nothing. -/
theorem C265_incomplete_logistic (o : LR) (b : Option (Σ d : Nat, Fin (d + 1) → ℝ)) :
    ((o.step (.load b)).2 = if b = none then some .keyError else none) ∧ (o.step (.load b)).1.beta = (if b = none then o.beta else b) ∧
    (o.step (.load b)).1.trained = o.trained ∧ (o.step (.load b)).1.loaded = (b.isSome || o.loaded) := by
  cases b <;> simp [LR.step]

end CML.Failed
