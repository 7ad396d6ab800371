import Verif.Props.FailedFit
import Verif.Props.Ensemble

set_option linter.unusedSectionVars false

/-! # Properties C171 and C172: a call of `fit` that raises (ensembles, networks) -/

namespace CML.Failed

/-! ## Bagging -/

section Bagging
variable {Q E : Type*} (rng : Option Nat → (n : Nat) → Fin n → Fin n) (learn : List (List Q) → List (List Int) → Except PyErr E)
  (x : List (List Q)) (y : List Int)

/-- The loop on the attributes computes what the loop of `Model.Ensemble` computes. -/
theorem bagLoop_ok (k : Nat) (o o' : Bagging.Obj E) : bagLoop rng learn x y k o = (o', none) ↔ Bagging.steps rng learn x y k o = .ok o' := by
  induction k generalizing o with
  | zero => simp [bagLoop, Bagging.steps]
  | succ k ih =>
    simp only [bagLoop, Bagging.steps, Bagging.step]
    split
    · rename_i xs ys hb
      split
      · rename_i e he; simp only [hb, he]; exact ih _
      · rename_i e he; simp [hb, he]
    · rename_i xs hb; simp [hb]
    · rename_i e hb; simp [hb]

/-- C171: `fit` of bagging completes exactly when the training of `Model.Ensemble` does, with its result. -/
theorem C171_bagging_completes (k : Nat) (o o' : Bagging.Obj E) : bagFit rng learn x y k o = (o', none) ↔ o.fit rng learn x y k = .ok o' := by
  unfold bagFit Bagging.Obj.fit
  constructor
  · intro h
    split at h
    · rename_i o1 h1
      rw [(bagLoop_ok rng learn x y k o o1).1 h1]
      simp only [Prod.mk.injEq, and_true] at h
      rw [← h]
    · simp at h
  · intro h
    split at h
    · rename_i o1 h1
      rw [(bagLoop_ok rng learn x y k o o1).2 h1]
      simp only [Except.ok.injEq] at h
      simp [h]
    · cases h

theorem bagLoop_error (k : Nat) (o o' : Bagging.Obj E) (e : PyErr) (h : bagLoop rng learn x y k o = (o', some e)) :
    o'.trained = o.trained ∧ o'.loaded = o.loaded ∧ ∃ es : List E, o'.members = o.members ++ es ∧ es.length < k ∧
      (o'.seed = o.seed + es.length ∨ o'.seed = o.seed + es.length + 1) ∧
      ∀ (i : Nat) (m : E), es[i]? = some m → ∃ xs ys,
        Ops.bootstrapSampling rng (.d2 x) (some (.d1 y)) (some (o.seed + i)) = .ok (xs, some ys) ∧ learn xs ys = .ok m := by
  induction k generalizing o with
  | zero => simp [bagLoop] at h
  | succ k ih =>
    simp only [bagLoop] at h
    split at h
    · rename_i xs ys hb
      split at h
      · rename_i m he
        obtain ⟨h1, h2, es, h3, h4, h5, h6⟩ := ih _ h
        refine ⟨h1, h2, m :: es, by simpa using h3, by simpa using h4, ?_, ?_⟩
        · simp only [List.length_cons]
          rcases h5 with h5 | h5
          · exact .inl (by rw [h5]; ring)
          · exact .inr (by rw [h5]; ring)
        · intro i m' hi
          cases i with
          | zero =>
            simp only [List.getElem?_cons_zero, Option.some.injEq] at hi
            subst hi
            exact ⟨xs, ys, hb, he⟩
          | succ i =>
            obtain ⟨xs', ys', hb', he'⟩ := h6 i m' (by simpa using hi)
            exact ⟨xs', ys', by rw [← hb']; congr 2; ring, he'⟩
      · simp only [Prod.mk.injEq] at h
        obtain ⟨rfl, -⟩ := h
        exact ⟨rfl, rfl, [], by simp, by simp, .inr rfl, by simp⟩
    · simp only [Prod.mk.injEq] at h
      obtain ⟨rfl, -⟩ := h
      exact ⟨rfl, rfl, [], by simp, by simp, .inl rfl, by simp⟩
    · simp only [Prod.mk.injEq] at h
      obtain ⟨rfl, -⟩ := h
      exact ⟨rfl, rfl, [], by simp, by simp, .inl rfl, by simp⟩

/-- C171 fails for bagging: the learners trained before the error stay in the ensemble, and the seed has moved on. -/
theorem C171_bagging_failed (k : Nat) (o o' : Bagging.Obj E) (e : PyErr) (h : bagFit rng learn x y k o = (o', some e)) :
    o'.trained = o.trained ∧ o'.loaded = o.loaded ∧ ∃ es : List E, o'.members = o.members ++ es ∧ es.length < k ∧
      (o'.seed = o.seed + es.length ∨ o'.seed = o.seed + es.length + 1) ∧
      ∀ (i : Nat) (m : E), es[i]? = some m → ∃ xs ys,
        Ops.bootstrapSampling rng (.d2 x) (some (.d1 y)) (some (o.seed + i)) = .ok (xs, some ys) ∧ learn xs ys = .ok m := by
  unfold bagFit at h
  split at h
  · simp at h
  · rename_i o1 e1 h1
    simp only [Prod.mk.injEq, Option.some.injEq] at h
    obtain ⟨rfl, rfl⟩ := h
    exact bagLoop_error rng learn x y k o o1 e1 h1

/-- C171 (part): an error of the first bootstrap sample or of the first learner adds no learner: the answers are as before. -/
theorem C171_bagging_first_partial {X : Type*} (pred : E → X → Int) (k : Nat) (o o' : Bagging.Obj E) (e : PyErr) (h : bagFit rng learn x y k o = (o', some e))
    (hf : ∀ xs ys, Ops.bootstrapSampling rng (.d2 x) (some (.d1 y)) (some o.seed) = .ok (xs, some ys) → ∀ m, learn xs ys ≠ .ok m) :
    SameAnswers (fun O rows => Bagging.Obj.predict O pred rows) o o' := by
  obtain ⟨h1, h2, es, h3, -, -, h5⟩ := C171_bagging_failed rng learn x y k o o' e h
  have : es = [] := by
    cases es with
    | nil => rfl
    | cons m es =>
      obtain ⟨xs, ys, hb, hl⟩ := h5 0 m rfl
      exact absurd hl (hf xs ys (by simpa using hb) m)
  subst this
  intro rows
  simp only [Bagging.Obj.predict, h1, h2, h3, List.append_nil]

end Bagging

/-- A generator that returns the indices in order, beginning at the seed. -/
def cyclic (s : Option Nat) (n : Nat) (i : Fin n) : Fin n := ⟨(i.val + s.getD 0) % n, Nat.mod_lt _ (Nat.lt_of_le_of_lt (Nat.zero_le _) i.isLt)⟩

/-- A learner whose classifiers always answer -1, and which cannot be trained on samples that begin with the value 3. -/
def picky (xs : List (List Int)) (_ : List (List Int)) : Except PyErr Int := if xs.head? = some [3] then .error .valueError else .ok (-1)

/-- C171 fails for bagging: an ensemble of one learner that answers 1 answers -1 after a call of `fit` that raised. -/
theorem C171_bagging_changed :
    let o : Bagging.Obj Int := { members := [1], seed := 0, trained := true }
    Raised (bagFit cyclic picky [[1], [2], [3]] [1, -1, 1] 5 o) ∧
      ¬ SameAnswers (fun (O : Bagging.Obj Int) (rows : List Unit) => Bagging.Obj.predict O (fun e _ => e) rows) o
        (bagFit cyclic picky [[1], [2], [3]] [1, -1, 1] 5 o).1 := by
  intro o
  refine ⟨by unfold Raised; decide +kernel, fun h => ?_⟩
  have := h [()]
  revert this
  decide +kernel

/-- C172 fails for bagging: the learners of the call that raised are in the ensemble that the next, successful call trains. -/
theorem C172_bagging_trace {Q E : Type*} (rng : Option Nat → (n : Nat) → Fin n → Fin n) (learn learn' : List (List Q) → List (List Int) → Except PyErr E)
    (x x' : List (List Q)) (y y' : List Int) (k k' s : Nat) (o1 o2 : Bagging.Obj E) (e : PyErr)
    (h1 : bagFit rng learn x y k { seed := s } = (o1, some e)) (h2 : bagFit rng learn' x' y' k' o1 = (o2, none)) :
    ∃ es es', o1.members = es ∧ o2.members = es ++ es' ∧ es'.length = k' ∧ ∀ (i : Nat) (m : E), es[i]? = some m → ∃ xs ys,
      Ops.bootstrapSampling rng (.d2 x) (some (.d1 y)) (some (s + i)) = .ok (xs, some ys) ∧ learn xs ys = .ok m := by
  have hf := (C171_bagging_completes rng learn' x' y' k' o1 o2).1 h2
  obtain ⟨-, -, es', he, hl, -⟩ := Bagging.C36_fit rng learn' x' y' k' o1 o2 hf
  obtain ⟨-, -, es, h3, -, -, h5⟩ := C171_bagging_failed rng learn x y k _ o1 e h1
  rw [List.nil_append] at h3
  exact ⟨es, es', h3, by rw [he, h3], hl, h5⟩

/-- The learners left are not none: the call of `C171_bagging_changed` on a new instance leaves two. -/
example : (bagFit cyclic picky [[1], [2], [3]] [1, -1, 1] 5 ({ seed := 0 } : Bagging.Obj Int)).1.members = [-1, -1] ∧
    (bagFit cyclic picky [[1], [2], [3]] [1, -1, 1] 5 ({ seed := 0 } : Bagging.Obj Int)).2 = some .valueError := by decide +kernel

/-! ## AdaBoost -/

section Ada
variable {n : Nat} {X : Type*} (learn : (Fin n → ℝ) → Except PyErr (X → Int)) (x : Fin n → X) (y : Fin n → Int)

/-- C171 holds for AdaBoost: an instance that was trained or has loaded weights is left as it was when `fit` raises. -/
theorem C171_adaboost_partial (k : Nat) (o : Ada.Obj X) (ho : o.asArray = true) (hr : Raised (adaFit learn x y k o)) : (adaFit learn x y k o).1 = o := by
  unfold adaFit at hr ⊢
  cases k with
  | zero => simp [Raised, adaLoop] at hr
  | succ k =>
    simp only [adaLoop, ho, if_true]
    cases learn fun _ => 1 / (n : ℝ) <;> rfl

/-- Instances whose coefficients are an array are those that were trained or loaded. -/
theorem adaFit_array (k : Nat) (o o' : Ada.Obj X) (h : adaFit learn x y k o = (o', none)) : o'.asArray = true ∧ o'.trained = true := by
  unfold adaFit at h
  split at h
  · simp only [Prod.mk.injEq, and_true] at h
    rw [← h]; exact ⟨rfl, rfl⟩
  · simp at h

/-- The loop on the attributes computes what the loop of `Model.Ensemble` computes. -/
theorem adaLoop_ok (k : Nat) (D : Option (Fin n → ℝ)) (o o' : Ada.Obj X) (ho : o.asArray = false) :
    adaLoop learn x y k D o = (o', none) ↔ ∃ rs, Ada.loop learn x y k D = .ok rs ∧
      o' = { o with estimators := o.estimators ++ rs.map Ada.Round.h, alphas := o.alphas ++ rs.map Ada.Round.alpha } := by
  induction k generalizing D o with
  | zero =>
    simp only [adaLoop, Ada.loop, Prod.mk.injEq, and_true, Except.ok.injEq]
    constructor
    · rintro rfl; exact ⟨[], rfl, by simp⟩
    · rintro ⟨rs, rfl, rfl⟩; simp
  | succ k ih =>
    cases D with
    | none => simp [adaLoop, Ada.loop]
    | some D =>
      simp only [adaLoop, Ada.loop]
      cases hl : learn D with
      | error e => simp
      | ok h =>
        simp only [ho, Bool.false_eq_true, if_false]
        split_ifs with hc
        · simp only [Prod.mk.injEq, and_true, Except.ok.injEq]
          constructor
          · rintro rfl; exact ⟨_, rfl, by simp⟩
          · rintro ⟨rs, rfl, rfl⟩; simp
        · rw [ih _ _ rfl]
          constructor
          · rintro ⟨rs, hrs, rfl⟩
            exact ⟨_, by rw [hrs], by simp⟩
          · rintro ⟨rs, hrs, rfl⟩
            split at hrs
            · rename_i rs' hrs'
              simp only [Except.ok.injEq] at hrs
              subst hrs
              exact ⟨rs', hrs', by simp⟩
            · cases hrs

/-- C171: on an instance with a list of coefficients `fit` completes exactly when the training of `Model.Ensemble` does; it appends its rounds to what is there. -/
theorem C171_adaboost_completes (k : Nat) (o o' : Ada.Obj X) (ho : o.asArray = false) :
    adaFit learn x y k o = (o', none) ↔ ∃ rs, Ada.fit learn x y k = .ok rs ∧
      o' = { o with estimators := o.estimators ++ rs.map Ada.Round.h, alphas := o.alphas ++ rs.map Ada.Round.alpha, asArray := true, trained := true } := by
  unfold adaFit Ada.fit
  constructor
  · intro h
    split at h
    · rename_i o1 h1
      obtain ⟨rs, hrs, rfl⟩ := (adaLoop_ok learn x y k _ o o1 ho).1 h1
      simp only [Prod.mk.injEq, and_true] at h
      exact ⟨rs, hrs, h.symm⟩
    · simp at h
  · rintro ⟨rs, hrs, rfl⟩
    rw [(adaLoop_ok learn x y k _ o _ ho).2 ⟨rs, hrs, rfl⟩]

theorem adaLoop_keeps (k : Nat) (D : Option (Fin n → ℝ)) (o : Ada.Obj X) :
    ∃ es as, (adaLoop learn x y k D o).1 = { o with estimators := o.estimators ++ es, alphas := o.alphas ++ as } := by
  induction k generalizing D o with
  | zero => exact ⟨[], [], by simp [adaLoop]⟩
  | succ k ih =>
    cases D with
    | none => exact ⟨[], [], by simp [adaLoop]⟩
    | some D =>
      simp only [adaLoop]
      split
      · exact ⟨[], [], by simp⟩
      · rename_i f _
        split_ifs
        · exact ⟨[], [], by simp⟩
        · exact ⟨_, _, rfl⟩
        · obtain ⟨es, as, h⟩ := ih (Ada.reweight D (fun i => f (x i)) y (Ada.alphaOf (Ada.errorOf D (fun i => f (x i)) y)))
            { o with estimators := o.estimators ++ [f], alphas := o.alphas ++ [Ada.alphaOf (Ada.errorOf D (fun i => f (x i)) y)] }
          refine ⟨[f] ++ es, [Ada.alphaOf (Ada.errorOf D (fun i => f (x i)) y)] ++ as, ?_⟩
          rw [← List.append_assoc, ← List.append_assoc]
          exact h

/-- C172 fails for AdaBoost: the rounds of a first call that raised are kept; the next call, if it completes, appends its own to them. -/
theorem C172_adaboost_trace {n' : Nat} (learn' : (Fin n' → ℝ) → Except PyErr (X → Int)) (x' : Fin n' → X) (y' : Fin n' → Int) (k k' : Nat) (o1 o2 : Ada.Obj X) (e : PyErr)
    (h1 : adaFit learn x y k {} = (o1, some e)) (h2 : adaFit learn' x' y' k' o1 = (o2, none)) :
    ∃ rs, Ada.fit learn' x' y' k' = .ok rs ∧ o2.estimators = o1.estimators ++ rs.map Ada.Round.h ∧ o2.alphas = o1.alphas ++ rs.map Ada.Round.alpha := by
  have ha : o1.asArray = false := by
    unfold adaFit at h1
    split at h1
    · simp at h1
    · rename_i o e' h
      simp only [Prod.mk.injEq] at h1
      obtain ⟨es, as, hk⟩ := adaLoop_keeps learn x y k (some fun _ => 1 / (n : ℝ)) {}
      rw [h] at hk
      rw [← h1.1]
      rw [show o = _ from hk]
  obtain ⟨rs, hrs, rfl⟩ := (C171_adaboost_completes learn' x' y' k' o1 o2 ha).1 h2
  exact ⟨rs, hrs, rfl, rfl⟩

/-- The first round of a call that raises later is kept. -/
theorem C172_adaboost_first_round (D : Fin n → ℝ) (hD : D = fun _ => 1 / (n : ℝ)) (h : X → Int) (hl : learn D = .ok h)
    (he : Ada.EPS ≤ Ada.errorOf D (fun i => h (x i)) y ∧ Ada.errorOf D (fun i => h (x i)) y ≤ 1 / 2) (e : PyErr)
    (hl2 : ∀ D', D' ≠ D → learn D' = .error e)
    (hne : Ada.reweight D (fun i => h (x i)) y (Ada.alphaOf (Ada.errorOf D (fun i => h (x i)) y)) ≠ some D) (k : Nat) :
    ∃ e', adaFit learn x y (k + 2) {} =
      ({ estimators := [h], alphas := [Ada.alphaOf (Ada.errorOf D (fun i => h (x i)) y)] }, some e') := by
  subst hD
  unfold adaFit
  have hc : ¬ (Ada.errorOf (fun _ => 1 / (n : ℝ)) (fun i => h (x i)) y > 1 / 2 ∨ Ada.errorOf (fun _ => 1 / (n : ℝ)) (fun i => h (x i)) y < Ada.EPS) := by
    push Not; exact ⟨he.2, he.1⟩
  rw [adaLoop]
  simp only [hl, Bool.false_eq_true, if_false, hc, List.nil_append]
  cases hr : Ada.reweight (fun _ => 1 / (n : ℝ)) (fun i => h (x i)) y (Ada.alphaOf (Ada.errorOf (fun _ => 1 / (n : ℝ)) (fun i => h (x i)) y)) with
  | none => exact ⟨_, rfl⟩
  | some D' =>
    rw [hr] at hne
    rw [adaLoop, hl2 D' (fun h' => hne (by rw [h']))]
    exact ⟨_, rfl⟩

end Ada

/-- The hypotheses of `C172_adaboost_first_round` are met: three samples, one of which the first learner gets wrong. -/
example : let D : Fin 3 → ℝ := fun _ => 1 / ((3 : ℕ) : ℝ)
    let y : Fin 3 → Int := ![1, 1, -1]
    (Ada.EPS ≤ Ada.errorOf D (fun _ => 1) y ∧ Ada.errorOf D (fun _ => 1) y ≤ 1 / 2) ∧
      Ada.reweight D (fun _ => 1) y (Ada.alphaOf (Ada.errorOf D (fun _ => 1) y)) ≠ some D := by
  intro D y
  have he : Ada.errorOf D (fun _ => 1) y = 1 / 3 := by
    simp [Ada.errorOf, Fin.sum_univ_three, y, D]
  rw [he]
  refine ⟨⟨?_, by norm_num⟩, ?_⟩
  · unfold Ada.EPS; norm_num
  · have ha : Ada.alphaOf (1 / 3) = ((Real.log 2 / 2 : ℝ) : WithBot ℝ) := by
      unfold Ada.alphaOf
      rw [if_neg (by norm_num), max_eq_left (by unfold Ada.EPS; norm_num)]
      norm_num
    rw [ha]
    intro h
    simp only [Ada.reweight, Option.some.injEq] at h
    have h0 := congrFun h 0
    have h2 := congrFun h 2
    rw [← h2] at h0
    have hpos : (0 : ℝ) < ∑ j, Ada.scaled D (fun _ => 1) y (Real.log 2 / 2) j := by
      refine Finset.sum_pos (fun j _ => ?_) ⟨0, Finset.mem_univ _⟩
      unfold Ada.scaled
      have : (0 : ℝ) < D j := by simp [D]
      positivity
    rw [div_left_inj' hpos.ne'] at h0
    simp [Ada.scaled, y, D] at h0
    have := Real.log_pos (by norm_num : (1 : ℝ) < 2)
    linarith

/-! ## Back-propagation network -/

theorem sgdLoop_ok (lr : ℝ) (x y : Net.Mat) (is : List Nat) (P P' : List Net.Layer) : sgdLoop lr x y is P = (P', none) ↔ Net.sgdRun lr x y is P = .ok P' := by
  induction is generalizing P with
  | nil => simp [sgdLoop, Net.sgdRun]
  | cons i is ih =>
    simp only [sgdLoop, Net.sgdRun]
    cases Net.sgdStep lr x y P i with
    | error e => simp
    | ok Q => exact ih Q

theorem sgdLoop_error (lr : ℝ) (x y : Net.Mat) (is : List Nat) (P P' : List Net.Layer) (e : PyErr) (h : sgdLoop lr x y is P = (P', some e)) :
    ∃ done i rest, is = done ++ i :: rest ∧ Net.sgdRun lr x y done P = .ok P' ∧ Net.sgdStep lr x y P' i = .error e := by
  induction is generalizing P with
  | nil => simp [sgdLoop] at h
  | cons i is ih =>
    simp only [sgdLoop] at h
    cases hs : Net.sgdStep lr x y P i with
    | error er =>
      simp only [hs, Prod.mk.injEq, Option.some.injEq] at h
      obtain ⟨rfl, rfl⟩ := h
      exact ⟨[], i, is, rfl, rfl, hs⟩
    | ok Q =>
      rw [hs] at h
      obtain ⟨done, j, rest, rfl, h2, h3⟩ := ih Q h
      exact ⟨i :: done, j, rest, rfl, by simp [Net.sgdRun, hs, h2], h3⟩

/-- C171: `fit` of the network completes exactly when its training does, with its result. -/
theorem C171_network_completes (lr : ℝ) (rnd : Nat → ℕ → ℕ → ℝ) (layers is : List Nat) (o o' : BPObj) (ho : o.loaded = false) (x y : Net.Mat) :
    o.fit lr rnd layers is x y = (o', none) ↔ ∃ P, Net.sgdRun lr x y is (Net.initLayers rnd 0 (x.cols :: layers)) = .ok P ∧
      o' = { parameters := some P, trained := true, loaded := false } := by
  simp only [BPObj.fit, ho, Bool.false_eq_true, if_false]
  constructor
  · intro h
    split at h
    · rename_i P hP
      exact ⟨P, (sgdLoop_ok lr x y is _ P).1 hP, (Prod.mk.inj h).1.symm⟩
    · simp at h
  · rintro ⟨P, hP, rfl⟩
    rw [(sgdLoop_ok lr x y is _ P).2 hP]

/-- C171 fails for the network: when `fit` raises, the parameters are newly initialised ones, trained for the epochs that were completed. -/
theorem C171_network_failed (lr : ℝ) (rnd : Nat → ℕ → ℕ → ℝ) (layers is : List Nat) (o o' : BPObj) (ho : o.loaded = false) (x y : Net.Mat) (e : PyErr)
    (h : o.fit lr rnd layers is x y = (o', some e)) :
    ∃ done i rest P, is = done ++ i :: rest ∧ Net.sgdRun lr x y done (Net.initLayers rnd 0 (x.cols :: layers)) = .ok P ∧
      Net.sgdStep lr x y P i = .error e ∧ o' = { o with parameters := some P } := by
  simp only [BPObj.fit, ho, Bool.false_eq_true, if_false] at h
  split at h
  · simp at h
  · rename_i P e' hP
    simp only [Prod.mk.injEq, Option.some.injEq] at h
    obtain ⟨h, rfl⟩ := h
    obtain ⟨done, i, rest, h1, h2, h3⟩ := sgdLoop_error lr x y is _ P e' hP
    exact ⟨done, i, rest, P, h1, h2, h3, by rw [← h, ho]⟩

/-- The output of a network whose last layer has `m ≥ 2` units has `m` columns and is the output kept by the last cache. -/
theorem forward_last (m : Nat) (hm : 2 ≤ m) (P : List Net.Layer) (a : Net.Mat) (L : Net.Layer) (hL : P.getLast? = some L) (hw : L.w.rows = m) (y : Net.Mat)
    (cs : List Net.Cache) (h : Net.forward a P = .ok (y, cs)) : y.cols = m ∧ ∃ c, cs.getLast? = some c ∧ c.a = y := by
  induction P generalizing a y cs with
  | nil => simp at hL
  | cons L1 P ih =>
    cases P with
    | nil =>
      simp only [List.getLast?_singleton, Option.some.injEq] at hL
      subst hL
      simp only [Net.forward] at h
      split at h
      · cases h
      · rename_i z0 hz0
        split at h
        · cases h
        · rename_i z hz
          have hc : z.cols = m := by
            unfold Net.matmulT at hz0
            split_ifs at hz0
            injection hz0 with hz0
            have h0 : z0.cols = m := by rw [← hz0]; exact hw
            unfold Net.addBias at hz
            split_ifs at hz <;> injection hz with hz <;> rw [← hz]
            · exact h0
            · exact h0
            · omega
          rw [if_neg (by omega)] at h
          split at h
          · cases h
          · rename_i y' hy'
            simp only [Except.ok.injEq, Prod.mk.injEq] at h
            obtain ⟨rfl, rfl⟩ := h
            refine ⟨?_, _, rfl, rfl⟩
            unfold Net.softmaxMat at hy'
            split at hy'
            · cases hy'
            · injection hy' with hy'
              rw [← hy']; exact hc
    | cons L2 P =>
      simp only [Net.forward] at h
      split at h
      · cases h
      · split at h
        · cases h
        · split at h
          · cases h
          · rename_i y' cs' hf
            simp only [Except.ok.injEq, Prod.mk.injEq] at h
            obtain ⟨rfl, rfl⟩ := h
            obtain ⟨h1, c, h2, h3⟩ := ih _ (by simpa using hL) _ _ hf
            refine ⟨h1, c, ?_, h3⟩
            cases cs' with
            | nil => simp at h2
            | cons c' cs' => simpa using h2

/-- Labels with a number of columns that is neither 1 nor the number of outputs cannot be compared with them. -/
theorem backward_error (yp yt : Net.Mat) (h1 : yt.cols ≠ 1) (cs : List Net.Cache) (c : Net.Cache) (hc : cs.getLast? = some c)
    (h2 : c.a.cols ≠ yt.cols) (h3 : c.a.cols ≠ 1) : ∃ e, Net.backward yp yt cs = .error e := by
  induction cs with
  | nil => simp at hc
  | cons c1 cs ih =>
    cases cs with
    | nil =>
      simp only [List.getLast?_singleton, Option.some.injEq] at hc
      subst hc
      refine ⟨.valueError, ?_⟩
      have : Net.outputError yp yt c1.a = .error .valueError := by
        unfold Net.outputError
        rw [if_neg h1]
        unfold Net.zipWith
        split_ifs <;> simp_all
      simp only [Net.backward, this]
    | cons c2 cs =>
      obtain ⟨e, he⟩ := ih (by simpa using hc)
      exact ⟨e, by simp only [Net.backward, he]⟩

theorem initLayers_last (rnd : Nat → ℕ → ℕ → ℝ) (l d : Nat) (layers : List Nat) (m : Nat) (hm : layers.getLast? = some m) :
    ∃ L, (Net.initLayers rnd l (d :: layers)).getLast? = some L ∧ L.w.rows = m := by
  induction layers generalizing l d with
  | nil => simp at hm
  | cons a layers ih =>
    cases layers with
    | nil =>
      simp only [List.getLast?_singleton, Option.some.injEq] at hm
      subst hm
      exact ⟨_, rfl, rfl⟩
    | cons b layers =>
      obtain ⟨L, h1, h2⟩ := ih (l + 1) a (by simpa using hm)
      refine ⟨L, ?_, h2⟩
      rw [Net.initLayers]
      cases hh : Net.initLayers rnd (l + 1) (a :: b :: layers) with
      | nil => rw [hh] at h1; simp at h1
      | cons q qs => rw [hh] at h1; simpa using h1

/-- C171 fails for the network: labels with a wrong number of columns make `fit` raise in its first epoch; the instance, however it was trained, then answers with
newly initialised parameters. -/
theorem C171_network_forgets (lr : ℝ) (rnd : Nat → ℕ → ℕ → ℝ) (layers is : List Nat) (his : is ≠ []) (o : BPObj) (ho : o.loaded = false) (ht : o.trained = true) (x y : Net.Mat) (m : Nat)
    (hm : layers.getLast? = some m) (h2 : 2 ≤ m) (hy1 : y.cols ≠ 1) (hy2 : y.cols ≠ m) :
    Raised (o.fit lr rnd layers is x y) ∧ ∀ q, (o.fit lr rnd layers is x y).1.predict q =
      ({ parameters := some (Net.initLayers rnd 0 (x.cols :: layers)), trained := true } : BPObj).predict q := by
  cases is with
  | nil => exact absurd rfl his
  | cons i is =>
    obtain ⟨L, hL, hw⟩ := initLayers_last rnd 0 x.cols layers m hm
    have hs : ∃ e, Net.sgdStep lr x y (Net.initLayers rnd 0 (x.cols :: layers)) i = .error e := by
      unfold Net.sgdStep
      split_ifs
      · exact ⟨_, rfl⟩
      · cases hf : Net.forward (Net.rowOf x i) (Net.initLayers rnd 0 (x.cols :: layers)) with
        | error e => exact ⟨e, rfl⟩
        | ok r =>
          obtain ⟨yp, cs⟩ := r
          obtain ⟨hc, c, hcl, hca⟩ := forward_last m h2 _ _ L hL hw yp cs hf
          obtain ⟨e, he⟩ := backward_error yp (Net.rowOf y i) hy1 cs c hcl (by rw [hca, hc]; exact fun h => hy2 h.symm) (by rw [hca, hc]; omega)
          exact ⟨e, by simp only [he]⟩
    obtain ⟨e, he⟩ := hs
    have hfit : o.fit lr rnd layers (i :: is) x y = ({ o with parameters := some (Net.initLayers rnd 0 (x.cols :: layers)) }, some e) := by
      simp only [BPObj.fit, ho, Bool.false_eq_true, if_false, sgdLoop, he]
    rw [hfit]
    refine ⟨by simp [Raised], fun q => ?_⟩
    simp [BPObj.predict, ht]

example : [5, 3].getLast? = some 3 ∧ 2 ≤ 3 ∧ (⟨4, 2, fun _ _ => 0⟩ : Net.Mat).cols ≠ 1 ∧ (⟨4, 2, fun _ _ => 0⟩ : Net.Mat).cols ≠ 3 := by simp

end CML.Failed
