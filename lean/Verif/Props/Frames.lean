import Verif.Spec.Frames
import Mathlib.Data.List.Basic
import Mathlib.Tactic.Ring

set_option linter.unusedSectionVars false

/-! # Property C170 (the caller's frames) -/

namespace CML.Frames

variable {V : Type}

theorem alloc_tab {h : Heap V} {t : Table V} {i : Nat} (hi : i < h.next) : (h.alloc t).1.tab i = h.tab i := by
  simp only [Heap.alloc]
  rw [if_neg (by omega)]

theorem reset_ne {h : Heap V} {i j : Nat} (hij : j ≠ i) : (h.reset i).tab j = h.tab j := by simp [Heap.reset, hij]

theorem reset_self (h : Heap V) (i : Nat) : (h.reset i).tab i = { h.tab i with index := defaultIndex (h.tab i).rows.length } := by simp [Heap.reset]

theorem reset_values (h : Heap V) (i j : Nat) : ((h.reset i).tab j).rows = (h.tab j).rows ∧ ((h.reset i).tab j).cols = (h.tab j).cols := by
  by_cases hij : j = i
  · subst hij; rw [reset_self]; exact ⟨rfl, rfl⟩
  · rw [reset_ne hij]; exact ⟨rfl, rfl⟩

theorem numbered_default (t : Table V) : Numbered { t with index := defaultIndex t.rows.length } := by
  intro k hk
  simp only [defaultIndex, List.getElem?_map, List.getElem?_range hk, Option.map_some]

theorem default_of_numbered {t : Table V} (hl : Labelled t) (hn : Numbered t) : t.index = defaultIndex t.rows.length := by
  apply List.ext_getElem?
  intro k
  by_cases hk : k < t.rows.length
  · rw [hn k hk]; simp [defaultIndex, hk]
  · rw [List.getElem?_eq_none (by rw [hl]; omega), List.getElem?_eq_none (by simp [defaultIndex]; omega)]

/-- `pd.DataFrame(x, columns=names)` changes no table; its result is a new one, or the caller's frame when there are no names. -/
theorem asFrame_ok {na : V} {names : Option (List String)} {h h1 : Heap V} {x : XArg V} {i : Nat} (ha : asFrame na names h x = .ok (h1, i)) :
    h.next ≤ h1.next ∧ Untouched h h1 ∧ ((x = .frame i ∧ names = none ∧ h1 = h) ∨ h.next ≤ i) := by
  have key : ∀ t : Table V, (Except.ok (h.alloc t) : Except PyErr _) = .ok (h1, i) →
      h.next ≤ h1.next ∧ Untouched h h1 ∧ ((x = .frame i ∧ names = none ∧ h1 = h) ∨ h.next ≤ i) := by
    intro t e
    injection e with e
    have e1 : h1 = (h.alloc t).1 := by rw [e]
    have e2 : i = (h.alloc t).2 := by rw [e]
    subst e1
    refine ⟨by simp [Heap.alloc], fun j hj => alloc_tab hj, .inr ?_⟩
    rw [e2]; simp [Heap.alloc]
  unfold asFrame at ha
  split at ha
  · split at ha
    · injection ha with ha
      injection ha with e1 e2
      subst e1; subst e2
      exact ⟨le_refl _, fun _ _ => rfl, .inl ⟨rfl, rfl, rfl⟩⟩
    · split_ifs at ha
      · exact key _ ha
      · exact key _ ha
  · exact key _ ha
  · split at ha
    · exact key _ ha
    · split_ifs at ha
      exact key _ ha

theorem asSeries_ok {conv : List V → Option (List V)} {typed : Bool} {h h1 : Heap V} {y : YArg V} {i : Nat} (ha : asSeries conv typed h y = .ok (h1, i)) :
    h.next ≤ h1.next ∧ Untouched h h1 ∧ ((y = .series i ∧ typed = false ∧ h1 = h) ∨ h.next ≤ i) := by
  have key : ∀ t : Table V, (Except.ok (h.alloc t) : Except PyErr _) = .ok (h1, i) →
      h.next ≤ h1.next ∧ Untouched h h1 ∧ ((y = .series i ∧ typed = false ∧ h1 = h) ∨ h.next ≤ i) := by
    intro t e
    injection e with e
    have e1 : h1 = (h.alloc t).1 := by rw [e]
    have e2 : i = (h.alloc t).2 := by rw [e]
    subst e1
    refine ⟨by simp [Heap.alloc], fun j hj => alloc_tab hj, .inr ?_⟩
    rw [e2]; simp [Heap.alloc]
  unfold asSeries at ha
  split at ha
  · split_ifs at ha with ht
    · exact key _ ha
    · injection ha with ha
      injection ha with e1 e2
      subst e1; subst e2
      exact ⟨le_refl _, fun _ _ => rfl, .inl ⟨rfl, by simpa using ht, rfl⟩⟩
  · split_ifs at ha
    · split at ha
      · exact key _ ha
      · cases ha
    · exact key _ ha

/-- A table may differ only in its row labels, which are then `0, 1, …`. -/
def Relabelled (h h' : Heap V) : Prop :=
  h.next ≤ h'.next ∧ ∀ i, i < h.next → h'.tab i = h.tab i ∨ h'.tab i = { h.tab i with index := defaultIndex (h.tab i).rows.length }

theorem Relabelled.refl (h : Heap V) : Relabelled h h := ⟨le_refl _, fun _ _ => .inl rfl⟩

theorem Relabelled.trans {a b c : Heap V} (h1 : Relabelled a b) (h2 : Relabelled b c) : Relabelled a c := by
  refine ⟨h1.1.trans h2.1, fun i hi => ?_⟩
  have e1 := h1.2 i hi
  have e2 := h2.2 i (lt_of_lt_of_le hi h1.1)
  rcases e1 with e1 | e1 <;> rcases e2 with e2 | e2 <;> rw [e1] at e2 <;> simp [e2]

theorem Untouched.relabelled {a b : Heap V} (h : Untouched a b) (hn : a.next ≤ b.next) : Relabelled a b := ⟨hn, fun i hi => .inl (h i hi)⟩

theorem reset_relabelled (h : Heap V) (i : Nat) : Relabelled h (h.reset i) := by
  refine ⟨le_refl _, fun j _ => ?_⟩
  by_cases hij : j = i
  · subst hij; exact .inr (reset_self h j)
  · exact .inl (reset_ne hij)

theorem prepare_relabelled (na : V) (conv : List V → Option (List V)) (typed : Bool) (names : Option (List String)) (h : Heap V) (x : XArg V) (y : YArg V) :
    Relabelled h (prepare na conv typed names h x y).1 := by
  unfold prepare
  split
  · exact .refl h
  · rename_i h1 i hx
    obtain ⟨a1, a2, -⟩ := asFrame_ok hx
    have r1 := (a2.relabelled a1).trans (reset_relabelled h1 i)
    split
    · exact r1
    · rename_i h2 j hy
      obtain ⟨b1, b2, -⟩ := asSeries_ok hy
      exact (r1.trans (b2.relabelled b1)).trans (reset_relabelled h2 j)

theorem step_relabelled (na : V) (conv : List V → Option (List V)) (h : Heap V) (c : Call V) : Relabelled h (step na conv h c) := by
  cases c with
  | fit c names pruner validation x y =>
    simp only [step, fit]
    split
    · exact .refl h
    · rename_i v
      split
      · rename_i h1 e hp
        have := prepare_relabelled na conv true names h x y
        rw [hp] at this; exact this
      · rename_i h1 hp
        have := prepare_relabelled na conv true names h x y
        rw [hp] at this
        exact this.trans (prepare_relabelled na conv true names h1 v.1 v.2)
    · exact prepare_relabelled na conv _ names h x y
  | predict c names x =>
    simp only [step, predict]
    split
    · exact .refl h
    · split
      · exact .refl h
      · rename_i h1 i hx
        obtain ⟨a1, a2, -⟩ := asFrame_ok hx
        exact (a2.relabelled a1).trans (reset_relabelled h1 i)

/-- C170, what holds: no sequence of calls of `fit` and `predict` of the four classes ever changes a value or a column name of a table of the caller;
row labels are kept, or replaced by `0, 1, 2, …`. -/
theorem C170_values_kept_partial (na : V) (conv : List V → Option (List V)) (h : Heap V) (calls : List (Call V)) :
    SameValues h (run na conv h calls) ∧
    ∀ i, i < h.next → ((run na conv h calls).tab i).index = (h.tab i).index ∨ Numbered ((run na conv h calls).tab i) := by
  have key : Relabelled h (run na conv h calls) := by
    unfold run
    induction calls generalizing h with
    | nil => exact .refl h
    | cons c calls ih => rw [List.foldl_cons]; exact (step_relabelled na conv h c).trans (ih (step na conv h c))
  constructor
  · intro i hi
    rcases key.2 i hi with e | e <;> rw [e] <;> exact ⟨rfl, rfl⟩
  · intro i hi
    rcases key.2 i hi with e | e
    · exact .inl (by rw [e])
    · exact .inr (by rw [e]; exact numbered_default _)

theorem prepare_names {na : V} {conv : List V → Option (List V)} {typed : Bool} {names : Option (List String)} {h : Heap V} {x : XArg V} {y : YArg V}
    (hx : names ≠ none ∨ ∀ i, x ≠ .frame i) (hy : typed = true ∨ ∀ i, y ≠ .series i) :
    h.next ≤ (prepare na conv typed names h x y).1.next ∧ Untouched h (prepare na conv typed names h x y).1 := by
  unfold prepare
  split
  · exact ⟨le_refl _, fun _ _ => rfl⟩
  · rename_i h1 i hxe
    obtain ⟨a1, a2, a3⟩ := asFrame_ok hxe
    have hi : h.next ≤ i := by
      rcases a3 with ⟨e1, e2, -⟩ | a3
      · rcases hx with hx | hx
        · exact absurd e2 hx
        · exact absurd e1 (hx i)
      · exact a3
    have r1 : Untouched h (h1.reset i) := fun j hj => by rw [reset_ne (by omega)]; exact a2 j hj
    split
    · exact ⟨a1, r1⟩
    · rename_i h2 j hye
      obtain ⟨b1, b2, b3⟩ := asSeries_ok hye
      have b1' : h1.next ≤ h2.next := b1
      have hj : h1.next ≤ j := by
        rcases b3 with ⟨e1, e2, -⟩ | b3
        · rcases hy with hy | hy
          · rw [hy] at e2; cases e2
          · exact absurd e1 (hy j)
        · exact b3
      refine ⟨a1.trans b1', fun k hk => ?_⟩
      rw [reset_ne (by omega), b2 k (lt_of_lt_of_le hk a1)]
      exact r1 k hk

/-- C170, what holds: arrays and lists, and frames if the model was built with attribute names, are left alone by `fit` of naive Bayes and of the decision
tree, with and without validation data, … -/
theorem C170_fit_with_names_partial (na : V) (conv : List V → Option (List V)) (c : Cls) (hc : c = .naiveBayes ∨ c = .decisionTree)
    (names : Option (List String)) (pruner : Bool) (validation : Option (XArg V × YArg V)) (h : Heap V) (x : XArg V) (y : YArg V)
    (hx : names ≠ none ∨ (∀ i, x ≠ .frame i) ∧ ∀ v, validation = some v → ∀ i, v.1 ≠ .frame i) :
    Untouched h (fit na conv c names pruner validation h x y).1 := by
  have ht : c.typed = true := by rcases hc with rfl | rfl <;> rfl
  have hx1 : names ≠ none ∨ ∀ i, x ≠ .frame i := hx.imp_right And.left
  unfold fit
  split
  · exact fun _ _ => rfl
  · rename_i v
    have hv : names ≠ none ∨ ∀ i, v.1 ≠ .frame i := hx.imp_right fun q => q.2 v rfl
    split
    · rename_i h1 e hp
      have := prepare_names (na := na) (conv := conv) (typed := true) (h := h) (y := y) hx1 (.inl rfl)
      rw [hp] at this
      exact this.2
    · rename_i h1 hp
      have t1 := prepare_names (na := na) (conv := conv) (typed := true) (h := h) (y := y) hx1 (.inl rfl)
      rw [hp] at t1
      have t2 := prepare_names (na := na) (conv := conv) (typed := true) (h := h1) (y := v.2) hv (.inl rfl)
      intro i hi
      rw [t2.2 i (lt_of_lt_of_le hi t1.1)]
      exact t1.2 i hi
  · rw [ht]
    exact (prepare_names hx1 (.inl rfl)).2

/-- …by `fit` of the one-dependent estimators if moreover the labels are no `Series`, … -/
theorem C170_fit_one_dependent_partial (na : V) (conv : List V → Option (List V)) (c : Cls) (hc : c = .superParent ∨ c = .averaged)
    (names : Option (List String)) (h : Heap V) (x : XArg V) (y : YArg V)
    (hx : names ≠ none ∨ ∀ i, x ≠ .frame i) (hy : ∀ i, y ≠ .series i) :
    Untouched h (fit na conv c names false none h x y).1 := by
  rcases hc with rfl | rfl
  · simp only [fit]
    exact (prepare_names hx (.inr hy)).2
  · simp only [fit]
    exact (prepare_names hx (.inr hy)).2

/-- …and by `predict` of all four classes; `predict` of the decision tree leaves everything alone. -/
theorem C170_predict_partial (na : V) (c : Cls) (names : Option (List String)) (h : Heap V) (x : XArg V)
    (hx : c = .decisionTree ∨ names ≠ none ∨ ∀ i, x ≠ .frame i) : Untouched h (predict na c names h x).1 := by
  unfold predict
  split
  · exact fun _ _ => rfl
  · rename_i hc
    split
    · exact fun _ _ => rfl
    · rename_i h1 i hxe
      obtain ⟨a1, a2, a3⟩ := asFrame_ok hxe
      intro j hj
      have hi : h.next ≤ i := by
        rcases a3 with ⟨e1, e2, -⟩ | a3
        · rcases hx with hx | hx | hx
          · exact absurd hx hc
          · exact absurd e2 hx
          · exact absurd e1 (hx i)
        · exact a3
      rw [reset_ne (by omega)]
      exact a2 j hj

/-- C170 is false: `predict` of the Bayesian classifiers built without attribute names replaces the row labels of EVERY frame it is given by
`0, 1, 2, …`; the frame is as before only if these were its labels. -/
theorem C170_predict_relabels (na : V) (c : Cls) (hc : c ≠ .decisionTree) (h : Heap V) (i : Nat) :
    Numbered ((predict na c none h (.frame i)).1.tab i) ∧
    (Labelled (h.tab i) → ((predict na c none h (.frame i)).1.tab i = h.tab i ↔ Numbered (h.tab i))) := by
  have e : (predict na c none h (.frame i)).1.tab i = { h.tab i with index := defaultIndex (h.tab i).rows.length } := by
    cases c
    · exact reset_self h i
    · exact reset_self h i
    · exact reset_self h i
    · exact absurd rfl hc
  rw [e]
  refine ⟨numbered_default _, fun hl => ⟨fun he => ?_, fun hn => ?_⟩⟩
  · rw [← he]; exact numbered_default _
  · rw [← default_of_numbered hl hn]

/-- C170 is false: so does `fit` of all four classes (here without validation data), also if the labels are then refused; … -/
theorem C170_fit_relabels (na : V) (conv : List V → Option (List V)) (c : Cls) (h : Heap V) (i : Nat) (hi : i < h.next) (y : YArg V) (hy : y ≠ .series i) :
    (fit na conv c none false none h (.frame i) y).1.tab i = { h.tab i with index := defaultIndex (h.tab i).rows.length } := by
  have key : ∀ typed, (prepare na conv typed none h (.frame i) y).1.tab i = { h.tab i with index := defaultIndex (h.tab i).rows.length } := by
    intro typed
    unfold prepare
    simp only [asFrame]
    split
    · exact reset_self h i
    · rename_i h2 j hye
      obtain ⟨b1, b2, b3⟩ := asSeries_ok hye
      have hn : (h.reset i).next = h.next := rfl
      have hj : i ≠ j := by
        rcases b3 with ⟨e1, -, -⟩ | b3
        · rintro rfl; exact hy e1
        · omega
      rw [reset_ne hj, b2 i (by omega), reset_self]
  cases c
  · exact key _
  · exact key _
  · exact key _
  · exact key _

/-- …and the one-dependent estimators replace those of the labels, with and without attribute names. -/
theorem C170_labels_relabelled (na : V) (conv : List V → Option (List V)) (c : Cls) (hc : c = .superParent ∨ c = .averaged) (names : Option (List String))
    (h : Heap V) (x : XArg V) (j : Nat) (hj : j < h.next) (hx : x ≠ .frame j) (hok : (fit na conv c names false none h x (.series j)).2 = none) :
    (fit na conv c names false none h x (.series j)).1.tab j = { h.tab j with index := defaultIndex (h.tab j).rows.length } := by
  have key : (prepare na conv false names h x (.series j)).2 = none →
      (prepare na conv false names h x (.series j)).1.tab j = { h.tab j with index := defaultIndex (h.tab j).rows.length } := by
    unfold prepare
    split
    · intro h0; cases h0
    · rename_i h1 i hxe
      obtain ⟨a1, a2, a3⟩ := asFrame_ok hxe
      intro _
      have hji : j ≠ i := by
        rcases a3 with ⟨e1, -, -⟩ | a3
        · rintro rfl; exact hx e1
        · omega
      simp only [asSeries, Bool.false_eq_true, if_false]
      rw [reset_self, reset_ne hji, a2 j hj]
  rcases hc with rfl | rfl <;> exact key hok

/-- A consequence of the failure of C170: after naive Bayes or a decision tree has been fitted on a frame and a `Series` with the same row labels, these
belong together no longer, unless the labels were `0, 1, 2, …`. -/
theorem C170_pairs_broken (na : V) (conv : List V → Option (List V)) (c : Cls) (hc : c = .naiveBayes ∨ c = .decisionTree) (h : Heap V) (i j : Nat)
    (hi : i < h.next) (hj : j < h.next) (hij : i ≠ j) (hl : Labelled (h.tab i)) (hp : Paired (h.tab i) (h.tab j)) :
    Paired ((fit na conv c none false none h (.frame i) (.series j)).1.tab i) ((fit na conv c none false none h (.frame i) (.series j)).1.tab j) ↔
      Numbered (h.tab i) := by
  have e1 := C170_fit_relabels na conv c h i hi (.series j) (by simpa using Ne.symm hij)
  have ht : c.typed = true := by rcases hc with rfl | rfl <;> rfl
  have e2 : (fit na conv c none false none h (.frame i) (.series j)).1.tab j = h.tab j := by
    have key : (prepare na conv true none h (.frame i) (.series j)).1.tab j = h.tab j := by
      unfold prepare
      simp only [asFrame]
      split
      · exact reset_ne hij.symm
      · rename_i h2 k hye
        obtain ⟨b1, b2, b3⟩ := asSeries_ok hye
        have hn : (h.reset i).next = h.next := rfl
        have hk : j ≠ k := by
          rcases b3 with ⟨_, e, -⟩ | b3
          · cases e
          · omega
        rw [reset_ne hk, b2 j (by omega), reset_ne hij.symm]
    rcases hc with rfl | rfl <;> exact key
  rw [e1, e2]
  unfold Paired at hp ⊢
  constructor
  · intro he
    have : (h.tab i).index = defaultIndex (h.tab i).rows.length := by rw [hp, ← he]
    intro k hk
    rw [this]
    exact numbered_default (h.tab i) k hk
  · intro hn
    rw [← hp]
    exact (default_of_numbered hl hn).symm

/-- Non-vacuity: a test set cut out of a larger frame, with labels 7, 3, 9, and its answers. -/
def split3 : Heap Nat where
  tab := fun i => if i = 0 then ⟨[.int 7, .int 3, .int 9], ["a", "b"], [[1, 2], [3, 4], [5, 6]]⟩ else ⟨[.int 7, .int 3, .int 9], [], [[0], [1], [1]]⟩
  next := 2

example : (predict 0 .naiveBayes none split3 (.frame 0)).1.tab 0 = ⟨[.int 0, .int 1, .int 2], ["a", "b"], [[1, 2], [3, 4], [5, 6]]⟩ := by decide

example : (predict 0 .naiveBayes (some ["b", "a"]) split3 (.frame 0)).1.tab 0 = split3.tab 0 ∧
    (predict 0 .naiveBayes (some ["b", "a"]) split3 (.frame 0)).1.tab 2 = ⟨[.int 0, .int 1, .int 2], ["b", "a"], [[2, 1], [4, 3], [6, 5]]⟩ := by decide

example : Labelled (split3.tab 0) ∧ Paired (split3.tab 0) (split3.tab 1) ∧ ¬Numbered (split3.tab 0) := by
  refine ⟨by unfold Labelled; decide, by unfold Paired; decide, fun h => ?_⟩
  have := h 0 (by decide)
  revert this
  decide

example : ¬Paired ((fit 0 some .naiveBayes none false none split3 (.frame 0) (.series 1)).1.tab 0)
    ((fit 0 some .naiveBayes none false none split3 (.frame 0) (.series 1)).1.tab 1) := by
  unfold Paired; decide

example : (fit 0 some .averaged (some ["a", "b"]) false none split3 (.frame 0) (.series 1)).2 = none ∧
    ((fit 0 some .averaged (some ["a", "b"]) false none split3 (.frame 0) (.series 1)).1.tab 1).index = [.int 0, .int 1, .int 2] := by decide

/-- A pruned tree without validation data is refused and nothing is touched. -/
theorem C170_no_validation (na : V) (conv : List V → Option (List V)) (names : Option (List String)) (h : Heap V) (x : XArg V) (y : YArg V) :
    fit na conv .decisionTree names true none h x y = (h, some .attributeError) := rfl

/-- C170 is false for the validation frame as well. -/
theorem C170_validation_relabelled (na : V) (conv : List V → Option (List V)) (pruner : Bool) (h : Heap V) (i j : Nat) (hj : j < h.next)
    (y : List V) (yv : YArg V) (hyv : yv ≠ .series j) (hok : ∃ rs, (y.map fun v => [v]).mapM conv = some rs) :
    ((fit na conv .decisionTree none pruner (some (.frame j, yv)) h (.frame i) (.plain y)).1.tab j).index = defaultIndex (h.tab j).rows.length := by
  obtain ⟨rs, hrs⟩ := hok
  have hfit : fit na conv .decisionTree none pruner (some (.frame j, yv)) h (.frame i) (.plain y) =
      (match prepare na conv true none h (.frame i) (.plain y) with
        | (h1, some e) => (h1, some e)
        | (h1, none) => prepare na conv true none h1 (.frame j) yv) := by
    cases pruner <;> rfl
  rw [hfit]
  have hp : ∃ h1, prepare na conv true none h (.frame i) (.plain y) = (h1, none) ∧ h.next ≤ h1.next := by
    unfold prepare
    simp only [asFrame, asSeries, if_true, hrs]
    exact ⟨_, rfl, by simp [Heap.reset, Heap.alloc]⟩
  obtain ⟨h1, hp1, hp2⟩ := hp
  rw [hp1]
  have hr := prepare_relabelled na conv true none h (.frame i) (.plain y)
  rw [hp1] at hr
  have hrows : (h1.tab j).rows = (h.tab j).rows := by rcases hr.2 j hj with e | e <;> rw [e]
  have := C170_fit_relabels na conv .naiveBayes h1 j (lt_of_lt_of_le hj hp2) yv hyv
  show ((prepare na conv true none h1 (.frame j) yv).1.tab j).index = _
  rw [show prepare na conv true none h1 (.frame j) yv = fit na conv .naiveBayes none false none h1 (.frame j) yv from rfl, this, hrows]

example : ((fit 0 some .decisionTree none true (some (.frame 0, .plain [1, 1, 0])) split3 (.series 1) (.plain [0, 1, 1])).1.tab 0).index =
    [.int 0, .int 1, .int 2] := by decide

end CML.Frames
