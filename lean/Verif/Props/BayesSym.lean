import Verif.Props.Bayes
import Verif.Props.SmallTreesSym
import Verif.Props.PreprocessSym
import Verif.Spec.BayesSym

set_option linter.unusedSectionVars false

/-! # Properties C207-C210: Bayes classifiers and the order of samples and attributes -/

namespace CML.Bayes

variable {V : Type} [DecidableEq V] {n : Nat}

/-! ## Lists in another order -/

theorem addLog_comm (s : Option (WithBot ℝ)) (p q : Option ℝ) : addLog (addLog s p) q = addLog (addLog s q) p := by
  rcases s with _ | s <;> rcases p with _ | p <;> rcases q with _ | q <;> simp [addLog, add_right_comm]

theorem score_perm (init : Option (WithBot ℝ)) {l l' : List (Option ℝ)} (h : l.Perm l') : score init l = score init l' :=
  h.foldl_eq' (fun p _ q _ s => addLog_comm s p q) init

theorem meanVar_perm {l l' : List ℝ} (h : l.Perm l') : meanVar l = meanVar l' := by
  unfold meanVar
  by_cases hl : l = []
  · subst hl; rw [List.nil_perm.1 h]
  · have hl' : l' ≠ [] := fun hc => hl (by subst hc; exact List.perm_nil.1 h)
    rw [if_neg hl, if_neg hl', h.sum_eq, h.length_eq]
    dsimp only
    rw [(h.map _).sum_eq]

theorem select_perm {α : Type*} (e : Equiv.Perm (Fin n)) (y : Fin n → Int) (c : Int) (f : Fin n → α) :
    (select (List.ofFn (y ∘ e)) c (List.ofFn (f ∘ e))).Perm (select (List.ofFn y) c (List.ofFn f)) := by
  unfold select
  rw [zip_ofFn, zip_ofFn]
  exact ((Equiv.Perm.ofFn_comp_perm e (fun i => (f i, y i))).filter _).map _

theorem select2_perm {α : Type*} (e : Equiv.Perm (Fin n)) (sp : Fin n → V) (y : Fin n → Int) (v : V) (c : Int) (f : Fin n → α) :
    (select2 (List.ofFn (sp ∘ e)) (List.ofFn (y ∘ e)) v c (List.ofFn (f ∘ e))).Perm (select2 (List.ofFn sp) (List.ofFn y) v c (List.ofFn f)) := by
  unfold select2
  rw [zip_ofFn, zip_ofFn, zip_ofFn, zip_ofFn]
  exact ((Equiv.Perm.ofFn_comp_perm e (fun i => (f i, sp i, y i))).filter _).map _

theorem ofFn_perm {α : Type*} (e : Equiv.Perm (Fin n)) (f : Fin n → α) : (List.ofFn (f ∘ e)).Perm (List.ofFn f) :=
  Equiv.Perm.ofFn_comp_perm e f

theorem prior_perm {y y' : List Int} (h : y.Perm y') (k : Nat) (smoothing : Bool) : prior k y smoothing = prior k y' smoothing := by
  unfold prior
  rw [h.count_eq, (Small.pyUnique_perm h).length_eq]

theorem lookup_map_none {α : Type*} (f : V → α) : ∀ (ks : List V) (k : V), k ∉ ks → (ks.map fun u => (u, f u)).lookup k = none
  | [], k, _ => rfl
  | k' :: ks, k, h => by
    rw [List.map_cons, List.lookup_cons, beq_false_of_ne (by rintro rfl; simp at h)]
    exact lookup_map_none f ks k fun hc => h (List.mem_cons_of_mem _ hc)

theorem lookup_map_perm {α : Type*} (f f' : V → α) (hf : ∀ v, f v = f' v) {ks ks' : List V} (h : ks.Perm ks') (k : V) :
    (ks.map fun u => (u, f u)).lookup k = (ks'.map fun u => (u, f' u)).lookup k := by
  by_cases hk : k ∈ ks
  · rw [lookup_map f ks k hk, lookup_map f' ks' k (h.mem_iff.1 hk), hf]
  · rw [lookup_map_none f ks k hk, lookup_map_none f' ks' k fun hc => hk (h.mem_iff.2 hc)]

theorem sortInt_perm {l l' : List Int} (h : l.Perm l') : l.insertionSort (· ≤ ·) = l'.insertionSort (· ≤ ·) :=
  ((List.perm_insertionSort (· ≤ ·) l).trans (h.trans (List.perm_insertionSort (· ≤ ·) l').symm)).eq_of_pairwise' (List.pairwise_insertionSort (· ≤ ·) l)
    (List.pairwise_insertionSort (· ≤ ·) l')

/-! ## What the estimators read of the stored values -/

/-- Two stored values that no row tells apart. -/
def StEq (fl : ℝ → ℝ) (s s' : Stored V) : Prop := ∀ sm x, factor fl sm s x = factor fl sm s' x

theorem stEq_disc (fl : ℝ → ℝ) {c c' : List (V × Nat)} (t k : Nat) (h : ∀ v, c.lookup v = c'.lookup v) :
    StEq fl (.disc c t k) (.disc c' t k) := by
  intro sm x
  cases x with
  | disc v => simp only [factor, h]
  | cont r => rfl

theorem factors_congr (fl : ℝ → ℝ) (sm : Bool) {ss ss' : List (Stored V)} (h : List.Forall₂ (StEq fl) ss ss') :
    ∀ x, factors fl sm ss x = factors fl sm ss' x := by
  induction h with
  | nil => intro x; rfl
  | cons h _ ih =>
    intro x
    cases x with
    | nil => rfl
    | cons a x => simp only [factors, h sm a, ih x]

theorem forall₂_map {α β γ : Type*} {R : β → γ → Prop} {f : α → β} {g : α → γ} : ∀ {l : List α}, (∀ a ∈ l, R (f a) (g a)) →
    List.Forall₂ R (l.map f) (l.map g)
  | [], _ => .nil
  | a :: l, h => .cons (h a (by simp)) (forall₂_map fun b hb => h b (by simp [hb]))

/-! ## The one-dependent estimators -/

theorem spodeColumn_reorder (fl : ℝ → ℝ) (e : Equiv.Perm (Fin n)) (sp : Fin n → V) (y : Fin n → Int) (v : V) (c : Int) (q : Column n V) :
    StEq fl (spodeColumn (List.ofFn (sp ∘ e)) (List.ofFn (y ∘ e)) v c (q.reorder e).col) (spodeColumn (List.ofFn sp) (List.ofFn y) v c q.col) := by
  cases q with
  | cont f =>
    intro sm x
    dsimp only [Column.reorder, Column.col, spodeColumn]
    rw [(select2_perm e sp y v c f).length_eq, meanVar_perm (select_perm e y c f), meanVar_perm (select2_perm e sp y v c f)]
  | disc f =>
    dsimp only [Column.reorder, Column.col, spodeColumn]
    rw [(select2_perm e sp y v c f).length_eq, (Small.pyUnique_perm (ofFn_perm e f)).length_eq]
    exact stEq_disc fl _ _ (lookup_map_perm _ _ (fun u => (select2_perm e sp y v c f).count_eq u) (Small.pyUnique_perm (ofFn_perm e f)))

/-- What predictions read of an element. -/
noncomputable def obs (fl : ℝ → ℝ) (e : Entry V) : Int × V × ℝ × (Bool → List (Cell V) → Except PyErr (List (Option ℝ))) :=
  (e.cat, e.value, e.prior, fun sm x => factors fl sm e.params x)

/-- The factors of all elements of one class, from what is read of them. -/
noncomputable def obsFactors (sm : Bool) (c : Int) (x : List (Cell V)) :
    List (Int × V × ℝ × (Bool → List (Cell V) → Except PyErr (List (Option ℝ)))) → Except PyErr (List (Option ℝ))
  | [] => .ok []
  | o :: os =>
    if o.1 = c then
      match o.2.2.2 sm x with
      | .error e => .error e
      | .ok ps => match obsFactors sm c x os with
        | .error e => .error e
        | .ok qs => .ok (some o.2.2.1 :: ps ++ qs)
    else obsFactors sm c x os

theorem allFactors_obs (fl : ℝ → ℝ) (sm : Bool) (c : Int) (x : List (Cell V)) (es : List (Entry V)) :
    allFactors fl sm c x es = obsFactors sm c x (es.map (obs fl)) := by
  induction es with
  | nil => rfl
  | cons e es ih =>
    simp only [allFactors, List.map_cons, obsFactors, entryFactors, ih]
    by_cases hc : e.cat = c
    · rw [if_pos hc, if_pos (show (obs fl e).1 = c from hc)]
      dsimp only [obs]
      cases factors fl sm e.params x <;> rfl
    · rw [if_neg hc, if_neg (show ¬(obs fl e).1 = c from hc)]

/-- Both fail with the exception `E`, or both succeed and the results agree up to their order. -/
def Same (E : PyErr) : Except PyErr (List (Option ℝ)) → Except PyErr (List (Option ℝ)) → Prop
  | .error e, .error e' => e = E ∧ e' = E
  | .ok a, .ok b => a.Perm b
  | _, _ => False

theorem Same.trans {E : PyErr} {a b c : Except PyErr (List (Option ℝ))} (h : Same E a b) (h' : Same E b c) : Same E a c := by
  cases a <;> cases b <;> cases c <;> simp only [Same] at *
  · exact ⟨h.1, h'.2⟩
  · exact h.trans h'

theorem obsFactors_perm (sm : Bool) (c : Int) (x : List (Cell V)) (E : PyErr)
    {os os' : List (Int × V × ℝ × (Bool → List (Cell V) → Except PyErr (List (Option ℝ))))} (h : os.Perm os')
    (hE : ∀ o ∈ os, ∀ e, o.2.2.2 sm x = .error e → e = E) : Same E (obsFactors sm c x os) (obsFactors sm c x os') := by
  induction h with
  | nil => exact .nil
  | cons o _ ih =>
    have ih := ih fun o' ho' => hE o' (List.mem_cons_of_mem _ ho')
    simp only [obsFactors]
    by_cases hc : o.1 = c
    · rw [if_pos hc, if_pos hc]
      cases ho : o.2.2.2 sm x with
      | error e => exact ⟨hE o (by simp) e ho, hE o (by simp) e ho⟩
      | ok ps =>
        revert ih
        dsimp only
        generalize obsFactors sm c x _ = r
        generalize obsFactors sm c x _ = r'
        intro ih
        cases r <;> cases r' <;> simp only [Same] at ih ⊢
        · exact ih
        · exact ih.append_left _
    · rw [if_neg hc, if_neg hc]; exact ih
  | swap o o' l =>
    have h1 := hE o (by simp)
    have h2 := hE o' (by simp)
    have h3 : ∀ r, obsFactors sm c x l = .error r → r = E := by
      have : ∀ l' : List (Int × V × ℝ × (Bool → List (Cell V) → Except PyErr (List (Option ℝ)))), (∀ o ∈ l', ∀ e, o.2.2.2 sm x = .error e → e = E) →
          ∀ r, obsFactors sm c x l' = .error r → r = E := by
        intro l'
        induction l' with
        | nil => intro _ r hr; simp [obsFactors] at hr
        | cons a l' ih =>
          intro hl r hr
          have ih := ih fun o ho => hl o (List.mem_cons_of_mem _ ho)
          simp only [obsFactors] at hr
          by_cases hc : a.1 = c
          · rw [if_pos hc] at hr
            cases ha : a.2.2.2 sm x with
            | error e => rw [ha] at hr; cases hr; exact hl a (by simp) _ ha
            | ok ps =>
              rw [ha] at hr
              dsimp only at hr
              cases hq : obsFactors sm c x l' with
              | error e => rw [hq] at hr; cases hr; exact ih _ hq
              | ok qs => rw [hq] at hr; cases hr
          · rw [if_neg hc] at hr; exact ih r hr
      exact this l fun o ho => hE o (by simp [ho])
    simp only [obsFactors]
    by_cases hc : o.1 = c <;> by_cases hc' : o'.1 = c <;> simp only [hc, hc', if_true, if_false]
    all_goals
      revert h1 h2 h3
      generalize o.2.2.2 sm x = a
      generalize o'.2.2.2 sm x = b
      generalize obsFactors sm c x l = r
      intro h1 h2 h3
      cases a <;> cases b <;> cases r <;> simp only [Same] <;> first
        | exact ⟨h1 _ rfl, h1 _ rfl⟩
        | exact ⟨h2 _ rfl, h2 _ rfl⟩
        | exact ⟨h3 _ rfl, h3 _ rfl⟩
        | exact ⟨h1 _ rfl, h2 _ rfl⟩
        | exact ⟨h2 _ rfl, h1 _ rfl⟩
        | exact ⟨h1 _ rfl, h3 _ rfl⟩
        | exact ⟨h2 _ rfl, h3 _ rfl⟩
        | exact ⟨h3 _ rfl, h1 _ rfl⟩
        | exact ⟨h3 _ rfl, h2 _ rfl⟩
        | exact List.Perm.refl _
        | (simp only [← List.append_assoc]; exact List.perm_append_comm.append_right _)
  | trans h1 _ ih1 ih2 => exact (ih1 hE).trans (ih2 fun o ho => hE o (h1.mem_iff.2 ho))

theorem spodePredict_perm (fl : ℝ → ℝ) (sm : Bool) (x : List (Cell V)) (E : PyErr) {es es' : List (Entry V)}
    (h : (es.map (obs fl)).Perm (es'.map (obs fl))) (hE : ∀ e ∈ es, ∀ r, factors fl sm e.params x = .error r → r = E) :
    spodePredict fl sm es x = spodePredict fl sm es' x := by
  have hE' : ∀ o ∈ es.map (obs fl), ∀ e, o.2.2.2 sm x = .error e → e = E := by
    intro o ho
    obtain ⟨e, he, rfl⟩ := List.mem_map.1 ho
    exact hE e he
  have h0 := obsFactors_perm sm 0 x E h hE'
  have h1 := obsFactors_perm sm 1 x E h hE'
  rw [← allFactors_obs, ← allFactors_obs] at h0 h1
  unfold spodePredict
  revert h0 h1
  generalize allFactors fl sm 0 x es = a
  generalize allFactors fl sm 1 x es = b
  generalize allFactors fl sm 0 x es' = a'
  generalize allFactors fl sm 1 x es' = b'
  intro h0 h1
  cases a <;> cases a' <;> simp only [Same] at h0 <;> cases b <;> cases b' <;> simp only [Same] at h1 <;> dsimp only
  · rw [h0.1, h0.2]
  · rw [h0.1, h0.2]
  · rw [h1.1, h1.2]
  · rw [score_perm _ h0, score_perm _ h1]

/-- The first complaint about a row. -/
def complaint : List (Col V) → List (Cell V) → Option PyErr
  | [], _ => none
  | _ :: _, [] => some .valueError
  | .cont _ :: cs, .cont _ :: xs => complaint cs xs
  | .disc l :: cs, .disc v :: xs => if v ∈ l then complaint cs xs else some .keyError
  | .cont _ :: _, .disc _ :: _ => some .typeError
  | .disc _ :: _, .cont _ :: _ => some .typeError

theorem factors_error (fl : ℝ → ℝ) (sm : Bool) (sp : List V) (y : List Int) (v : V) (c : Int) : ∀ (cols : List (Col V)) (x : List (Cell V)) (r : PyErr),
    factors fl sm (cols.map (spodeColumn sp y v c)) x = .error r → complaint cols x = some r
  | [], x, r, h => by simp [factors] at h
  | q :: cols, [], r, h => by
    simp only [List.map_cons, factors, Except.error.injEq] at h
    subst h; cases q <;> rfl
  | q :: cols, a :: x, r, h => by
    have ih := factors_error fl sm sp y v c cols x
    simp only [List.map_cons, factors] at h
    cases q with
    | cont l =>
      cases a with
      | disc u =>
        have : factor fl sm (spodeColumn sp y v c (.cont l)) (.disc u) = .error .typeError := by
          simp only [spodeColumn]; split <;> (generalize meanVar _ = mv; rcases mv with _ | ⟨m, w⟩ <;> rfl)
        rw [this] at h; simp only [Except.error.injEq] at h; subst h; rfl
      | cont t =>
        have : ∃ p, factor fl sm (spodeColumn sp y v c (.cont l)) (.cont t) = .ok p := by
          simp only [spodeColumn]; split <;> (generalize meanVar _ = mv; rcases mv with _ | ⟨m, w⟩ <;> exact ⟨_, rfl⟩)
        obtain ⟨p, hp⟩ := this
        rw [hp] at h
        dsimp only at h
        cases hf : factors fl sm (cols.map (spodeColumn sp y v c)) x with
        | error r' => rw [hf] at h; cases h; exact ih _ hf
        | ok ps => rw [hf] at h; cases h
    | disc l =>
      cases a with
      | cont t => simp only [spodeColumn, factor, Except.error.injEq] at h; subst h; rfl
      | disc u =>
        simp only [spodeColumn, factor] at h
        unfold complaint
        by_cases hu : u ∈ l
        · rw [if_pos hu]
          rw [lookup_map _ _ _ (mem_pyUnique.2 hu)] at h
          dsimp only at h
          cases hf : factors fl sm (cols.map (spodeColumn sp y v c)) x with
          | error r' => simp only [hf, Except.error.injEq] at h; subst h; exact ih _ hf
          | ok ps => simp only [hf] at h; cases h
        · rw [if_neg hu]
          rw [lookup_map_none _ _ _ (fun hc => hu (mem_pyUnique.1 hc))] at h
          simp only [Except.error.injEq] at h; subst h; rfl

theorem entries_error (fl : ℝ → ℝ) (sm : Bool) (cols : List (Col V)) (sp : List V) (y : List Int) (x : List (Cell V)) :
    ∀ e ∈ spodeEntries cols sp y sm, ∀ r, factors fl sm e.params x = .error r → r = (complaint cols x).getD .valueError := by
  intro e he r hr
  simp only [spodeEntries, List.mem_flatMap, List.mem_map] at he
  obtain ⟨c, _, v, _, rfl⟩ := he
  rw [factors_error fl sm sp y v c cols x r hr]; rfl

theorem entries_reorder (fl : ℝ → ℝ) (e : Equiv.Perm (Fin n)) (cols : List (Column n V)) (sp : Fin n → V) (y : Fin n → Int) (sm : Bool) :
    ((spodeEntries (cols.map fun q => (q.reorder e).col) (List.ofFn (sp ∘ e)) (List.ofFn (y ∘ e)) sm).map (obs fl)).Perm
      ((spodeEntries (cols.map Column.col) (List.ofFn sp) (List.ofFn y) sm).map (obs fl)) := by
  unfold spodeEntries
  rw [sortInt_perm (Small.pyUnique_perm (ofFn_perm e y)), List.map_flatMap, List.map_flatMap]
  refine List.Perm.flatMap_left _ fun c _ => ?_
  rw [List.map_map, List.map_map]
  have : ∀ v, (obs fl ∘ fun v => (⟨c, v, depPrior (select2 (List.ofFn (sp ∘ e)) (List.ofFn (y ∘ e)) v c (List.ofFn (sp ∘ e))).length (List.ofFn (y ∘ e)).length
        (pyUnique (List.ofFn (sp ∘ e))).length sm, (cols.map fun q => (q.reorder e).col).map (spodeColumn (List.ofFn (sp ∘ e)) (List.ofFn (y ∘ e)) v c)⟩ : Entry V)) v =
      (obs fl ∘ fun v => (⟨c, v, depPrior (select2 (List.ofFn sp) (List.ofFn y) v c (List.ofFn sp)).length (List.ofFn y).length
        (pyUnique (List.ofFn sp)).length sm, (cols.map Column.col).map (spodeColumn (List.ofFn sp) (List.ofFn y) v c)⟩ : Entry V)) v := by
    intro v
    simp only [Function.comp_apply, obs]
    rw [(select2_perm e sp y v c sp).length_eq, (Small.pyUnique_perm (ofFn_perm e sp)).length_eq, List.length_ofFn, List.length_ofFn, List.map_map, List.map_map]
    congr 3
    funext sm' x
    exact factors_congr fl sm' (forall₂_map fun q _ => spodeColumn_reorder fl e sp y v c q) x
  rw [List.map_congr_left fun v _ => this v]
  exact (Small.pyUnique_perm (ofFn_perm e sp)).map _

/-- **C209.** A one-dependent estimator fitted on the same samples in another order gives every row the same answer, or the same exception. -/
theorem C209_one_dependent (fl : ℝ → ℝ) (e : Equiv.Perm (Fin n)) (cols : List (Column n V)) (sp : Fin n → V) (y : Fin n → Int) (sm : Bool) (x : List (Cell V)) :
    spodePredict fl sm (spodeFit [] (cols.map fun q => (q.reorder e).col) (List.ofFn (sp ∘ e)) (List.ofFn (y ∘ e)) sm) x =
      spodePredict fl sm (spodeFit [] (cols.map Column.col) (List.ofFn sp) (List.ofFn y) sm) x := by
  simp only [spodeFit, List.nil_append]
  exact spodePredict_perm fl sm x _ (entries_reorder fl e cols sp y sm) (entries_error fl sm _ _ _ x)

/-- The columns that serve as super-parents. -/
def supers (m : Nat) (cols : List (Column n V)) : List (Fin n → V) :=
  cols.filterMap fun
    | .disc f => if (pyUnique (List.ofFn f)).all fun v => m < (List.ofFn f).count v then some f else none
    | .cont _ => none

theorem supers_col (m : Nat) (cols : List (Column n V)) : superParents m (cols.map Column.col) = (supers m cols).map List.ofFn := by
  induction cols with
  | nil => rfl
  | cons q cols ih =>
    simp only [superParents, supers, List.map_cons, List.filterMap_cons] at ih ⊢
    cases q with
    | cont f => exact ih
    | disc f =>
      dsimp only [Column.col]
      by_cases h : ((pyUnique (List.ofFn f)).all fun v => m < (List.ofFn f).count v) = true
      · simp only [if_pos h, List.map_cons, ih]
      · simp only [if_neg h, ih]

theorem supers_reorder (m : Nat) (e : Equiv.Perm (Fin n)) (cols : List (Column n V)) :
    superParents m (cols.map fun q => (q.reorder e).col) = (supers m cols).map fun f => List.ofFn (f ∘ e) := by
  induction cols with
  | nil => rfl
  | cons q cols ih =>
    simp only [superParents, supers, List.map_cons, List.filterMap_cons] at ih ⊢
    cases q with
    | cont f => exact ih
    | disc f =>
      have hp := ofFn_perm e f
      have hb : ((pyUnique (List.ofFn (f ∘ e))).all fun v => m < (List.ofFn (f ∘ e)).count v) = ((pyUnique (List.ofFn f)).all fun v => m < (List.ofFn f).count v) := by
        rw [Bool.eq_iff_iff]
        simp only [List.all_eq_true, mem_pyUnique, decide_eq_true_eq]
        exact ⟨fun h v hv => hp.count_eq v ▸ h v (hp.mem_iff.2 hv), fun h v hv => (hp.count_eq v).symm ▸ h v (hp.mem_iff.1 hv)⟩
      rw [show ((Column.disc f).reorder e).col = Col.disc (List.ofFn (f ∘ e)) from rfl]
      dsimp only
      rw [hb]
      by_cases h : ((pyUnique (List.ofFn f)).all fun v => m < (List.ofFn f).count v) = true
      · simp only [if_pos h, List.map_cons, ih]
      · simp only [if_neg h, ih]

theorem filter_value_obs (fl : ℝ → ℝ) (p : V → Bool) (es : List (Entry V)) :
    (es.filter fun e => p e.value).map (obs fl) = (es.map (obs fl)).filter fun o => p o.2.1 := by
  rw [List.filter_map]; rfl

/-- **C209.** So does an averaged one-dependent estimator. -/
theorem C209_averaged (fl : ℝ → ℝ) (num : V → Option ℝ) (e : Equiv.Perm (Fin n)) (m : Nat) (cols : List (Column n V)) (y : Fin n → Int) (sm : Bool)
    (x : List (Cell V)) :
    aodePredict fl num sm (aodeFit [] m (cols.map fun q => (q.reorder e).col) (List.ofFn (y ∘ e)) sm).2 x =
      aodePredict fl num sm (aodeFit [] m (cols.map Column.col) (List.ofFn y) sm).2 x := by
  unfold aodePredict aodeFit
  dsimp only
  rw [aodeFit_final, aodeFit_final, List.nil_append, List.nil_append, supers_col, supers_reorder]
  simp only [List.length_map, List.length_replicate, List.flatMap_map]
  have hfin : (((supers m cols).flatMap fun f => spodeEntries (cols.map fun q => (q.reorder e).col) (List.ofFn (f ∘ e)) (List.ofFn (y ∘ e)) sm).map (obs fl)).Perm
      (((supers m cols).flatMap fun f => spodeEntries (cols.map Column.col) (List.ofFn f) (List.ofFn y) sm).map (obs fl)) := by
    rw [List.map_flatMap, List.map_flatMap]
    exact List.Perm.flatMap_left _ fun f _ => entries_reorder fl e cols f y sm
  refine spodePredict_perm fl sm x ((complaint (cols.map fun q => (q.reorder e).col) x).getD .valueError) ?_ ?_
  · rw [List.map_flatMap, List.map_flatMap]
    refine List.Perm.flatMap_left _ fun i hi => ?_
    have hi := List.mem_range.1 hi
    unfold aodeUsed
    rw [List.getElem?_replicate, List.getElem?_replicate, if_pos hi, if_pos hi]
    cases x[i]? with
    | none => exact .nil
    | some a =>
      dsimp only
      rw [filter_value_obs, filter_value_obs]
      exact hfin.filter _
  · intro en hen r hr
    obtain ⟨i, hi, hen⟩ := List.mem_flatMap.1 hen
    have hi := List.mem_range.1 hi
    unfold aodeUsed at hen
    rw [List.getElem?_replicate, if_pos hi] at hen
    cases hx : x[i]? with
    | none => rw [hx] at hen; simp at hen
    | some a =>
      rw [hx] at hen
      dsimp only at hen
      obtain ⟨f, _, hf⟩ := List.mem_flatMap.1 (List.mem_filter.1 hen).1
      exact entries_error fl sm _ _ _ x en hf r hr

/-! ## C208: the order of the attributes -/

theorem toOption_mapM {α β : Type} (f : α → Except PyErr β) : ∀ l : List α, (l.mapM f).toOption = l.mapM fun a => (f a).toOption
  | [] => rfl
  | a :: l => by
    have ih := toOption_mapM f l
    simp only [List.mapM_cons]
    cases ha : f a with
    | error e => rfl
    | ok b =>
      cases hl : l.mapM f with
      | error e => rw [hl] at ih; simp only [← ih]; rfl
      | ok bs => rw [hl] at ih; simp only [← ih]; rfl

/-- The factor of one attribute of a row. -/
noncomputable def pairFactor (fl : ℝ → ℝ) (sm : Bool) (p : Stored V × Cell V) : Option (Option ℝ) := (factor fl sm p.1 p.2).toOption

theorem factors_pairs (fl : ℝ → ℝ) (sm : Bool) : ∀ l : List (Stored V × Cell V),
    (factors fl sm (l.map Prod.fst) (l.map Prod.snd)).toOption = l.mapM (pairFactor fl sm)
  | [] => rfl
  | p :: l => by
    have ih := factors_pairs fl sm l
    simp only [List.map_cons, factors, List.mapM_cons, pairFactor] at ih ⊢
    cases factor fl sm p.1 p.2 with
    | error e => rfl
    | ok a =>
      cases hl : factors fl sm (l.map Prod.fst) (l.map Prod.snd) with
      | error e => rw [hl] at ih; simp only [← ih]; rfl
      | ok as => rw [hl] at ih; simp only [← ih]; rfl

/-- What `nbFit` followed by `nbPredict` computes, as one function of the pairs of a column and the cell of the row. -/
noncomputable def nbScore (order : List V → List V) (fl : ℝ → ℝ) (sm : Bool) (y : List Int) (c : Int) (p : ℝ) (l : List (Col V × Cell V)) :
    Option (Option (WithBot ℝ)) :=
  (l.mapM fun q => (nbColumn order y c q.1).toOption.bind fun s => pairFactor fl sm (s, q.2)).map (score (some (logB p)))

theorem nbScore_perm (order : List V → List V) (fl : ℝ → ℝ) (sm : Bool) (y : List Int) (c : Int) (p : ℝ) {l l' : List (Col V × Cell V)} (h : l.Perm l') :
    nbScore order fl sm y c p l = nbScore order fl sm y c p l' := by
  unfold nbScore
  rcases Metrics.mapM_perm (fun q : Col V × Cell V => (nbColumn order y c q.1).toOption.bind fun s => pairFactor fl sm (s, q.2)) h with ⟨h1, h2⟩ | ⟨r, r', h1, h2, h3⟩
  · rw [h1, h2]
  · rw [h1, h2, Option.map_some, Option.map_some, score_perm _ h3]

theorem bind_mapM (f : Col V → Option (Stored V)) (g : Stored V × Cell V → Option (Option ℝ)) : ∀ (l : List (Col V × Cell V)) (s : List (Stored V)),
    (l.map Prod.fst).mapM f = some s → (s.zip (l.map Prod.snd)).mapM g = l.mapM fun q => (f q.1).bind fun t => g (t, q.2)
  | [], s, h => by cases h; rfl
  | q :: l, s, h => by
    rw [List.map_cons, List.mapM_cons] at h
    cases hq : f q.1 with
    | none => simp [hq] at h
    | some t =>
      cases hl : (l.map Prod.fst).mapM f with
      | none => simp [hq, hl] at h
      | some s' =>
        simp [hq, hl] at h
        subst h
        rw [List.map_cons, List.zip_cons_cons, List.mapM_cons, List.mapM_cons, bind_mapM f g l s' hl, hq]
        rfl

theorem zip_fst_snd {α β : Type*} {s : List α} {t : List β} (h : s.length = t.length) : (s.zip t).map Prod.fst = s ∧ (s.zip t).map Prod.snd = t :=
  ⟨List.map_fst_zip h.le, List.map_snd_zip h.ge⟩

theorem factors_score (order : List V → List V) (fl : ℝ → ℝ) (sm : Bool) (y : List Int) (c : Int) (p : ℝ) (l : List (Col V × Cell V)) (s : List (Stored V))
    (hs : (l.map Prod.fst).mapM (nbColumn order y c) = .ok s) :
    (factors fl sm s (l.map Prod.snd)).toOption.map (score (some (logB p))) = nbScore order fl sm y c p l := by
  have hs' : (l.map Prod.fst).mapM (fun q => (nbColumn order y c q).toOption) = some s := by rw [← toOption_mapM, hs]; rfl
  have hl : s.length = (l.map (Prod.snd : Col V × Cell V → Cell V)).length := by rw [Metrics.mapM_length hs']; simp
  obtain ⟨h1, h2⟩ := zip_fst_snd hl
  have := factors_pairs fl sm (s.zip (l.map Prod.snd))
  rw [h1, h2] at this
  rw [this, bind_mapM _ _ l s hs']
  rfl

/-- Whether columns can be fitted does not depend on the class. -/
theorem nbColumn_class (order : List V → List V) (y : List Int) (c c' : Int) (l : List (Col V)) :
    (∃ s, l.mapM (nbColumn order y c) = .ok s) → ∃ s, l.mapM (nbColumn order y c') = .ok s := by
  intro ⟨s, hs⟩
  refine mapM_ok _ l fun q hq => ?_
  by_contra hc
  cases q with
  | cont r => exact hc ⟨_, rfl⟩
  | disc r =>
    have hu : (pyUnique r).length = 1 := by
      by_contra hu; exact hc ⟨_, by simp only [nbColumn]; exact if_neg hu⟩
    have := mapM_eq_none (fun q => (nbColumn order y c q).toOption) l (.disc r) hq (by simp only [nbColumn]; rw [if_pos hu]; rfl)
    rw [← toOption_mapM, hs] at this
    cases this

theorem nbAnswer_eq (order : List V → List V) (fl : ℝ → ℝ) (sm : Bool) (l : List (Col V × Cell V)) (y : List Int) :
    (nbAnswer order fl sm (l.map Prod.fst) y (l.map Prod.snd)).toOption =
      (prior y.length y sm).toOption.bind fun p => (nbScore order fl sm y 0 p.1 l).bind fun s0 => (nbScore order fl sm y 1 p.2 l).map fun s1 => label s0 s1 := by
  unfold nbAnswer nbFit
  cases hp : prior y.length y sm with
  | error e => rfl
  | ok p =>
    obtain ⟨p0, p1⟩ := p
    dsimp only
    cases h0 : (l.map Prod.fst).mapM (nbColumn order y 0) with
    | error e =>
      have hn : nbScore order fl sm y 0 p0 l = none := by
        unfold nbScore
        have hnone : (l.map Prod.fst).mapM (fun q => (nbColumn order y 0 q).toOption) = none := by rw [← toOption_mapM, h0]; rfl
        rw [mapM_map_option] at hnone
        by_contra hc
        obtain ⟨v, hv⟩ := Option.ne_none_iff_exists'.1 hc
        rw [Option.map_eq_some_iff] at hv
        obtain ⟨w, hw, _⟩ := hv
        obtain ⟨q, hq, hqn⟩ : ∃ q ∈ l, (nbColumn order y 0 q.1).toOption = none := by
          by_contra hall
          push Not at hall
          have := mapM_eq_some_map (fun q : Col V × Cell V => (nbColumn order y 0 q.1).toOption)
            (fun q => ((nbColumn order y 0 q.1).toOption).getD (.cont none)) l (fun q hq => by
              obtain ⟨t, ht⟩ := Option.ne_none_iff_exists'.1 (hall q hq); rw [ht]; rfl)
          rw [this] at hnone; cases hnone
        have := mapM_eq_none (fun q : Col V × Cell V => (nbColumn order y 0 q.1).toOption.bind fun s => pairFactor fl sm (s, q.2)) l q hq (by rw [hqn]; rfl)
        rw [this] at hw; cases hw
      cases (l.map Prod.fst).mapM (nbColumn order y 1) <;> (show none = _; simp [Except.toOption, hn])
    | ok a =>
      obtain ⟨b, hb⟩ := nbColumn_class order y 0 1 _ ⟨a, h0⟩
      rw [hb]
      have f0 := factors_score order fl sm y 0 p0 l a h0
      have f1 := factors_score order fl sm y 1 p1 l b hb
      dsimp only
      simp only [show (Except.ok (p0, p1) : Except PyErr (ℝ × ℝ)).toOption = some (p0, p1) from rfl, Option.bind_some]
      rw [← f0, ← f1]
      unfold nbPredict
      dsimp only
      cases factors fl sm a (l.map Prod.snd) with
      | error e => cases factors fl sm b (l.map Prod.snd) <;> rfl
      | ok s => cases factors fl sm b (l.map Prod.snd) <;> rfl

/-- **C208.** Naive Bayes: the columns and the cells of a row may be given in any (common) order; the label is the same, or both calls raise. -/
theorem C208_naive_bayes (order : List V → List V) (fl : ℝ → ℝ) (sm : Bool) (y : List Int) {l l' : List (Col V × Cell V)} (h : l.Perm l') :
    (nbAnswer order fl sm (l.map Prod.fst) y (l.map Prod.snd)).toOption = (nbAnswer order fl sm (l'.map Prod.fst) y (l'.map Prod.snd)).toOption := by
  rw [nbAnswer_eq, nbAnswer_eq]
  simp only [nbScore_perm order fl sm y _ _ h]

theorem factors_columns (fl : ℝ → ℝ) (sm : Bool) (f : Col V → Stored V) {l l' : List (Col V × Cell V)} (h : l.Perm l') :
    ((factors fl sm ((l.map Prod.fst).map f) (l.map Prod.snd)).toOption = none ∧ (factors fl sm ((l'.map Prod.fst).map f) (l'.map Prod.snd)).toOption = none) ∨
    ∃ r r', factors fl sm ((l.map Prod.fst).map f) (l.map Prod.snd) = .ok r ∧ factors fl sm ((l'.map Prod.fst).map f) (l'.map Prod.snd) = .ok r' ∧ r.Perm r' := by
  have e : ∀ k : List (Col V × Cell V), (factors fl sm ((k.map Prod.fst).map f) (k.map Prod.snd)).toOption =
      (k.map fun q => (f q.1, q.2)).mapM (pairFactor fl sm) := by
    intro k
    rw [← factors_pairs]
    simp only [List.map_map, Function.comp_def]
  have ok : ∀ (k : Except PyErr (List (Option ℝ))) r, k.toOption = some r → k = .ok r := by
    intro k r hk; cases k with
    | error _ => cases hk
    | ok _ => cases hk; rfl
  rw [e l, e l']
  rcases Metrics.mapM_perm (pairFactor fl sm) (h.map fun q => (f q.1, q.2)) with h' | ⟨r, r', h1, h2, h3⟩
  · exact .inl h'
  · exact .inr ⟨r, r', ok _ _ ((e l).trans h1), ok _ _ ((e l').trans h2), h3⟩

/-- The factors of the elements of one class, in either order of the attributes. -/
theorem allFactors_columns (fl : ℝ → ℝ) (sm : Bool) (c : Int) {κ : Type} (cat : κ → Int) (val : κ → V) (g : Col V → κ → Stored V) (pr : κ → ℝ) {l l' : List (Col V × Cell V)} (h : l.Perm l') :
    ∀ ks : List κ,
    ((allFactors fl sm c (l.map Prod.snd) (ks.map fun k => ⟨cat k, val k, pr k, (l.map Prod.fst).map fun q => g q k⟩)).toOption = none ∧
      (allFactors fl sm c (l'.map Prod.snd) (ks.map fun k => ⟨cat k, val k, pr k, (l'.map Prod.fst).map fun q => g q k⟩)).toOption = none) ∨
    ∃ r r', allFactors fl sm c (l.map Prod.snd) (ks.map fun k => ⟨cat k, val k, pr k, (l.map Prod.fst).map fun q => g q k⟩) = .ok r ∧
      allFactors fl sm c (l'.map Prod.snd) (ks.map fun k => ⟨cat k, val k, pr k, (l'.map Prod.fst).map fun q => g q k⟩) = .ok r' ∧ r.Perm r'
  | [] => .inr ⟨[], [], rfl, rfl, .nil⟩
  | k :: ks => by
    have ih := allFactors_columns fl sm c cat val g pr h ks
    have hf := factors_columns fl sm (fun q => g q k) h
    simp only [List.map_cons, allFactors, entryFactors] at ih ⊢
    by_cases hc : cat k = c
    · simp only [if_pos hc]
      rcases hf with ⟨h1, h2⟩ | ⟨r, r', h1, h2, h3⟩
      · left
        revert h1 h2
        generalize factors fl sm _ (l.map Prod.snd) = a
        generalize factors fl sm _ (l'.map Prod.snd) = b
        intro h1 h2
        cases a <;> cases b <;> first | exact ⟨rfl, rfl⟩ | (simp [Except.toOption] at h1; done) | simp [Except.toOption] at h2
      · rw [h1, h2]
        dsimp only
        rcases ih with ⟨i1, i2⟩ | ⟨s, s', i1, i2, i3⟩
        · left
          revert i1 i2
          generalize allFactors fl sm c (l.map Prod.snd) _ = a
          generalize allFactors fl sm c (l'.map Prod.snd) _ = b
          intro i1 i2
          cases a <;> cases b <;> first | exact ⟨rfl, rfl⟩ | (simp [Except.toOption] at i1; done) | simp [Except.toOption] at i2
        · right
          rw [i1, i2]
          exact ⟨_, _, rfl, rfl, (h3.cons _).append i3⟩
    · simp only [if_neg hc]; exact ih

theorem predict_columns (fl : ℝ → ℝ) (sm : Bool) {κ : Type} (cat : κ → Int) (val : κ → V) (g : Col V → κ → Stored V) (pr : κ → ℝ) {l l' : List (Col V × Cell V)}
    (h : l.Perm l') (ks : List κ) :
    (spodePredict fl sm (ks.map fun k => ⟨cat k, val k, pr k, (l.map Prod.fst).map fun q => g q k⟩) (l.map Prod.snd)).toOption =
      (spodePredict fl sm (ks.map fun k => ⟨cat k, val k, pr k, (l'.map Prod.fst).map fun q => g q k⟩) (l'.map Prod.snd)).toOption := by
  have h0 := allFactors_columns fl sm 0 cat val g pr h ks
  have h1 := allFactors_columns fl sm 1 cat val g pr h ks
  unfold spodePredict
  revert h0 h1
  generalize allFactors fl sm 0 (l.map Prod.snd) _ = a
  generalize allFactors fl sm 0 (l'.map Prod.snd) _ = a'
  generalize allFactors fl sm 1 (l.map Prod.snd) _ = b
  generalize allFactors fl sm 1 (l'.map Prod.snd) _ = b'
  intro h0 h1
  rcases h0 with ⟨h2, h3⟩ | ⟨r, r', rfl, rfl, h0⟩
  · cases a <;> cases a' <;> first | (simp [Except.toOption] at h2; done) | (simp [Except.toOption] at h3; done) | skip
    cases b <;> cases b' <;> rfl
  · rcases h1 with ⟨h2, h3⟩ | ⟨s, s', rfl, rfl, h1⟩
    · cases b <;> cases b' <;> first | (simp [Except.toOption] at h2; done) | (simp [Except.toOption] at h3; done) | skip
      rfl
    · dsimp only; rw [score_perm _ h0, score_perm _ h1]

/-- **C208.** A one-dependent estimator: the columns and the cells of a row may be given in any (common) order (the super-parent stays the same column); the label is the same, or both calls
raise. -/
theorem C208_one_dependent (fl : ℝ → ℝ) (sm : Bool) (sp : List V) (y : List Int) {l l' : List (Col V × Cell V)} (h : l.Perm l') :
    (spodePredict fl sm (spodeFit [] (l.map Prod.fst) sp y sm) (l.map Prod.snd)).toOption =
      (spodePredict fl sm (spodeFit [] (l'.map Prod.fst) sp y sm) (l'.map Prod.snd)).toOption := by
  have e : ∀ k : List (Col V × Cell V), spodeFit [] (k.map Prod.fst) sp y sm =
      (((pyUnique y).insertionSort (· ≤ ·)).flatMap fun c => (pyUnique sp).map fun v => (c, v)).map fun k' =>
        ⟨k'.1, k'.2, depPrior (select2 sp y k'.2 k'.1 sp).length y.length (pyUnique sp).length sm, (k.map Prod.fst).map fun q => spodeColumn sp y k'.2 k'.1 q⟩ := by
    intro k
    simp only [spodeFit, List.nil_append, spodeEntries, List.map_flatMap, List.map_map]
    rfl
  rw [e l, e l']
  exact predict_columns fl sm (fun k : Int × V => k.1) (fun k => k.2) (fun q k => spodeColumn sp y k.2 k.1 q) _ h _

/-! ## C210: the order of the attributes and the averaged estimator -/

/-- C210 fails: with the columns b, b, c, c and p, q, r, s (labels 0, 0, 1, 1, smoothing, `m = 1`) the averaged estimator answers 0 for the row (b, p); with the columns
(and the row) exchanged it answers 1. -/
theorem C210_witness (fl : ℝ → ℝ) (num : String → Option ℝ) :
    aodePredict fl num true (aodeFit [] 1 [.disc ["b", "b", "c", "c"], .disc ["p", "q", "r", "s"]] [0, 0, 1, 1] true).2 [.disc "b", .disc "p"] = .ok 0 ∧
    aodePredict fl num true (aodeFit [] 1 [.disc ["p", "q", "r", "s"], .disc ["b", "b", "c", "c"]] [0, 0, 1, 1] true).2 [.disc "p", .disc "b"] = .ok 1 := by
  constructor
  · unfold aodePredict
    rw [spode_label fl true _ _ [ratio 3 8, ratio 3 4, ratio 2 6] [ratio 1 8, ratio 1 2, ratio 1 4] rfl rfl (by simp [ratio_nonneg]) (by simp [ratio_nonneg]), if_pos]
    norm_num [ratio]
  · unfold aodePredict
    rw [spode_label fl true _ _ [] [] rfl rfl (by simp) (by simp), if_neg (lt_irrefl _)]

theorem superParents_length (m : Nat) : ∀ cols : List (Col V), (∀ q ∈ cols, CanParent m q) → (superParents m cols).length = cols.length
  | [], _ => rfl
  | q :: cols, h => by
    have ih := superParents_length m cols fun r hr => h r (by simp [hr])
    have hq := h q (by simp)
    cases q with
    | cont _ => exact hq.elim
    | disc l =>
      have hb : ((pyUnique l).all fun v => m < l.count v) = true := by
        simp only [List.all_eq_true, mem_pyUnique, decide_eq_true_eq]; exact hq
      simp only [superParents, List.filterMap_cons, if_pos hb, List.length_cons] at ih ⊢
      rw [ih]

/-- The keys of the elements that the averaged estimator uses for the row. -/
noncomputable def usedKeys (num : V → Option ℝ) (m : Nat) (y : List Int) (l : List (Col V × Cell V)) : List (List V × Int × V) :=
  (l.map Prod.snd).flatMap fun a => ((superParents m (l.map Prod.fst)).flatMap fun sp =>
    ((pyUnique y).insertionSort (· ≤ ·)).flatMap fun c => (pyUnique sp).map fun v => (sp, c, v)).filter fun k => a.is num k.2.2

theorem usedKeys_perm (num : V → Option ℝ) (m : Nat) (y : List Int) {l l' : List (Col V × Cell V)} (h : l.Perm l') :
    (usedKeys num m y l).Perm (usedKeys num m y l') := by
  unfold usedKeys
  have hs : (superParents m (l.map Prod.fst)).Perm (superParents m (l'.map Prod.fst)) := (h.map Prod.fst).filterMap _
  refine ((h.map Prod.snd).flatMap_right _).trans (List.Perm.flatMap_left _ fun a _ => ?_)
  exact (hs.flatMap_right _).filter _

/-- The element for a key. -/
noncomputable def keyEntry (y : List Int) (sm : Bool) (cols : List (Col V)) (k : List V × Int × V) : Entry V :=
  ⟨k.2.1, k.2.2, depPrior (select2 k.1 y k.2.2 k.2.1 k.1).length y.length (pyUnique k.1).length sm, cols.map fun q => spodeColumn k.1 y k.2.2 k.2.1 q⟩

theorem aode_keys (fl : ℝ → ℝ) (num : V → Option ℝ) (m : Nat) (y : List Int) (sm : Bool) (l : List (Col V × Cell V)) (h : ∀ q ∈ l, CanParent m q.1) :
    aodePredict fl num sm (aodeFit [] m (l.map Prod.fst) y sm).2 (l.map Prod.snd) =
      spodePredict fl sm ((usedKeys num m y l).map (keyEntry y sm (l.map Prod.fst))) (l.map Prod.snd) := by
  have hl : (superParents m (l.map Prod.fst)).length = l.length := by
    rw [superParents_length m _ fun q hq => by obtain ⟨r, hr, rfl⟩ := List.mem_map.1 hq; exact h r hr, List.length_map]
  unfold aodePredict aodeFit
  dsimp only
  rw [aodeFit_final, List.nil_append, List.length_replicate, hl]
  congr 1
  unfold usedKeys
  rw [List.map_flatMap, flatMap_range (l.map Prod.snd), List.length_map]
  refine List.flatMap_congr fun i hi => ?_
  have hi := List.mem_range.1 hi
  unfold aodeUsed
  rw [List.getElem?_replicate, if_pos hi]
  cases (l.map Prod.snd)[i]? with
  | none => rfl
  | some a =>
    dsimp only
    rw [show (superParents m (l.map Prod.fst)).flatMap (fun sp => spodeEntries (l.map Prod.fst) sp y sm) = ((superParents m (l.map Prod.fst)).flatMap fun sp =>
        ((pyUnique y).insertionSort (· ≤ ·)).flatMap fun c => (pyUnique sp).map fun v => (sp, c, v)).map (keyEntry y sm (l.map Prod.fst)) by
      simp only [List.map_flatMap, List.map_map]; rfl, List.filter_map]
    rfl

/-- C210 (part): if every column can serve as super-parent, the columns and the cells of a row may be given in any (common) order; the label is the same, or both calls raise. -/
theorem C210_all_parents_partial (fl : ℝ → ℝ) (num : V → Option ℝ) (m : Nat) (y : List Int) (sm : Bool) {l l' : List (Col V × Cell V)} (h : l.Perm l')
    (hp : ∀ q ∈ l, CanParent m q.1) :
    (aodePredict fl num sm (aodeFit [] m (l.map Prod.fst) y sm).2 (l.map Prod.snd)).toOption =
      (aodePredict fl num sm (aodeFit [] m (l'.map Prod.fst) y sm).2 (l'.map Prod.snd)).toOption := by
  rw [aode_keys fl num m y sm l hp, aode_keys fl num m y sm l' fun q hq => hp q (h.mem_iff.2 hq)]
  refine (predict_columns fl sm (fun k : List V × Int × V => k.2.1) (fun k => k.2.2) (fun q k => spodeColumn k.1 y k.2.2 k.2.1 q)
    (fun k => depPrior (select2 k.1 y k.2.2 k.2.1 k.1).length y.length (pyUnique k.1).length sm) h (usedKeys num m y l)).trans ?_
  congr 1
  refine spodePredict_perm fl sm _ ((complaint (l'.map Prod.fst) (l'.map Prod.snd)).getD .valueError) (((usedKeys_perm num m y h).map _).map _) ?_
  intro e he r hr
  obtain ⟨k, _, rfl⟩ := List.mem_map.1 he
  rw [factors_error fl sm k.1 y k.2.2 k.2.1 _ _ r hr]; rfl

/-- Two columns that can serve as super-parents. -/
example : ∀ q ∈ [(Col.disc ["a", "a", "b", "b"], Cell.disc "a"), (.disc ["c", "d", "c", "d"], .disc "d")], CanParent 1 q.1 := by
  intro q hq
  fin_cases hq <;> (simp only [CanParent]; decide)

/-! ## C207: the order of the samples and naive Bayes -/

/-- Both raise the same exception, or both succeed with related results. -/
def ExRel {α β : Type*} (R : α → β → Prop) : Except PyErr α → Except PyErr β → Prop
  | .error e, .error e' => e = e'
  | .ok a, .ok b => R a b
  | _, _ => False

theorem mapM_rel {α β γ δ : Type} (R : γ → δ → Prop) (p : α → β) (f : α → Except PyErr γ) (g : β → Except PyErr δ) : ∀ l : List α,
    (∀ a ∈ l, ExRel R (f a) (g (p a))) → ExRel (List.Forall₂ R) (l.mapM f) ((l.map p).mapM g)
  | [], _ => List.Forall₂.nil
  | a :: l, h => by
    have ih := mapM_rel R p f g l fun b hb => h b (by simp [hb])
    have ha := h a (by simp)
    rw [List.map_cons, List.mapM_cons, List.mapM_cons]
    revert ha ih
    generalize f a = r
    generalize g (p a) = r'
    generalize l.mapM f = s
    generalize (l.map p).mapM g = s'
    intro ih ha
    cases r <;> cases r' <;> first | exact ha | exact ha.elim | skip
    cases s <;> cases s' <;> first | exact ih | exact ih.elim | skip
    exact List.Forall₂.cons ha ih

theorem zip_map_self {α β : Type*} (f : α → β) : ∀ l : List α, l.zip (l.map f) = l.map fun u => (u, f u)
  | [] => rfl
  | a :: l => by rw [List.map_cons, List.zip_cons_cons, zip_map_self f l, List.map_cons]

theorem nbColumn_reorder (order : List V → List V) (fl : ℝ → ℝ) (e : Equiv.Perm (Fin n)) (y : Fin n → Int) (c : Int) (q : Column n V) (h : Sorted order q)
    (h' : Sorted order (q.reorder e)) :
    ExRel (StEq fl) (nbColumn order (List.ofFn (y ∘ e)) c (q.reorder e).col) (nbColumn order (List.ofFn y) c q.col) := by
  cases q with
  | cont f =>
    dsimp only [Column.reorder, Column.col, nbColumn]
    rw [meanVar_perm (select_perm e y c f)]
    intro sm x; rfl
  | disc f =>
    have hp := Small.pyUnique_perm (ofFn_perm e f)
    have hs := select_perm e y c f
    dsimp only [Column.reorder, Column.col, nbColumn, Sorted] at h h' ⊢
    rw [hp.length_eq]
    by_cases hu : (pyUnique (List.ofFn f)).length = 1
    · rw [if_pos hu, if_pos hu]; rfl
    · rw [if_neg hu, if_neg hu, hs.length_eq]
      refine stEq_disc fl _ _ fun v => ?_
      unfold nbCounts
      rw [h, h', zip_map_self, zip_map_self]
      exact lookup_map_perm _ _ (fun u => hs.count_eq u) hp v

/-- C207 (part): if in both orders the values of every discrete column appear most frequent first (in particular if all columns are continuous), the order of the samples does not matter: same
label, or same exception. -/
theorem C207_sorted_partial (order : List V → List V) (fl : ℝ → ℝ) (e : Equiv.Perm (Fin n)) (cols : List (Column n V)) (y : Fin n → Int) (sm : Bool)
    (h : ∀ q ∈ cols, Sorted order q ∧ Sorted order (q.reorder e)) (x : List (Cell V)) :
    nbAnswer order fl sm (cols.map fun q => (q.reorder e).col) (List.ofFn (y ∘ e)) x = nbAnswer order fl sm (cols.map Column.col) (List.ofFn y) x := by
  have key : ∀ c, ExRel (List.Forall₂ (StEq fl)) ((cols.map fun q => (q.reorder e).col).mapM (nbColumn order (List.ofFn (y ∘ e)) c))
      ((cols.map Column.col).mapM (nbColumn order (List.ofFn y) c)) := by
    intro c
    have := mapM_rel (StEq fl) Column.col (fun q => nbColumn order (List.ofFn (y ∘ e)) c (q.reorder e).col) (nbColumn order (List.ofFn y) c) cols
      fun q hq => nbColumn_reorder order fl e y c q (h q hq).1 (h q hq).2
    have hm : (cols.map fun q => (q.reorder e).col).mapM (nbColumn order (List.ofFn (y ∘ e)) c) =
        cols.mapM fun q => nbColumn order (List.ofFn (y ∘ e)) c (q.reorder e).col := by rw [List.mapM_map]; rfl
    rw [hm]; exact this
  have k0 := key 0
  have k1 := key 1
  unfold nbAnswer nbFit
  rw [prior_perm (ofFn_perm e y), (ofFn_perm e y).length_eq]
  cases prior (List.ofFn y).length (List.ofFn y) sm with
  | error r => rfl
  | ok p =>
    dsimp only
    revert k0 k1
    generalize (cols.map fun q => (q.reorder e).col).mapM (nbColumn order (List.ofFn (y ∘ e)) 0) = a
    generalize (cols.map fun q => (q.reorder e).col).mapM (nbColumn order (List.ofFn (y ∘ e)) 1) = b
    generalize (cols.map Column.col).mapM (nbColumn order (List.ofFn y) 0) = a'
    generalize (cols.map Column.col).mapM (nbColumn order (List.ofFn y) 1) = b'
    intro k0 k1
    cases a <;> cases a' <;> simp only [ExRel] at k0 <;> cases b <;> cases b' <;> simp only [ExRel] at k1 <;> dsimp only
    · rw [k0]
    · rw [k0]
    · rw [k1]
    · unfold nbPredict
      dsimp only
      rw [factors_congr fl sm k0, factors_congr fl sm k1]

theorem order_two (order : List V → List V) (ho : IsValueCounts order) (a b : V) (hab : a ≠ b) (l : List V) (hl : pyUnique l = [a, b] ∨ pyUnique l = [b, a])
    (hc : l.count a < l.count b) : order l = [b, a] := by
  obtain ⟨h1, h2⟩ := ho l
  have h1' : (order l).Perm [b, a] := by
    rcases hl with hl | hl
    · rw [hl] at h1; exact h1.trans (.swap ..)
    · rwa [hl] at h1
  have hn := h1'.length_eq
  match ho' : order l with
  | [] => rw [ho'] at hn; simp at hn
  | [_] => rw [ho'] at hn; simp at hn
  | [p, q] =>
    rw [ho'] at h1' h2
    have hp : p = b ∨ p = a := by simpa using h1'.mem_iff.1 (show p ∈ [p, q] by simp)
    have hq : q = b ∨ q = a := by simpa using h1'.mem_iff.1 (show q ∈ [p, q] by simp)
    have hnd := h1'.nodup_iff.2 (by simp [hab.symm])
    rcases hp with rfl | rfl <;> rcases hq with rfl | rfl
    · simp at hnd
    · rfl
    · simp only [List.pairwise_cons, List.mem_singleton, forall_eq] at h2
      exact absurd hc (by have := h2.1; omega)
    · simp at hnd
  | _ :: _ :: _ :: _ => rw [ho'] at hn; simp at hn

/-- Every column a, a, b that is reordered to a, b, a is such a case. -/
example (order : List String → List String) (ho : IsValueCounts order) :
    Sorted order (.disc ![("a" : String), "a", "b"]) ∧ Sorted order ((Column.disc ![("a" : String), "a", "b"]).reorder (Equiv.swap 1 2)) := by
  constructor
  · exact order_two order ho "b" "a" (by decide) _ (.inr (by decide)) (by decide)
  · exact order_two order ho "b" "a" (by decide) _ (.inr (by decide)) (by decide)

/-- C207 fails: the column a, b, b with labels 0, 1, 1 and the column b, b, a with labels 1, 1, 0 are the same samples, but naive Bayes answers 1 for a after the first and 0 after the
second, with and without smoothing and whichever way `value_counts` breaks ties. -/
theorem C207_witness (order : List String → List String) (ho : IsValueCounts order) (fl : ℝ → ℝ) (sm : Bool) :
    nbAnswer order fl sm [.disc ["a", "b", "b"]] [0, 1, 1] [.disc "a"] = .ok 1 ∧
    nbAnswer order fl sm [.disc ["b", "b", "a"]] [1, 1, 0] [.disc "a"] = .ok 0 := by
  have o1 := order_two order ho "a" "b" (by decide) ["a", "b", "b"] (.inl (by decide)) (by decide)
  have o2 := order_two order ho "a" "b" (by decide) ["b", "b", "a"] (.inr (by decide)) (by decide)
  cases sm with
  | false =>
    constructor
    · have hfit : nbFit order [.disc ["a", "b", "b"]] [0, 1, 1] false = .ok ⟨ratio 1 3, 1 - ratio 1 3,
          [.disc [("b", 1), ("a", 0)] 1 2], [.disc [("b", 0), ("a", 2)] 2 2]⟩ := by
        simp only [nbFit, nbColumn, nbCounts, o1, List.mapM_cons, List.mapM_nil]; rfl
      unfold nbAnswer
      rw [hfit]
      dsimp only
      rw [C42_label_partial fl false _ _ [ratio 0 1] [ratio 2 2] rfl rfl (by norm_num [ratio]) (by norm_num [ratio]) (by simp [ratio_nonneg])
        (by simp [ratio_nonneg]), if_neg]
      norm_num [ratio]
    · have hfit : nbFit order [.disc ["b", "b", "a"]] [1, 1, 0] false = .ok ⟨ratio 1 3, 1 - ratio 1 3,
          [.disc [("b", 0), ("a", 1)] 1 2], [.disc [("b", 2), ("a", 0)] 2 2]⟩ := by
        simp only [nbFit, nbColumn, nbCounts, o2, List.mapM_cons, List.mapM_nil]; rfl
      unfold nbAnswer
      rw [hfit]
      dsimp only
      rw [C42_label_partial fl false _ _ [ratio 1 1] [ratio 0 2] rfl rfl (by norm_num [ratio]) (by norm_num [ratio]) (by simp [ratio_nonneg])
        (by simp [ratio_nonneg]), if_pos]
      norm_num [ratio]
  | true =>
    constructor
    · have hfit : nbFit order [.disc ["a", "b", "b"]] [0, 1, 1] true = .ok ⟨ratio 2 5, 1 - ratio 2 5,
          [.disc [("b", 1), ("a", 0)] 1 2], [.disc [("b", 0), ("a", 2)] 2 2]⟩ := by
        simp only [nbFit, nbColumn, nbCounts, o1, List.mapM_cons, List.mapM_nil]; rfl
      unfold nbAnswer
      rw [hfit]
      dsimp only
      rw [C42_label_partial fl true _ _ [ratio 1 3] [ratio 3 4] rfl rfl (by norm_num [ratio]) (by norm_num [ratio]) (by simp [ratio_nonneg])
        (by simp [ratio_nonneg]), if_neg]
      norm_num [ratio]
    · have hfit : nbFit order [.disc ["b", "b", "a"]] [1, 1, 0] true = .ok ⟨ratio 2 5, 1 - ratio 2 5,
          [.disc [("b", 0), ("a", 1)] 1 2], [.disc [("b", 2), ("a", 0)] 2 2]⟩ := by
        simp only [nbFit, nbColumn, nbCounts, o2, List.mapM_cons, List.mapM_nil]; rfl
      unfold nbAnswer
      rw [hfit]
      dsimp only
      rw [C42_label_partial fl true _ _ [ratio 2 3] [ratio 1 4] rfl rfl (by norm_num [ratio]) (by norm_num [ratio]) (by simp [ratio_nonneg])
        (by simp [ratio_nonneg]), if_pos]
      norm_num [ratio]

end CML.Bayes
