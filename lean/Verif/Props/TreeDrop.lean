import Verif.Spec.TreeDrop
import Verif.Props.TreeSym

set_option linter.unusedSectionVars false

/-! # Property C298: attributes a decision tree does not ask about -/

namespace CML.DTree

universe u w
variable {V : Type u} {K : Type w} {m m' : Nat} [DecidableEq V]

/-! ## Renumbering -/

theorem renumber_nl (σ : Fin m' → Fin m) (t : Tree V K m') : (t.renumber σ).nl = t.nl := by cases t <;> simp [Tree.renumber, Tree.nl]
theorem renumber_ht (σ : Fin m' → Fin m) (t : Tree V K m') : (t.renumber σ).ht = t.ht := by cases t <;> simp [Tree.renumber, Tree.ht]

theorem sumLeaves_renumber (σ : Fin m' → Fin m) : ∀ f : Forest V K m', sumLeaves (f.renumber σ) = sumLeaves f
  | .nil => by simp [Forest.renumber, sumLeaves]
  | .cons v t r => by simp [Forest.renumber, sumLeaves, renumber_nl, sumLeaves_renumber σ r]

theorem maxHeight_renumber (σ : Fin m' → Fin m) : ∀ (f : Forest V K m') (acc : Int), maxHeight acc (f.renumber σ) = maxHeight acc f
  | .nil, _ => by simp [Forest.renumber, maxHeight]
  | .cons v t r, acc => by simp [Forest.renumber, maxHeight, renumber_ht, maxHeight_renumber σ r]

mutual
theorem exists_renumber (σ : Fin m' → Fin m) : ∀ t : Tree V K m, (∀ a ∈ t.attrs, ∃ a', σ a' = a) → ∃ t', t = Tree.renumber σ t'
  | .leaf c, _ => ⟨.leaf c, by simp [Tree.renumber]⟩
  | .cont a t nl ht g l, h => by
    simp only [Tree.attrs, List.mem_cons, List.mem_append] at h
    obtain ⟨a', rfl⟩ := h a (.inl rfl)
    obtain ⟨g', rfl⟩ := exists_renumber σ g fun b hb => h b (.inr (.inl hb))
    obtain ⟨l', rfl⟩ := exists_renumber σ l fun b hb => h b (.inr (.inr hb))
    exact ⟨.cont a' t nl ht g' l', by simp [Tree.renumber]⟩
  | .disc a nl ht br, h => by
    simp only [Tree.attrs, List.mem_cons] at h
    obtain ⟨a', rfl⟩ := h a (.inl rfl)
    obtain ⟨br', rfl⟩ := exists_renumberIn σ br fun b hb => h b (.inr hb)
    exact ⟨.disc a' nl ht br', by simp [Tree.renumber]⟩
theorem exists_renumberIn (σ : Fin m' → Fin m) : ∀ f : Forest V K m, (∀ a ∈ f.attrs, ∃ a', σ a' = a) → ∃ f', f = Forest.renumber σ f'
  | .nil, _ => ⟨.nil, by simp [Forest.renumber]⟩
  | .cons v t r, h => by
    simp only [Forest.attrs, List.mem_append] at h
    obtain ⟨t', rfl⟩ := exists_renumber σ t fun b hb => h b (.inl hb)
    obtain ⟨r', rfl⟩ := exists_renumberIn σ r fun b hb => h b (.inr hb)
    exact ⟨.cons v t' r', by simp [Forest.renumber]⟩
end

mutual
theorem predict_renumber [LE K] [DecidableLE K] (σ : Fin m' → Fin m) (num : V → K) (r : Row V m) :
    ∀ t : Tree V K m', predict num r (t.renumber σ) = predict num (keep σ r) t
  | .leaf c => by simp [Tree.renumber, predict]
  | .cont a t nl ht g l => by
    simp only [Tree.renumber, predict, predict_renumber σ num r g, predict_renumber σ num r l]
    rfl
  | .disc a nl ht br => by simp [Tree.renumber, predict, keep, predictIn_renumber σ num r (r (σ a)) br]
theorem predictIn_renumber [LE K] [DecidableLE K] (σ : Fin m' → Fin m) (num : V → K) (r : Row V m) (v : V) :
    ∀ f : Forest V K m', predictIn num r v (f.renumber σ) = predictIn num (keep σ r) v f
  | .nil => by simp [Forest.renumber, predictIn]
  | .cons w t rest => by simp [Forest.renumber, predictIn, predict_renumber σ num r t, predictIn_renumber σ num r v rest]
end

/-! ## Generation -/

/-- The oracle of the table with fewer columns answers as the one of the whole table, whenever that one chooses a kept column. -/
structure OracleDrop (σ : Fin m' → Fin m) (o : Oracle V K m) (o' : Oracle V K m') : Prop where
  maj : o'.maj = o.maj
  num : o'.num = o.num
  fl : o'.fl = o.fl
  mem : ∀ (cols : List (Fin m)) (xs : List (Row V m)) (ys : List Int) (a : Fin m) (p : Option K), o.split cols xs ys = some (a, p) → a ∈ cols
  split : ∀ (cols : List (Fin m)) (cols' : List (Fin m')) (xs : List (Row V m)) (ys : List Int) (a : Fin m') (p : Option K),
    cols'.map σ = cols.filter (fun c => decide (∃ a', σ a' = c)) → o.split cols xs ys = some (σ a, p) → o'.split cols' (xs.map (keep σ)) ys = some (a, p)

theorem filter_keep (σ : Fin m' → Fin m) (p : Row V m' → Bool) (xs : List (Row V m)) :
    (xs.map (keep σ)).filter p = (xs.filter fun r => p (keep σ r)).map (keep σ) := by
  rw [List.filter_map]; rfl

theorem selY_keep (σ : Fin m' → Fin m) (p : Row V m' → Bool) (xs : List (Row V m)) (ys : List Int) :
    selY p (xs.map (keep σ)) ys = selY (fun r => p (keep σ r)) xs ys := by
  unfold selY
  induction xs generalizing ys with
  | nil => simp
  | cons x xs ih =>
    cases ys with
    | nil => simp
    | cons y ys =>
      simp only [List.map_cons, List.zip_cons_cons, List.filter_cons]
      by_cases h : p (keep σ x) = true
      · simp only [h, if_true, List.map_cons, ih]
      · simp only [h, Bool.false_eq_true, if_false, ih]

theorem column_keep (σ : Fin m' → Fin m) (xs : List (Row V m)) (a : Fin m') : ((xs.map (keep σ)).map fun r => r a) = xs.map fun r => r (σ a) := by
  rw [List.map_map]; rfl

/-- A forest that is a renumbered one was generated from renumbered trees. -/
theorem genForest_renumber (σ : Fin m' → Fin m) (gen : V → Except PyErr (Tree V K m)) (gen' : V → Except PyErr (Tree V K m'))
    (h : ∀ v t', gen v = .ok (Tree.renumber σ t') → gen' v = .ok t') :
    ∀ (vs : List V) (f' : Forest V K m'), genForest gen vs = .ok (f'.renumber σ) → genForest gen' vs = .ok f'
  | [], f', hf => by
    simp only [genForest, Except.ok.injEq] at hf ⊢
    cases f' with
    | nil => rfl
    | cons v t r => simp [Forest.renumber] at hf
  | v :: vs, f', hf => by
    rw [genForest] at hf
    split at hf
    · cases hf
    · rename_i t ht
      split at hf
      · cases hf
      · rename_i r hr
        simp only [Except.ok.injEq] at hf
        cases f' with
        | nil => simp [Forest.renumber] at hf
        | cons w t' r' =>
          simp only [Forest.renumber, Forest.cons.injEq] at hf
          obtain ⟨rfl, rfl, rfl⟩ := hf
          rw [genForest, h _ _ ht]
          dsimp only
          rw [genForest_renumber σ gen gen' h vs r' hr]

variable [LinearOrder K]

theorem generate_drop {σ : Fin m' → Fin m} (hσ : Function.Injective σ) {o : Oracle V K m} {o' : Oracle V K m'} (ho : OracleDrop σ o o') (full : List (Row V m)) :
    ∀ (fuel : Nat) (cols : List (Fin m)) (cols' : List (Fin m')) (xs : List (Row V m)) (ys : List Int) (t' : Tree V K m'),
    cols'.map σ = cols.filter (fun c => decide (∃ a', σ a' = c)) → generate o full fuel cols xs ys = .ok (t'.renumber σ) →
    generate o' (full.map (keep σ)) fuel cols' (xs.map (keep σ)) ys = .ok t' := by
  intro fuel
  induction fuel with
  | zero => intro cols cols' xs ys t' _ h; cases h
  | succ fuel ih =>
    intro cols cols' xs ys t' hc h
    have h0 := h
    rcases generate_cases h with ⟨c, hcy, h1, ht⟩ | ⟨c, he, h1, hm, ht⟩ | ⟨a, t₀, g, l, hx, hcs, hs, hg, hl, ht⟩ | ⟨a, br, hx, hcs, hs, hbr, ht⟩
    · cases t' with
      | leaf c' =>
        simp only [Tree.renumber, Tree.leaf.injEq] at ht
        subst ht
        simp only [generate, if_pos h1] at h0 ⊢
        cases ys with
        | nil => cases h0
        | cons d ys =>
          simp only [Tree.renumber, Except.ok.injEq, Tree.leaf.injEq] at h0
          simp [h0]
      | cont => simp [Tree.renumber] at ht
      | disc => simp [Tree.renumber] at ht
    · cases t' with
      | leaf c' =>
        simp only [Tree.renumber, Tree.leaf.injEq] at ht
        subst ht
        have he' : xs.map (keep σ) = [] ∨ cols' = [] := by
          rcases he with he | he
          · exact .inl (by simp [he])
          · right
            rw [he, List.filter_nil] at hc
            exact List.map_eq_nil_iff.1 hc
        simp only [generate]
        rw [if_neg h1, if_pos he', ho.maj, hm]
      | cont => simp [Tree.renumber] at ht
      | disc => simp [Tree.renumber] at ht
    · cases t' with
      | leaf => simp [Tree.renumber] at ht
      | disc => simp [Tree.renumber] at ht
      | cont a' t nl hh g' l' =>
        simp only [Tree.renumber, Tree.cont.injEq] at ht
        obtain ⟨rfl, rfl, hnl, hht, rfl, rfl⟩ := ht
        have hs' := ho.split cols cols' xs ys a' (some t₀) hc hs
        have h1 : (pyUnique ys).length ≠ 1 := by
          intro h1
          simp only [generate, if_pos h1] at h0
          cases ys with
          | nil => cases h0
          | cons d ys => simp [Tree.renumber] at h0
        have hcols' : ¬ (xs.map (keep σ) = [] ∨ cols' = []) := by
          rintro (h2 | h2)
          · exact hx (List.map_eq_nil_iff.1 h2)
          · have : σ a' ∈ cols'.map σ := by rw [hc]; exact List.mem_filter.2 ⟨ho.mem _ _ _ _ _ hs, by simp⟩
            rw [h2] at this
            cases this
        have ig := ih cols cols' _ _ g' hc hg
        have il := ih cols cols' _ _ l' hc hl
        simp only [generate]
        rw [if_neg h1, if_neg hcols', hs']
        simp only [ho.fl, ho.num, filter_keep, selY_keep]
        have e1 : ∀ r : Row V m, keep σ r a' = r (σ a') := fun _ => rfl
        simp only [e1]
        rw [ig, il]
        simp only [renumber_nl, renumber_ht] at hnl hht
        simp [hnl, hht]
    · cases t' with
      | leaf => simp [Tree.renumber] at ht
      | cont => simp [Tree.renumber] at ht
      | disc a' nl hh br' =>
        simp only [Tree.renumber, Tree.disc.injEq] at ht
        obtain ⟨rfl, hnl, hht, rfl⟩ := ht
        have hs' := ho.split cols cols' xs ys a' none hc hs
        have h1 : (pyUnique ys).length ≠ 1 := by
          intro h1
          simp only [generate, if_pos h1] at h0
          cases ys with
          | nil => cases h0
          | cons d ys => simp [Tree.renumber] at h0
        have hcols' : ¬ (xs.map (keep σ) = [] ∨ cols' = []) := by
          rintro (h2 | h2)
          · exact hx (List.map_eq_nil_iff.1 h2)
          · have : σ a' ∈ cols'.map σ := by rw [hc]; exact List.mem_filter.2 ⟨ho.mem _ _ _ _ _ hs, by simp⟩
            rw [h2] at this
            cases this
        have hsub : (cols'.filter fun c => c ≠ a').map σ = (cols.filter fun c => c ≠ σ a').filter (fun c => decide (∃ a', σ a' = c)) := by
          rw [List.filter_comm, ← hc, List.filter_map]
          congr 1
          refine List.filter_congr fun c _ => ?_
          simp [hσ.eq_iff]
        have hf := genForest_renumber σ _ (fun v =>
            if selY (fun r => decide (r a' = v)) (xs.map (keep σ)) ys = [] then
              generate o' (full.map (keep σ)) fuel (cols'.filter fun c => c ≠ a') ((xs.map (keep σ)).filter fun r => decide (r a' = v)) ys
            else generate o' (full.map (keep σ)) fuel (cols'.filter fun c => c ≠ a') ((xs.map (keep σ)).filter fun r => decide (r a' = v))
              (selY (fun r => decide (r a' = v)) (xs.map (keep σ)) ys)) (fun v t' hv => by
            simp only [filter_keep, selY_keep]
            have e1 : ∀ r : Row V m, keep σ r a' = r (σ a') := fun _ => rfl
            simp only [e1]
            by_cases he : selY (fun r => decide (r (σ a') = v)) xs ys = []
            · rw [if_pos he] at hv ⊢
              exact ih _ _ _ _ _ hsub hv
            · rw [if_neg he] at hv ⊢
              exact ih _ _ _ _ _ hsub hv) _ br' hbr
        rw [← column_keep σ full a'] at hf
        simp only [generate]
        rw [if_neg h1, if_neg hcols', hs']
        dsimp only
        rw [hf]
        dsimp only
        rw [hnl, hht, sumLeaves_renumber, maxHeight_renumber]

/-! ## The criteria -/

variable [Field K]

/-- The first best element of a list is the first best element of a sublist that contains it. -/
theorem first_unique {A B : Type*} (σ : B → A) (hσ : Function.Injective σ) (p : A → Bool) (hp : ∀ b, p (σ b) = true) (R : A → A → Prop) (hR : ∀ x y, R x y → ¬ R y x)
    (pre post : List A) (pre' post' : List B) (a' b : B) (hl : (pre' ++ a' :: post').map σ = (pre ++ σ b :: post).filter p)
    (h3 : ∀ c ∈ pre, R (σ b) c) (h4 : ∀ c ∈ post, ¬ R c (σ b)) (g3 : ∀ c ∈ pre', R (σ a') (σ c)) (g4 : ∀ c ∈ post', ¬ R (σ c) (σ a')) : a' = b := by
  rw [List.filter_append, List.filter_cons, if_pos (hp b), List.map_append, List.map_cons] at hl
  by_contra hne
  have ha : σ a' ∈ pre ∨ σ a' ∈ post := by
    have : σ a' ∈ List.map σ pre' ++ σ a' :: List.map σ post' := by simp
    rw [hl] at this
    rcases List.mem_append.1 this with h | h
    · exact .inl (List.mem_of_mem_filter h)
    · rcases List.mem_cons.1 h with h | h
      · exact absurd (hσ h) hne
      · exact .inr (List.mem_of_mem_filter h)
  have hb : b ∈ pre' ∨ b ∈ post' := by
    have : σ b ∈ List.map σ pre' ++ σ a' :: List.map σ post' := by rw [hl]; simp
    rcases List.mem_append.1 this with h | h
    · obtain ⟨c, hc, e⟩ := List.mem_map.1 h
      exact .inl (hσ e ▸ hc)
    · rcases List.mem_cons.1 h with h | h
      · exact absurd (hσ h).symm hne
      · obtain ⟨c, hc, e⟩ := List.mem_map.1 h
        exact .inr (hσ e ▸ hc)
  have ha' : σ a' ∉ pre := fun h => by
    rcases hb with h' | h'
    · exact hR _ _ (h3 _ h) (g3 _ h')
    · exact g4 _ h' (h3 _ h)
  have hb' : b ∉ pre' := fun h => by
    rcases ha with h' | h'
    · exact ha' h'
    · exact h4 _ h' (g3 _ h)
  have : pre'.map σ = pre.filter p := by
    have hA : σ b ∉ pre'.map σ := fun h => by
      obtain ⟨c, hc, e⟩ := List.mem_map.1 h
      exact hb' (hσ e ▸ hc)
    have hB : σ a' ∉ pre.filter p := fun h => ha' (List.mem_of_mem_filter h)
    rcases List.append_eq_append_iff.1 hl with ⟨as, h5, h6⟩ | ⟨bs, h5, h6⟩
    · cases as with
      | nil => simpa using h5.symm
      | cons c as =>
        simp only [List.cons_append, List.cons.injEq] at h6
        exact absurd (by rw [h5, ← h6.1]; simp) hB
    · cases bs with
      | nil => simpa using h5
      | cons c bs =>
        simp only [List.cons_append, List.cons.injEq] at h6
        exact absurd (by rw [h5, ← h6.1]; simp) hA
  rw [this] at hl
  have h5 := List.append_cancel_left hl
  simp only [List.cons.injEq] at h5
  exact hne (hσ h5.1)

theorem mem_kept {A B : Type*} {σ : B → A} (hσ : Function.Injective σ) {p : A → Bool} (hp : ∀ b, p (σ b) = true) {l : List A} {l' : List B} (hl : l'.map σ = l.filter p) {b : B}
    (h : σ b ∈ l) : b ∈ l' := by
  have : σ b ∈ l'.map σ := by rw [hl]; exact List.mem_filter.2 ⟨h, hp b⟩
  obtain ⟨b', hb', e⟩ := List.mem_map.1 this
  rwa [← hσ e]

theorem minLoop_drop {A B : Type*} (σ : B → A) (hσ : Function.Injective σ) (value : A → WithTop K × Option (Option K)) (value' : B → WithTop K × Option (Option K))
    (hv : ∀ b, value' b = value (σ b)) (p : A → Bool) (hp : ∀ b, p (σ b) = true) (l : List A) (l' : List B) (hl : l'.map σ = l.filter p) (b : B)
    (q : WithTop K × Option (Option K)) (h : minLoop value l (none, ⊤, none) = (some (σ b), q)) : σ b ∈ l ∧ minLoop value' l' (none, ⊤, none) = (some b, q) := by
  rcases minLoop_spec value l (none, ⊤, none) with ⟨h1, -⟩ | ⟨pre, a, post, rfl, h1, h2, h3, h4⟩
  · rw [h1] at h; cases h
  · rw [h1] at h
    simp only [Prod.mk.injEq, Option.some.injEq] at h
    obtain ⟨rfl, rfl⟩ := h
    refine ⟨by simp, ?_⟩
    rcases minLoop_spec value' l' (none, ⊤, none) with ⟨g1, g2⟩ | ⟨pre', a', post', rfl, g1, g2, g3, g4⟩
    · have := g2 b (mem_kept hσ hp hl (by simp))
      rw [hv] at this
      exact absurd h2 (not_lt.2 this)
    · have hab := first_unique σ hσ p hp (fun x y => (value x).1 < (value y).1) (fun x y h => not_lt.2 h.le) pre post pre' post' a' b hl h3
        (fun c hc => not_lt.2 (h4 c hc)) (fun c hc => by have := g3 c hc; rwa [hv, hv] at this) (fun c hc => by have := g4 c hc; rw [hv, hv] at this; exact not_lt.2 this)
      rw [g1, hab, hv]

theorem maxLoop_drop {A B : Type*} (σ : B → A) (hσ : Function.Injective σ) (value : A → WithBot K × Option (Option K)) (value' : B → WithBot K × Option (Option K))
    (hv : ∀ b, value' b = value (σ b)) (p : A → Bool) (hp : ∀ b, p (σ b) = true) (l : List A) (l' : List B) (hl : l'.map σ = l.filter p) (b : B)
    (q : WithBot K × Option (Option K)) (h : maxLoop value l (none, ⊥, none) = (some (σ b), q)) : σ b ∈ l ∧ maxLoop value' l' (none, ⊥, none) = (some b, q) := by
  rcases maxLoop_spec value l (none, ⊥, none) with ⟨h1, -⟩ | ⟨pre, a, post, rfl, h1, h2, h3, h4⟩
  · rw [h1] at h; cases h
  · rw [h1] at h
    simp only [Prod.mk.injEq, Option.some.injEq] at h
    obtain ⟨rfl, rfl⟩ := h
    refine ⟨by simp, ?_⟩
    rcases maxLoop_spec value' l' (none, ⊥, none) with ⟨g1, g2⟩ | ⟨pre', a', post', rfl, g1, g2, g3, g4⟩
    · have := g2 b (mem_kept hσ hp hl (by simp))
      rw [hv] at this
      exact absurd h2 (not_lt.2 this)
    · have hab := first_unique σ hσ p hp (fun x y => (value y).1 < (value x).1) (fun x y h => not_lt.2 h.le) pre post pre' post' a' b hl h3
        (fun c hc => not_lt.2 (h4 c hc)) (fun c hc => by have := g3 c hc; rwa [hv, hv] at this) (fun c hc => by have := g4 c hc; rw [hv, hv] at this; exact not_lt.2 this)
      rw [g1, hab, hv]

theorem minLoop_mem {A : Type*} (value : A → WithTop K × Option (Option K)) (l : List A) (a : A) (q : WithTop K × Option (Option K))
    (h : minLoop value l (none, ⊤, none) = (some a, q)) : a ∈ l := by
  rcases minLoop_spec value l (none, ⊤, none) with ⟨h1, -⟩ | ⟨pre, b, post, rfl, h1, -⟩
  · rw [h1] at h; cases h
  · rw [h1] at h; cases h; simp

theorem maxLoop_mem {A : Type*} (value : A → WithBot K × Option (Option K)) (l : List A) (a : A) (q : WithBot K × Option (Option K))
    (h : maxLoop value l (none, ⊥, none) = (some a, q)) : a ∈ l := by
  rcases maxLoop_spec value l (none, ⊥, none) with ⟨h1, -⟩ | ⟨pre, b, post, rfl, h1, -⟩
  · rw [h1] at h; cases h
  · rw [h1] at h; cases h; simp

/-- The conversion of the criterion's answer, in `criterionOracle` and `gainOracle`. -/
def answer {A L : Type*} : Option A × (L × Option (Option K)) → Option (A × Option K)
  | (some a, _, none) => some (a, none)
  | (some a, _, some (some t)) => some (a, some t)
  | _ => none

theorem answer_some {A L : Type*} {r : Option A × (L × Option (Option K))} {a : A} {p : Option K} (h : answer r = some (a, p)) :
    ∃ q, r = (some a, q) ∧ ∀ {B : Type} (b : B), answer (some b, q) = some (b, p) := by
  rcases r with ⟨_ | b, v, _ | _ | t⟩ <;> simp only [answer, Option.some.injEq, Prod.mk.injEq, reduceCtorEq] at h
  · obtain ⟨rfl, rfl⟩ := h
    exact ⟨_, rfl, fun _ => rfl⟩
  · obtain ⟨rfl, rfl⟩ := h
    exact ⟨_, rfl, fun _ => rfl⟩

theorem criterion_split (imp : List Int → K) (num : V → K) (isCont : List V → Bool) (maj : List Int → Option Int) (fl : K → K) (cols : List (Fin m)) (xs : List (Row V m))
    (ys : List Int) : (criterionOracle imp num isCont maj fl).split cols xs ys = answer (optimalDivision imp num isCont cols xs ys) := by
  simp only [criterionOracle]
  rcases optimalDivision imp num isCont cols xs ys with ⟨_ | b, v, _ | _ | t⟩ <;> rfl

theorem gain_split (imp : List Int → K) (num : V → K) (isCont : List V → Bool) (maj : List Int → Option Int) (fl : K → K) (cols : List (Fin m)) (xs : List (Row V m))
    (ys : List Int) : (gainOracle imp num isCont maj fl).split cols xs ys = answer (gainDivision imp num isCont cols xs ys) := by
  simp only [gainOracle]
  rcases gainDivision imp num isCont cols xs ys with ⟨_ | b, v, _ | _ | t⟩ <;> rfl

theorem criterion_drop {σ : Fin m' → Fin m} (hσ : Function.Injective σ) (imp : List Int → K) (num : V → K) (isCont : List V → Bool) (maj : List Int → Option Int) (fl : K → K) :
    OracleDrop σ (criterionOracle imp num isCont maj fl) (criterionOracle imp num isCont maj fl) where
  maj := rfl
  num := rfl
  fl := rfl
  mem cols xs ys a p h := by
    rw [criterion_split] at h
    obtain ⟨q, hq, -⟩ := answer_some (r := optimalDivision imp num isCont cols xs ys) h
    exact minLoop_mem _ _ _ _ hq
  split cols cols' xs ys a p hc h := by
    rw [criterion_split] at h
    obtain ⟨q, hq, hb⟩ := answer_some (r := optimalDivision imp num isCont cols xs ys) h
    have := (minLoop_drop σ hσ (fun a : Fin m => getValue imp num (isCont (xs.map fun r : Row V m => r a)) (xs.map fun r : Row V m => r a) ys)
      (fun a : Fin m' => getValue imp num (isCont ((xs.map (keep σ)).map fun r : Row V m' => r a)) ((xs.map (keep σ)).map fun r : Row V m' => r a) ys) (fun b => by simp only [column_keep])
      _ (fun b => by simp) cols cols' hc a q hq).2
    rw [criterion_split]
    rw [show optimalDivision imp num isCont cols' (xs.map (keep σ)) ys = (some a, q) from this]
    exact hb a

theorem gain_drop {σ : Fin m' → Fin m} (hσ : Function.Injective σ) (imp : List Int → K) (num : V → K) (isCont : List V → Bool) (maj : List Int → Option Int) (fl : K → K) :
    OracleDrop σ (gainOracle imp num isCont maj fl) (gainOracle imp num isCont maj fl) where
  maj := rfl
  num := rfl
  fl := rfl
  mem cols xs ys a p h := by
    rw [gain_split] at h
    obtain ⟨q, hq, -⟩ := answer_some (r := gainDivision imp num isCont cols xs ys) h
    exact maxLoop_mem _ _ _ _ hq
  split cols cols' xs ys a p hc h := by
    rw [gain_split] at h
    obtain ⟨q, hq, hb⟩ := answer_some (r := gainDivision imp num isCont cols xs ys) h
    have := (maxLoop_drop σ hσ (fun a : Fin m => (gainOf (imp ys) (getValue imp num (isCont (xs.map fun r : Row V m => r a)) (xs.map fun r : Row V m => r a) ys).1,
        (getValue imp num (isCont (xs.map fun r : Row V m => r a)) (xs.map fun r : Row V m => r a) ys).2))
      (fun a : Fin m' => (gainOf (imp ys) (getValue imp num (isCont ((xs.map (keep σ)).map fun r : Row V m' => r a)) ((xs.map (keep σ)).map fun r : Row V m' => r a) ys).1,
        (getValue imp num (isCont ((xs.map (keep σ)).map fun r : Row V m' => r a)) ((xs.map (keep σ)).map fun r : Row V m' => r a) ys).2)) (fun b => by simp only [column_keep])
      _ (fun b => by simp) cols cols' hc a q hq).2
    rw [gain_split]
    rw [show gainDivision imp num isCont cols' (xs.map (keep σ)) ys = (some a, q) from this]
    exact hb a

theorem finRange_kept {σ : Fin m' → Fin m} (hσ : StrictMono σ) : (List.finRange m').map σ = (List.finRange m).filter (fun c => decide (∃ a', σ a' = c)) := by
  have hs : ∀ n, (List.finRange n).Pairwise (· < ·) := fun n => List.pairwise_lt_finRange n
  refine List.Perm.eq_of_pairwise (le := (· < ·)) (fun a b _ _ h1 h2 => absurd h1 (lt_asymm h2)) ?_ ((hs m).filter _) ?_
  · exact (hs m').map σ fun a b h => hσ h
  · rw [List.perm_ext_iff_of_nodup]
    · intro a; simp
    · exact (List.nodup_finRange m').map hσ.injective
    · exact (List.nodup_finRange m).filter _

theorem fit_drop {σ : Fin m' → Fin m} (hσ : StrictMono σ) {o : Oracle V K m} {o' : Oracle V K m'} (ho : OracleDrop σ o o') (limit : Nat) (xs : List (Row V m)) (ys : List Int)
    (t : Tree V K m) (h : fit o limit xs ys = .ok t) (ht : ∀ a ∈ t.attrs, ∃ a', σ a' = a) :
    ∃ t', fit o' limit (xs.map (keep σ)) ys = .ok t' ∧ t = t'.renumber σ ∧ ∀ (num : V → K) (r : Row V m), predict num (keep σ r) t' = predict num r t := by
  obtain ⟨t', rfl⟩ := exists_renumber σ t ht
  exact ⟨t', generate_drop hσ.injective ho xs limit _ _ xs ys t' (finRange_kept hσ) h, rfl, fun num r => (predict_renumber σ num r t').symm⟩

/-- C298 (Gini or entropy, any impurity): leaving out columns that the tree asks nothing about gives the same tree, with the same answers to all rows. -/
theorem C298_criterion {σ : Fin m' → Fin m} (hσ : StrictMono σ) (imp : List Int → K) (num : V → K) (isCont : List V → Bool) (maj : List Int → Option Int) (fl : K → K)
    (limit : Nat) (xs : List (Row V m)) (ys : List Int) (t : Tree V K m) (h : fit (criterionOracle imp num isCont maj fl) limit xs ys = .ok t)
    (ht : ∀ a ∈ t.attrs, ∃ a', σ a' = a) :
    ∃ t', fit (criterionOracle imp num isCont maj fl) limit (xs.map (keep σ)) ys = .ok t' ∧ t = t'.renumber σ ∧
      ∀ r : Row V m, predict num (keep σ r) t' = predict num r t := by
  obtain ⟨t', h1, h2, h3⟩ := fit_drop hσ (criterion_drop hσ.injective imp num isCont maj fl) limit xs ys t h ht
  exact ⟨t', h1, h2, h3 num⟩

/-- C298 (information gain). -/
theorem C298_gain {σ : Fin m' → Fin m} (hσ : StrictMono σ) (imp : List Int → K) (num : V → K) (isCont : List V → Bool) (maj : List Int → Option Int) (fl : K → K)
    (limit : Nat) (xs : List (Row V m)) (ys : List Int) (t : Tree V K m) (h : fit (gainOracle imp num isCont maj fl) limit xs ys = .ok t)
    (ht : ∀ a ∈ t.attrs, ∃ a', σ a' = a) :
    ∃ t', fit (gainOracle imp num isCont maj fl) limit (xs.map (keep σ)) ys = .ok t' ∧ t = t'.renumber σ ∧
      ∀ r : Row V m, predict num (keep σ r) t' = predict num r t := by
  obtain ⟨t', h1, h2, h3⟩ := fit_drop hσ (gain_drop hσ.injective imp num isCont maj fl) limit xs ys t h ht
  exact ⟨t', h1, h2, h3 num⟩

/-- C298: leaving out one column `a`. -/
theorem C298_one_column {n : Nat} (a : Fin (n + 1)) (imp : List Int → K) (num : V → K) (isCont : List V → Bool) (maj : List Int → Option Int) (fl : K → K)
    (limit : Nat) (xs : List (Row V (n + 1))) (ys : List Int) (t : Tree V K (n + 1)) (h : fit (criterionOracle imp num isCont maj fl) limit xs ys = .ok t)
    (ht : a ∉ t.attrs) :
    ∃ t', fit (criterionOracle imp num isCont maj fl) limit (xs.map fun r j => r (a.succAbove j)) ys = .ok t' ∧
      ∀ r : Row V (n + 1), predict num (fun j => r (a.succAbove j)) t' = predict num r t := by
  obtain ⟨t', h1, -, h3⟩ := C298_criterion (Fin.strictMono_succAbove a) imp num isCont maj fl limit xs ys t h fun b hb =>
    Fin.exists_succAbove_eq (fun e => ht (e ▸ hb))
  exact ⟨t', h1, h3⟩

/-- A table of two columns whose tree asks about the second only: leaving out the first gives the tree with the same answers. -/
example : (fit (criterionOracle (K := ℚ) gini id (fun _ => true) firstMax id) 10 [![1/2, (1/2 : ℚ)], ![5/2, 3/2], ![1/2, 5/2], ![5/2, 7/2]] [0, 0, 1, 1]).map (Tree.attrs (V := ℚ) (K := ℚ)) = .ok [(1 : Fin 2)] ∧
    (fit (criterionOracle (K := ℚ) gini id (fun _ => true) firstMax id) 10 ([![1/2, (1/2 : ℚ)], ![5/2, 3/2], ![1/2, 5/2], ![5/2, 7/2]].map fun (r : Row ℚ 2) j => r ((0 : Fin 2).succAbove j)) [0, 0, 1, 1]).map
      (predict id ![(3 : ℚ)]) = .ok (.ok 1) := by
  decide +kernel

/-- Leaving out a column that the tree does ask about changes the answers. -/
example : (fit (criterionOracle (K := ℚ) gini id (fun _ => true) firstMax id) 10 [![1/2, (1/2 : ℚ)], ![5/2, 3/2], ![1/2, 5/2], ![5/2, 7/2]] [0, 0, 1, 1]).map (predict id ![(0 : ℚ), 3]) = .ok (.ok 1) ∧
    (fit (criterionOracle (K := ℚ) gini id (fun _ => true) firstMax id) 10 ([![1/2, (1/2 : ℚ)], ![5/2, 3/2], ![1/2, 5/2], ![5/2, 7/2]].map fun (r : Row ℚ 2) j => r ((1 : Fin 2).succAbove j)) [0, 0, 1, 1]).map
      (predict id ![(0 : ℚ)]) ≠ .ok (.ok 1) := by
  decide +kernel

end CML.DTree
