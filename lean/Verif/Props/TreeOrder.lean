import Verif.Spec.TreeOrder
import Verif.Props.TreeDrop

set_option linter.unusedSectionVars false

/-! # Property C342: decision trees and the order of the attributes -/

namespace CML.DTree

universe u w
variable {V : Type u} {K : Type w} {m m' : Nat} [DecidableEq V] [LinearOrder K] [Field K]

/-- What is used of the choice of the attribute: a strictly best attribute is chosen in any order of the columns. -/
structure OraclePerm (σ : Fin m' → Fin m) (best : List (Fin m) → List (Row V m) → List Int → Fin m → Prop) (o : Oracle V K m) (o' : Oracle V K m') : Prop where
  maj : o'.maj = o.maj
  num : o'.num = o.num
  fl : o'.fl = o.fl
  mem : ∀ (cols : List (Fin m)) (xs : List (Row V m)) (ys : List Int) (a : Fin m) (p : Option K), o.split cols xs ys = some (a, p) → a ∈ cols
  split : ∀ (cols : List (Fin m)) (cols' : List (Fin m')) (xs : List (Row V m)) (ys : List Int) (a : Fin m') (p : Option K),
    (cols'.map σ).Perm cols → best cols xs ys (σ a) → o.split cols xs ys = some (σ a, p) → o'.split cols' (xs.map (keep σ)) ys = some (a, p)

/-- A forest that is a renumbered one was generated from renumbered trees, of which something is known. -/
theorem genForest_perm (σ : Fin m' → Fin m) (imp : List Int → K) (num : V → K) (isCont : List V → Bool) (cols : List (Fin m)) (xs : List (Row V m)) (ys : List Int) (a : Fin m)
    (gen : V → Except PyErr (Tree V K m)) (gen' : V → Except PyErr (Tree V K m'))
    (h : ∀ v t', NoTies imp num isCont (cols.filter fun c => c ≠ a) (xs.filter fun r => decide (r a = v))
      (if selY (fun r => decide (r a = v)) xs ys = [] then ys else selY (fun r => decide (r a = v)) xs ys) (Tree.renumber σ t') → gen v = .ok (Tree.renumber σ t') → gen' v = .ok t') :
    ∀ (vs : List V) (f' : Forest V K m'), NoTiesIn imp num isCont cols xs ys a (f'.renumber σ) → genForest gen vs = .ok (f'.renumber σ) → genForest gen' vs = .ok f'
  | [], f', _, hf => by
    simp only [genForest, Except.ok.injEq] at hf ⊢
    cases f' with
    | nil => rfl
    | cons v t r => simp [Forest.renumber] at hf
  | v :: vs, f', hn, hf => by
    rw [genForest] at hf
    split at hf
    · cases hf
    · rename_i t ht
      split at hf
      · cases hf
      · rename_i r hr
        simp only [Except.ok.injEq] at hf
        cases f' with
        | nil => simp [Forest.renumber] at hf
        | cons w t' r' =>
          simp only [Forest.renumber, Forest.cons.injEq] at hf
          obtain ⟨rfl, rfl, rfl⟩ := hf
          simp only [Forest.renumber, NoTiesIn] at hn
          rw [genForest, h _ _ hn.1 ht]
          dsimp only
          rw [genForest_perm σ imp num isCont cols xs ys a gen gen' h vs r' hn.2 hr]

theorem generate_perm {σ : Fin m' → Fin m} (hσ : Function.Injective σ) {imp : List Int → K} {isCont : List V → Bool} {o : Oracle V K m} {o' : Oracle V K m'}
    (ho : OraclePerm σ (StrictlyBest imp o.num isCont) o o') (full : List (Row V m)) :
    ∀ (fuel : Nat) (cols : List (Fin m)) (cols' : List (Fin m')) (xs : List (Row V m)) (ys : List Int) (t' : Tree V K m'),
    (cols'.map σ).Perm cols → NoTies imp o.num isCont cols xs ys (t'.renumber σ) → generate o full fuel cols xs ys = .ok (t'.renumber σ) →
    generate o' (full.map (keep σ)) fuel cols' (xs.map (keep σ)) ys = .ok t' := by
  intro fuel
  induction fuel with
  | zero => intro cols cols' xs ys t' _ _ h; cases h
  | succ fuel ih =>
    intro cols cols' xs ys t' hc hn h
    have h0 := h
    rcases generate_cases h with ⟨c, hcy, h1, ht⟩ | ⟨c, he, h1, hm, ht⟩ | ⟨a, t₀, g, l, hx, hcs, hs, hg, hl, ht⟩ | ⟨a, br, hx, hcs, hs, hbr, ht⟩
    · cases t' with
      | leaf c' =>
        simp only [Tree.renumber, Tree.leaf.injEq] at ht
        subst ht
        simp only [generate, if_pos h1] at h0 ⊢
        cases ys with
        | nil => cases h0
        | cons d ys =>
          simp only [Tree.renumber, Except.ok.injEq, Tree.leaf.injEq] at h0
          simp [h0]
      | cont => simp [Tree.renumber] at ht
      | disc => simp [Tree.renumber] at ht
    · cases t' with
      | leaf c' =>
        simp only [Tree.renumber, Tree.leaf.injEq] at ht
        subst ht
        have he' : xs.map (keep σ) = [] ∨ cols' = [] := by
          rcases he with he | he
          · exact .inl (by simp [he])
          · right
            rw [he] at hc
            exact List.map_eq_nil_iff.1 hc.eq_nil
        simp only [generate]
        rw [if_neg h1, if_pos he', ho.maj, hm]
      | cont => simp [Tree.renumber] at ht
      | disc => simp [Tree.renumber] at ht
    · cases t' with
      | leaf => simp [Tree.renumber] at ht
      | disc => simp [Tree.renumber] at ht
      | cont a' t nl hh g' l' =>
        simp only [Tree.renumber, NoTies] at hn
        simp only [Tree.renumber, Tree.cont.injEq] at ht
        obtain ⟨rfl, rfl, hnl, hht, rfl, rfl⟩ := ht
        have hs' := ho.split cols cols' xs ys a' (some t₀) hc hn.1 hs
        have h1 : (pyUnique ys).length ≠ 1 := by
          intro h1
          simp only [generate, if_pos h1] at h0
          cases ys with
          | nil => cases h0
          | cons d ys => simp [Tree.renumber] at h0
        have hcols' : ¬ (xs.map (keep σ) = [] ∨ cols' = []) := by
          rintro (h2 | h2)
          · exact hx (List.map_eq_nil_iff.1 h2)
          · rw [h2] at hc
            exact hcs hc.symm.eq_nil
        have ig := ih cols cols' _ _ g' hc hn.2.1 hg
        have il := ih cols cols' _ _ l' hc hn.2.2 hl
        simp only [generate]
        rw [if_neg h1, if_neg hcols', hs']
        simp only [ho.fl, ho.num, filter_keep, selY_keep]
        have e1 : ∀ r : Row V m, keep σ r a' = r (σ a') := fun _ => rfl
        simp only [e1]
        rw [ig, il]
        simp only [renumber_nl, renumber_ht] at hnl hht
        simp [hnl, hht]
    · cases t' with
      | leaf => simp [Tree.renumber] at ht
      | cont => simp [Tree.renumber] at ht
      | disc a' nl hh br' =>
        simp only [Tree.renumber, NoTies] at hn
        simp only [Tree.renumber, Tree.disc.injEq] at ht
        obtain ⟨rfl, hnl, hht, rfl⟩ := ht
        have hs' := ho.split cols cols' xs ys a' none hc hn.1 hs
        have h1 : (pyUnique ys).length ≠ 1 := by
          intro h1
          simp only [generate, if_pos h1] at h0
          cases ys with
          | nil => cases h0
          | cons d ys => simp [Tree.renumber] at h0
        have hcols' : ¬ (xs.map (keep σ) = [] ∨ cols' = []) := by
          rintro (h2 | h2)
          · exact hx (List.map_eq_nil_iff.1 h2)
          · rw [h2] at hc
            exact hcs hc.symm.eq_nil
        have hsub : ((cols'.filter fun c => c ≠ a').map σ).Perm (cols.filter fun c => c ≠ σ a') := by
          have := hc.filter (fun c => c ≠ σ a')
          rw [List.filter_map] at this
          refine (List.Perm.of_eq ?_).trans this
          congr 1
          refine List.filter_congr fun c _ => ?_
          simp [hσ.eq_iff]
        have hf := genForest_perm σ imp o.num isCont cols xs ys (σ a') _ (fun v =>
            if selY (fun r => decide (r a' = v)) (xs.map (keep σ)) ys = [] then
              generate o' (full.map (keep σ)) fuel (cols'.filter fun c => c ≠ a') ((xs.map (keep σ)).filter fun r => decide (r a' = v)) ys
            else generate o' (full.map (keep σ)) fuel (cols'.filter fun c => c ≠ a') ((xs.map (keep σ)).filter fun r => decide (r a' = v))
              (selY (fun r => decide (r a' = v)) (xs.map (keep σ)) ys)) (fun v t' hv' hv => by
            simp only [filter_keep, selY_keep]
            have e1 : ∀ r : Row V m, keep σ r a' = r (σ a') := fun _ => rfl
            simp only [e1]
            by_cases he : selY (fun r => decide (r (σ a') = v)) xs ys = []
            · rw [if_pos he] at hv hv' ⊢
              exact ih _ _ _ _ _ hsub hv' hv
            · rw [if_neg he] at hv hv' ⊢
              exact ih _ _ _ _ _ hsub hv' hv) _ br' hn.2 hbr
        rw [← column_keep σ full a'] at hf
        simp only [generate]
        rw [if_neg h1, if_neg hcols', hs']
        dsimp only
        rw [hf]
        dsimp only
        rw [hnl, hht, sumLeaves_renumber, maxHeight_renumber]

theorem minLoop_perm {A B : Type*} (σ : B → A) (hσ : Function.Injective σ) (value : A → WithTop K × Option (Option K)) (value' : B → WithTop K × Option (Option K))
    (hv : ∀ b, value' b = value (σ b)) (l : List A) (l' : List B) (hl : (l'.map σ).Perm l) (b : B) (hb : ∀ c ∈ l, c ≠ σ b → (value (σ b)).1 < (value c).1)
    (q : WithTop K × Option (Option K)) (h : minLoop value l (none, ⊤, none) = (some (σ b), q)) : minLoop value' l' (none, ⊤, none) = (some b, q) := by
  have hbl := hl.mem_iff.2 (minLoop_mem value l _ _ h)
  obtain ⟨b', hbl', e⟩ := List.mem_map.1 hbl
  obtain rfl := hσ e
  rcases minLoop_spec value l (none, ⊤, none) with ⟨h1, -⟩ | ⟨pre, a, post, rfl, h1, h2, -, -⟩
  · rw [h1] at h; cases h
  rw [h1] at h
  simp only [Prod.mk.injEq, Option.some.injEq] at h
  obtain ⟨rfl, rfl⟩ := h
  rcases minLoop_spec value' l' (none, ⊤, none) with ⟨g1, g2⟩ | ⟨pre', a', post', rfl, g1, g2, g3, g4⟩
  · have := g2 b' hbl'
    rw [hv] at this
    exact absurd h2 (not_lt.2 this)
  · by_cases hab : a' = b'
    · rw [g1, hab, hv]
    · have h3 := hb (σ a') (hl.mem_iff.1 (List.mem_map.2 ⟨a', by simp, rfl⟩)) (fun e => hab (hσ e))
      rw [← hv, ← hv] at h3
      rcases List.mem_append.1 hbl' with h4 | h4
      · exact absurd h3 (not_lt.2 (g3 b' h4).le)
      · rcases List.mem_cons.1 h4 with h4 | h4
        · exact absurd h4.symm hab
        · exact absurd h3 (not_lt.2 (g4 b' h4))

theorem maxLoop_perm {A B : Type*} (σ : B → A) (hσ : Function.Injective σ) (value : A → WithBot K × Option (Option K)) (value' : B → WithBot K × Option (Option K))
    (hv : ∀ b, value' b = value (σ b)) (l : List A) (l' : List B) (hl : (l'.map σ).Perm l) (b : B) (hb : ∀ c ∈ l, c ≠ σ b → (value c).1 < (value (σ b)).1)
    (q : WithBot K × Option (Option K)) (h : maxLoop value l (none, ⊥, none) = (some (σ b), q)) : maxLoop value' l' (none, ⊥, none) = (some b, q) := by
  have hbl := hl.mem_iff.2 (maxLoop_mem value l _ _ h)
  obtain ⟨b', hbl', e⟩ := List.mem_map.1 hbl
  obtain rfl := hσ e
  rcases maxLoop_spec value l (none, ⊥, none) with ⟨h1, -⟩ | ⟨pre, a, post, rfl, h1, h2, -, -⟩
  · rw [h1] at h; cases h
  rw [h1] at h
  simp only [Prod.mk.injEq, Option.some.injEq] at h
  obtain ⟨rfl, rfl⟩ := h
  rcases maxLoop_spec value' l' (none, ⊥, none) with ⟨g1, g2⟩ | ⟨pre', a', post', rfl, g1, g2, g3, g4⟩
  · have := g2 b' hbl'
    rw [hv] at this
    exact absurd h2 (not_lt.2 this)
  · by_cases hab : a' = b'
    · rw [g1, hab, hv]
    · have h3 := hb (σ a') (hl.mem_iff.1 (List.mem_map.2 ⟨a', by simp, rfl⟩)) (fun e => hab (hσ e))
      rw [← hv, ← hv] at h3
      rcases List.mem_append.1 hbl' with h4 | h4
      · exact absurd h3 (not_lt.2 (g3 b' h4).le)
      · rcases List.mem_cons.1 h4 with h4 | h4
        · exact absurd h4.symm hab
        · exact absurd h3 (not_lt.2 (g4 b' h4))

variable [IsStrictOrderedRing K]

theorem criterion_perm {σ : Fin m' → Fin m} (hσ : Function.Injective σ) (imp : List Int → K) (num : V → K) (isCont : List V → Bool) (maj : List Int → Option Int) (fl : K → K) :
    OraclePerm σ (StrictlyBest imp num isCont) (criterionOracle imp num isCont maj fl) (criterionOracle imp num isCont maj fl) where
  maj := rfl
  num := rfl
  fl := rfl
  mem := (criterion_drop hσ imp num isCont maj fl).mem
  split cols cols' xs ys a p hc hb h := by
    rw [criterion_split] at h
    obtain ⟨q, hq, hb'⟩ := answer_some (r := optimalDivision imp num isCont cols xs ys) h
    have := minLoop_perm σ hσ (fun a : Fin m => getValue imp num (isCont (xs.map fun r : Row V m => r a)) (xs.map fun r : Row V m => r a) ys)
      (fun a : Fin m' => getValue imp num (isCont ((xs.map (keep σ)).map fun r : Row V m' => r a)) ((xs.map (keep σ)).map fun r : Row V m' => r a) ys) (fun b => by simp only [column_keep])
      cols cols' hc a (fun c hc hca => hb c hc hca _ _ (getValue_spec imp num _ _ _) (getValue_spec imp num _ _ _)) q hq
    rw [criterion_split]
    rw [show optimalDivision imp num isCont cols' (xs.map (keep σ)) ys = (some a, q) from this]
    exact hb' a

theorem gainOf_lt {H : K} {v w : WithTop K} (h : v < w) : gainOf H w < gainOf H v := by
  cases v with
  | top => exact absurd h (not_lt.2 le_top)
  | coe v =>
    cases w with
    | top => exact WithBot.bot_lt_coe _
    | coe w =>
      have : v < w := by simpa using h
      simp only [gainOf]
      exact WithBot.coe_lt_coe.2 (by linarith)

theorem gain_perm {σ : Fin m' → Fin m} (hσ : Function.Injective σ) (imp : List Int → K) (num : V → K) (isCont : List V → Bool) (maj : List Int → Option Int) (fl : K → K) :
    OraclePerm σ (StrictlyBest imp num isCont) (gainOracle imp num isCont maj fl) (gainOracle imp num isCont maj fl) where
  maj := rfl
  num := rfl
  fl := rfl
  mem := (gain_drop hσ imp num isCont maj fl).mem
  split cols cols' xs ys a p hc hb h := by
    rw [gain_split] at h
    obtain ⟨q, hq, hb'⟩ := answer_some (r := gainDivision imp num isCont cols xs ys) h
    have := maxLoop_perm σ hσ (fun a : Fin m => (gainOf (imp ys) (getValue imp num (isCont (xs.map fun r : Row V m => r a)) (xs.map fun r : Row V m => r a) ys).1,
        (getValue imp num (isCont (xs.map fun r : Row V m => r a)) (xs.map fun r : Row V m => r a) ys).2))
      (fun a : Fin m' => (gainOf (imp ys) (getValue imp num (isCont ((xs.map (keep σ)).map fun r : Row V m' => r a)) ((xs.map (keep σ)).map fun r : Row V m' => r a) ys).1,
        (getValue imp num (isCont ((xs.map (keep σ)).map fun r : Row V m' => r a)) ((xs.map (keep σ)).map fun r : Row V m' => r a) ys).2)) (fun b => by simp only [column_keep])
      cols cols' hc a (fun c hc hca => gainOf_lt (hb c hc hca _ _ (getValue_spec imp num _ _ _) (getValue_spec imp num _ _ _))) q hq
    rw [gain_split]
    rw [show gainDivision imp num isCont cols' (xs.map (keep σ)) ys = (some a, q) from this]
    exact hb' a

theorem perm_columns (e : Equiv.Perm (Fin m)) : ((List.finRange m).map e).Perm (List.finRange m) := by
  rw [List.perm_ext_iff_of_nodup ((List.nodup_finRange m).map e.injective) (List.nodup_finRange m)]
  intro a
  simp only [List.mem_map, List.mem_finRange, true_and, iff_true]
  exact e.surjective a

theorem fit_perm (e : Equiv.Perm (Fin m)) {imp : List Int → K} {isCont : List V → Bool} {o : Oracle V K m} (ho : OraclePerm e (StrictlyBest imp o.num isCont) o o)
    (limit : Nat) (xs : List (Row V m)) (ys : List Int) (t : Tree V K m) (h : fit o limit xs ys = .ok t) (hn : NoTies imp o.num isCont (List.finRange m) xs ys t) :
    ∃ t', fit o limit (xs.map fun r j => r (e j)) ys = .ok t' ∧ t = t'.renumber e ∧ ∀ r : Row V m, predict o.num (fun j => r (e j)) t' = predict o.num r t := by
  obtain ⟨t', rfl⟩ := exists_renumber e t fun a _ => e.surjective a
  exact ⟨t', generate_perm e.injective ho xs limit _ _ xs ys t' (perm_columns e) hn h, rfl, fun r => (predict_renumber e o.num r t').symm⟩

/-- **C342** (Gini index and the other impurities): if no question of the fitted tree was tied with another attribute, then fitting on the same data with the attributes in any other
order gives the same tree with the attributes renumbered, and the same answers. Missing: trees with ties (`C342_violated`). -/
theorem C342_criterion_partial (e : Equiv.Perm (Fin m)) (imp : List Int → K) (num : V → K) (isCont : List V → Bool) (maj : List Int → Option Int) (fl : K → K) (limit : Nat)
    (xs : List (Row V m)) (ys : List Int) (t : Tree V K m) (h : fit (criterionOracle imp num isCont maj fl) limit xs ys = .ok t)
    (hn : NoTies imp num isCont (List.finRange m) xs ys t) :
    ∃ t', fit (criterionOracle imp num isCont maj fl) limit (xs.map fun r j => r (e j)) ys = .ok t' ∧ t = t'.renumber e ∧
      ∀ r : Row V m, predict num (fun j => r (e j)) t' = predict num r t :=
  fit_perm e (o := criterionOracle imp num isCont maj fl) (criterion_perm e.injective imp num isCont maj fl) limit xs ys t h hn

/-- **C342** (information gain). -/
theorem C342_gain_partial (e : Equiv.Perm (Fin m)) (imp : List Int → K) (num : V → K) (isCont : List V → Bool) (maj : List Int → Option Int) (fl : K → K) (limit : Nat)
    (xs : List (Row V m)) (ys : List Int) (t : Tree V K m) (h : fit (gainOracle imp num isCont maj fl) limit xs ys = .ok t)
    (hn : NoTies imp num isCont (List.finRange m) xs ys t) :
    ∃ t', fit (gainOracle imp num isCont maj fl) limit (xs.map fun r j => r (e j)) ys = .ok t' ∧ t = t'.renumber e ∧
      ∀ r : Row V m, predict num (fun j => r (e j)) t' = predict num r t :=
  fit_perm e (o := gainOracle imp num isCont maj fl) (gain_perm e.injective imp num isCont maj fl) limit xs ys t h hn

/-- **C342** is false of trees with ties: two attributes that separate the samples equally well, and a new row on which they disagree. The first column decides. -/
theorem C342_violated :
    (fit (criterionOracle (K := ℚ) gini id (fun _ => false) firstMax id) 10 [![0, 0], ![1, (1 : ℚ)]] [0, 1]).map (predict id ![(0 : ℚ), 1]) = .ok (.ok 0) ∧
    (fit (criterionOracle (K := ℚ) gini id (fun _ => false) firstMax id) 10 ([![0, 0], ![1, (1 : ℚ)]].map fun (r : Row ℚ 2) j => r (Equiv.swap 0 1 j)) [0, 1]).map
      (predict id fun j => ![(0 : ℚ), 1] (Equiv.swap 0 1 j)) = .ok (.ok 1) ∧
    (fit (gainOracle (K := ℚ) gini id (fun _ => true) firstMax id) 10 [![0, 0], ![1, (1 : ℚ)]] [0, 1]).map (predict id ![(0 : ℚ), 1]) = .ok (.ok 0) ∧
    (fit (gainOracle (K := ℚ) gini id (fun _ => true) firstMax id) 10 ([![0, 0], ![1, (1 : ℚ)]].map fun (r : Row ℚ 2) j => r (Equiv.swap 0 1 j)) [0, 1]).map
      (predict id fun j => ![(0 : ℚ), 1] (Equiv.swap 0 1 j)) = .ok (.ok 1) := by
  decide +kernel

/-- The criterion is determined by its description. -/
theorem isCriterion_unique {imp : List Int → K} {num : V → K} {b : Bool} {D : List V} {y : List Int} {r r' : WithTop K × Option (Option K)}
    (h : IsCriterion imp num b D y r) (h' : IsCriterion imp num b D y r') : r.1 = r'.1 := by
  cases b with
  | true =>
    simp only [IsCriterion, if_true] at h h'
    rcases h with ⟨h1, rfl⟩ | ⟨t, h1, rfl, h2⟩
    · rcases h' with ⟨-, rfl⟩ | ⟨s, h3, -⟩
      · rfl
      · exact absurd h3 (h1 s)
    · rcases h' with ⟨h3, -⟩ | ⟨s, h3, rfl, h4⟩
      · exact absurd h1 (h3 t)
      · exact congrArg (fun v : K => (v : WithTop K)) (le_antisymm (h2 s h3) (h4 t h1))
  | false =>
    simp only [IsCriterion, Bool.false_eq_true, if_false] at h h'
    obtain ⟨vs, n1, m1, rfl⟩ := h
    obtain ⟨ws, n2, m2, rfl⟩ := h'
    have hp : vs.Perm ws := (List.perm_ext_iff_of_nodup n1 n2).2 fun v => (m1 v).trans (m2 v).symm
    simp only [partitionCost, List.map_map]
    exact congrArg _ ((hp.map _).sum_eq)

/-! ## The first question, with or without ties -/

theorem generate_root {o : Oracle V K m} {full : List (Row V m)} {fuel : Nat} {cols : List (Fin m)} {xs : List (Row V m)} {ys : List Int} {t : Tree V K m}
    (h : generate o full fuel cols xs ys = .ok t) :
    (((pyUnique ys).length = 1 ∨ xs = [] ∨ cols = []) ∧ t.root = none) ∨
    (¬ ((pyUnique ys).length = 1 ∨ xs = [] ∨ cols = []) ∧ ∃ a p, t.root = some a ∧ o.split cols xs ys = some (a, p)) := by
  cases fuel with
  | zero => cases h
  | succ fuel =>
    have h0 := h
    have key : ∀ {a : Fin m}, t.root = some a → (pyUnique ys).length ≠ 1 := by
      intro a ha h1
      simp only [generate, if_pos h1] at h0
      cases ys with
      | nil => cases h0
      | cons d ys =>
        simp only [Except.ok.injEq] at h0
        subst h0
        simp [Tree.root] at ha
    rcases generate_cases h with ⟨c, -, h1, rfl⟩ | ⟨c, he, -, -, rfl⟩ | ⟨a, t₀, g, l, hx, hcs, hs, -, -, rfl⟩ | ⟨a, br, hx, hcs, hs, -, rfl⟩
    · exact .inl ⟨.inl h1, rfl⟩
    · exact .inl ⟨.inr he, rfl⟩
    · exact .inr ⟨by rintro (h1 | h1 | h1); exacts [key rfl h1, hx h1, hcs h1], a, _, rfl, hs⟩
    · exact .inr ⟨by rintro (h1 | h1 | h1); exacts [key rfl h1, hx h1, hcs h1], a, _, rfl, hs⟩

/-- The attribute of the first question has the least criterion of all attributes. -/
def BestAttribute (imp : List Int → K) (num : V → K) (isCont : List V → Bool) (xs : List (Row V m)) (ys : List Int) (a : Fin m) : Prop :=
  ∀ c, (getValue imp num (isCont (xs.map fun r : Row V m => r a)) (xs.map fun r : Row V m => r a) ys).1 ≤
    (getValue imp num (isCont (xs.map fun r : Row V m => r c)) (xs.map fun r : Row V m => r c) ys).1

theorem criterion_best (imp : List Int → K) (num : V → K) (isCont : List V → Bool) (maj : List Int → Option Int) (fl : K → K) (xs : List (Row V m)) (ys : List Int) (a : Fin m) (p : Option K)
    (h : (criterionOracle imp num isCont maj fl).split (List.finRange m) xs ys = some (a, p)) : BestAttribute imp num isCont xs ys a := by
  rw [criterion_split] at h
  obtain ⟨q, hq, -⟩ := answer_some (r := optimalDivision imp num isCont (List.finRange m) xs ys) h
  have hq' : minLoop (fun a : Fin m => getValue imp num (isCont (xs.map fun r : Row V m => r a)) (xs.map fun r : Row V m => r a) ys) (List.finRange m) (none, ⊤, none) = (some a, q) := hq
  rcases minLoop_spec (fun a : Fin m => getValue imp num (isCont (xs.map fun r : Row V m => r a)) (xs.map fun r : Row V m => r a) ys) (List.finRange m) (none, ⊤, none) with
    ⟨h1, -⟩ | ⟨pre, b, post, hl, h1, -, h3, h4⟩
  · rw [h1] at hq'; cases hq'
  · rw [h1] at hq'
    simp only [Prod.mk.injEq, Option.some.injEq] at hq'
    obtain ⟨rfl, -⟩ := hq'
    intro c
    have hc := List.mem_finRange c
    rw [hl] at hc
    rcases List.mem_append.1 hc with hc | hc
    · exact (h3 c hc).le
    · rcases List.mem_cons.1 hc with rfl | hc
      · exact le_rfl
      · exact h4 c hc

theorem gain_best (imp : List Int → K) (num : V → K) (isCont : List V → Bool) (maj : List Int → Option Int) (fl : K → K) (xs : List (Row V m)) (ys : List Int) (a : Fin m) (p : Option K)
    (h : (gainOracle imp num isCont maj fl).split (List.finRange m) xs ys = some (a, p)) : BestAttribute imp num isCont xs ys a := by
  rw [gain_split] at h
  obtain ⟨q, hq, -⟩ := answer_some (r := gainDivision imp num isCont (List.finRange m) xs ys) h
  have hq' : maxLoop (fun a : Fin m => (gainOf (imp ys) (getValue imp num (isCont (xs.map fun r : Row V m => r a)) (xs.map fun r : Row V m => r a) ys).1,
        (getValue imp num (isCont (xs.map fun r : Row V m => r a)) (xs.map fun r : Row V m => r a) ys).2)) (List.finRange m) (none, ⊥, none) = (some a, q) := hq
  rcases maxLoop_spec (fun a : Fin m => (gainOf (imp ys) (getValue imp num (isCont (xs.map fun r : Row V m => r a)) (xs.map fun r : Row V m => r a) ys).1,
        (getValue imp num (isCont (xs.map fun r : Row V m => r a)) (xs.map fun r : Row V m => r a) ys).2)) (List.finRange m) (none, ⊥, none) with
    ⟨h1, -⟩ | ⟨pre, b, post, hl, h1, -, h3, h4⟩
  · rw [h1] at hq'; cases hq'
  · rw [h1] at hq'
    simp only [Prod.mk.injEq, Option.some.injEq] at hq'
    obtain ⟨rfl, -⟩ := hq'
    intro c
    by_contra hc'
    have hlt := gainOf_lt (H := imp ys) (not_le.1 hc')
    have hc := List.mem_finRange c
    rw [hl] at hc
    rcases List.mem_append.1 hc with hc | hc
    · exact absurd (h3 c hc) (not_lt.2 hlt.le)
    · rcases List.mem_cons.1 hc with rfl | hc
      · exact lt_irrefl _ hlt
      · exact absurd hlt (not_lt.2 (h4 c hc))

theorem root_perm (e : Equiv.Perm (Fin m)) {imp : List Int → K} {isCont : List V → Bool} {o : Oracle V K m}
    (ho : ∀ (xs : List (Row V m)) (ys : List Int) (a : Fin m) (p : Option K), o.split (List.finRange m) xs ys = some (a, p) → BestAttribute imp o.num isCont xs ys a)
    {limit limit' : Nat} {xs : List (Row V m)} {ys : List Int} {t t' : Tree V K m} (h : fit o limit xs ys = .ok t) (h' : fit o limit' (xs.map fun r j => r (e j)) ys = .ok t') :
    (t.root = none ∧ t'.root = none) ∨ ∃ a a', t.root = some a ∧ t'.root = some a' ∧
      ∀ r r', IsCriterion imp o.num (isCont (xs.map fun r => r a)) (xs.map fun r => r a) ys r →
        IsCriterion imp o.num (isCont (xs.map fun r => r (e a'))) (xs.map fun r => r (e a')) ys r' → r.1 = r'.1 := by
  rcases generate_root h with ⟨h1, h2⟩ | ⟨h1, a, p, h2, h3⟩ <;> rcases generate_root h' with ⟨g1, g2⟩ | ⟨g1, a', p', g2, g3⟩
  · exact .inl ⟨h2, g2⟩
  · exact absurd (by simpa using h1) g1
  · exact absurd (by simpa using g1) h1
  · refine .inr ⟨a, a', h2, g2, fun r r' hr hr' => ?_⟩
    rw [isCriterion_unique hr (getValue_spec imp o.num _ _ _), isCriterion_unique hr' (getValue_spec imp o.num _ _ _)]
    have b1 := ho _ _ _ _ h3
    have b2 := ho _ _ _ _ g3
    have hcol : ∀ c, ((xs.map fun (r : Row V m) j => r (e j)).map fun r : Row V m => r c) = xs.map fun r : Row V m => r (e c) := fun c => by simp [Function.comp_def]
    refine le_antisymm (b1 (e a')) ?_
    have := b2 (e.symm a)
    rw [hcol, hcol, Equiv.apply_symm_apply] at this
    exact this

/-- C342 (all impurities): with or without ties, the trees of the two orders either both ask nothing, or the attributes they ask about first have the same impurity after their best
division. -/
theorem C342_root_criterion (e : Equiv.Perm (Fin m)) (imp : List Int → K) (num : V → K) (isCont : List V → Bool) (maj : List Int → Option Int) (fl : K → K) (limit limit' : Nat)
    (xs : List (Row V m)) (ys : List Int) (t t' : Tree V K m) (h : fit (criterionOracle imp num isCont maj fl) limit xs ys = .ok t)
    (h' : fit (criterionOracle imp num isCont maj fl) limit' (xs.map fun r j => r (e j)) ys = .ok t') :
    (t.root = none ∧ t'.root = none) ∨ ∃ a a', t.root = some a ∧ t'.root = some a' ∧
      ∀ r r', IsCriterion imp num (isCont (xs.map fun r => r a)) (xs.map fun r => r a) ys r →
        IsCriterion imp num (isCont (xs.map fun r => r (e a'))) (xs.map fun r => r (e a')) ys r' → r.1 = r'.1 :=
  root_perm e (o := criterionOracle imp num isCont maj fl) (criterion_best imp num isCont maj fl) h h'

/-- C342 (information gain): the same. -/
theorem C342_root_gain (e : Equiv.Perm (Fin m)) (imp : List Int → K) (num : V → K) (isCont : List V → Bool) (maj : List Int → Option Int) (fl : K → K) (limit limit' : Nat)
    (xs : List (Row V m)) (ys : List Int) (t t' : Tree V K m) (h : fit (gainOracle imp num isCont maj fl) limit xs ys = .ok t)
    (h' : fit (gainOracle imp num isCont maj fl) limit' (xs.map fun r j => r (e j)) ys = .ok t') :
    (t.root = none ∧ t'.root = none) ∨ ∃ a a', t.root = some a ∧ t'.root = some a' ∧
      ∀ r r', IsCriterion imp num (isCont (xs.map fun r => r a)) (xs.map fun r => r a) ys r →
        IsCriterion imp num (isCont (xs.map fun r => r (e a'))) (xs.map fun r => r (e a')) ys r' → r.1 = r'.1 :=
  root_perm e (o := gainOracle imp num isCont maj fl) (gain_best imp num isCont maj fl) h h'

theorem strictlyBest_iff {imp : List Int → K} {num : V → K} {isCont : List V → Bool} {cols : List (Fin m)} {xs : List (Row V m)} {ys : List Int} {a : Fin m} :
    StrictlyBest imp num isCont cols xs ys a ↔ ∀ c ∈ cols, c ≠ a →
      (getValue imp num (isCont (xs.map fun r : Row V m => r a)) (xs.map fun r : Row V m => r a) ys).1 <
        (getValue imp num (isCont (xs.map fun r : Row V m => r c)) (xs.map fun r : Row V m => r c) ys).1 :=
  ⟨fun h c hc hca => h c hc hca _ _ (getValue_spec imp num _ _ _) (getValue_spec imp num _ _ _), fun h c hc hca _ _ ha hc' => by
    rw [isCriterion_unique ha (getValue_spec imp num _ _ _), isCriterion_unique hc' (getValue_spec imp num _ _ _)]; exact h c hc hca⟩

deriving instance DecidableEq for Tree, Forest

/-- With a tie both orders ask about their first column. -/
example : (fit (criterionOracle (K := ℚ) gini id (fun _ => false) firstMax id) 10 [![0, 0], ![1, (1 : ℚ)]] [0, 1]).map Tree.root = .ok (some 0) ∧
    (fit (gainOracle (K := ℚ) gini id (fun _ => true) firstMax id) 10 ([![0, 0], ![1, (1 : ℚ)]].map fun (r : Row ℚ 2) j => r (Equiv.swap 0 1 j)) [0, 1]).map Tree.root = .ok (some 0) := by
  decide +kernel

/-- Non-vacuity: on these samples the second attribute is strictly better than the first, and the fitted tree has no ties; the same with attributes treated as continuous. -/
example : (∃ t : Tree ℚ ℚ 2, fit (criterionOracle (K := ℚ) gini id (fun _ => false) firstMax id) 10 [![0, 0], ![1, 0], ![0, 1], ![1, (1 : ℚ)]] [0, 0, 1, 1] = .ok t ∧
      NoTies gini id (fun _ => false) (List.finRange 2) [![0, 0], ![1, 0], ![0, 1], ![1, (1 : ℚ)]] [0, 0, 1, 1] t ∧ t.attrs = [1]) ∧
    (∃ t : Tree ℚ ℚ 2, fit (gainOracle (K := ℚ) gini id (fun _ => true) firstMax id) 10 [![0, 0], ![1, 0], ![0, 1], ![1, (1 : ℚ)]] [0, 0, 1, 1] = .ok t ∧
      NoTies gini id (fun _ => true) (List.finRange 2) [![0, 0], ![1, 0], ![0, 1], ![1, (1 : ℚ)]] [0, 0, 1, 1] t ∧ t.attrs = [1]) := by
  refine ⟨⟨.disc 1 2 1 (.cons 0 (.leaf 0) (.cons 1 (.leaf 1) .nil)), by decide +kernel, ?_, by simp [Tree.attrs, Forest.attrs]⟩,
    ⟨.cont 1 (1 / 2) 2 1 (.leaf 1) (.leaf 0), by decide +kernel, ?_, by simp [Tree.attrs]⟩⟩
  · simp only [NoTies, NoTiesIn, and_true]
    rw [strictlyBest_iff]
    decide +kernel
  · simp only [NoTies, and_true]
    rw [strictlyBest_iff]
    decide +kernel

end CML.DTree
