import Verif.Props.TreeDrop

set_option linter.unusedSectionVars false

/-! # Property C321: a repeated attribute of a decision tree -/

namespace CML.DTree

universe u w
variable {V : Type u} {K : Type w} {m m' : Nat} [DecidableEq V]

/-- What is used of the choice of the attribute: with an equal column in front of it the column `b` is not chosen, and it is not chosen with a dividing
point where it is constant. -/
structure OracleTwice (a b : Fin m) (o : Oracle V K m) : Prop where
  first : ∀ (cols : List (Fin m)) (xs : List (Row V m)) (ys : List Int) (p : Option K), cols.Pairwise (· < ·) → a ∈ cols → (∀ x ∈ xs, x a = x b) →
    o.split cols xs ys ≠ some (b, p)
  flat : ∀ (cols : List (Fin m)) (xs : List (Row V m)) (ys : List Int) (t : K), (∀ x ∈ xs, ∀ y ∈ xs, x b = y b) → o.split cols xs ys ≠ some (b, some t)

/-- Branch by branch. -/
theorem genForest_twice {gen : V → Except PyErr (Tree V K m)} {gen' : V → Except PyErr (Tree V K m')} (P : V → Tree V K m → Tree V K m' → Prop) :
    ∀ (vs : List V) (f : Forest V K m), (∀ v ∈ vs, ∀ t, gen v = .ok t → ∃ t', gen' v = .ok t' ∧ P v t t') → genForest gen vs = .ok f →
    ∃ f', genForest gen' vs = .ok f' ∧ ∀ [LE K] [DecidableLE K] (num : V → K) (r : Row V m) (r' : Row V m') (v : V),
      (∀ t t', P v t t' → predict num r' t' = predict num r t) → predictIn num r' v f' = predictIn num r v f
  | [], f, _, hf => by
    simp only [genForest, Except.ok.injEq] at hf
    subst hf
    exact ⟨.nil, rfl, fun _ _ _ _ _ => by simp [predictIn]⟩
  | v :: vs, f, h, hf => by
    rw [genForest] at hf
    split at hf
    · cases hf
    · rename_i t ht
      split at hf
      · cases hf
      · rename_i rest hr
        simp only [Except.ok.injEq] at hf
        subst hf
        obtain ⟨t', h1, hP⟩ := h v (by simp) t ht
        obtain ⟨f', h2, h3⟩ := genForest_twice P vs rest (fun w hw => h w (by simp [hw])) hr
        refine ⟨.cons v t' f', by rw [genForest, h1]; dsimp only; rw [h2], ?_⟩
        intro _ _ num r r' w hw
        rw [predictIn, predictIn]
        by_cases e : w = v
        · rw [if_pos e, if_pos e]
          subst e
          exact hw t t' hP
        · rw [if_neg e, if_neg e]
          exact h3 num r r' w hw

/-- A forest generated from a list with the value `v` contains the tree of `v`. -/
theorem genForest_get {gen : V → Except PyErr (Tree V K m)} : ∀ (vs : List V) (f : Forest V K m) (v : V), v ∈ vs → genForest gen vs = .ok f →
    ∃ t, gen v = .ok t ∧ ∀ [LE K] [DecidableLE K] (num : V → K) (r : Row V m), predictIn num r v f = predict num r t
  | [], f, v, hv, _ => by cases hv
  | w :: vs, f, v, hv, hf => by
    rw [genForest] at hf
    split at hf
    · cases hf
    · rename_i t ht
      split at hf
      · cases hf
      · rename_i rest hr
        simp only [Except.ok.injEq] at hf
        subst hf
        by_cases e : v = w
        · subst e
          exact ⟨t, ht, fun num r => by rw [predictIn, if_pos rfl]⟩
        · obtain ⟨t', h1, h2⟩ := genForest_get vs rest v (by simpa [e] using hv) hr
          exact ⟨t', h1, fun num r => by rw [predictIn, if_neg e]; exact h2 num r⟩

variable [LinearOrder K]

theorem generate_twice {σ : Fin m' → Fin m} (hσ : Function.Injective σ) {a b : Fin m} (hab : a < b) (hr : ∀ c, (∃ a', σ a' = c) ↔ c ≠ b)
    {o : Oracle V K m} {o' : Oracle V K m'} (ho : OracleDrop σ o o') (h2 : OracleTwice a b o) (full : List (Row V m)) (hfull : ∀ x ∈ full, x a = x b) :
    ∀ (fuel : Nat) (cols : List (Fin m)) (cols' : List (Fin m')) (xs : List (Row V m)) (ys : List Int) (t : Tree V K m) (fuel' : Nat), fuel ≤ fuel' →
    cols.Pairwise (· < ·) → cols'.map σ = cols.filter (fun c => decide (∃ a', σ a' = c)) → (∀ x ∈ xs, x ∈ full) → (xs ≠ [] → xs.length = ys.length) →
    (a ∉ cols → ∀ x ∈ xs, ∀ y ∈ xs, x b = y b) → generate o full fuel cols xs ys = .ok t →
    ∃ t', generate o' (full.map (keep σ)) fuel' cols' (xs.map (keep σ)) ys = .ok t' ∧
      ∀ r : Row V m, r a = r b → (a ∉ cols → ∀ x ∈ xs, x b = r b) → predict o.num (keep σ r) t' = predict o.num r t := by
  intro fuel
  induction fuel with
  | zero => intro _ _ _ _ _ _ _ _ _ _ _ _ h; cases h
  | succ fuel ih =>
    intro cols cols' xs ys t fuel'' hf hp hc hx hlen hflat h
    obtain ⟨fuel', rfl⟩ : ∃ k, fuel'' = k + 1 := ⟨fuel'' - 1, by omega⟩
    have h0 := h
    rcases generate_cases h with ⟨c, hcy, h1, ht⟩ | ⟨c, he, h1, hm, ht⟩ | ⟨c, t₀, g, l, hxs, hcs, hs, hg, hl, ht⟩ | ⟨c, br, hxs, hcs, hs, hbr, ht⟩
    · subst ht
      refine ⟨.leaf c, ?_, fun r _ _ => by simp [predict]⟩
      simp only [generate, if_pos h1] at h0 ⊢
      cases ys with
      | nil => cases h0
      | cons d ys => simpa using h0
    · subst ht
      have he' : xs.map (keep σ) = [] ∨ cols' = [] := by
        rcases he with he | he
        · exact .inl (by simp [he])
        · right
          rw [he, List.filter_nil] at hc
          exact List.map_eq_nil_iff.1 hc
      refine ⟨.leaf c, ?_, fun r _ _ => by simp [predict]⟩
      simp only [generate]
      rw [if_neg h1, if_pos he', ho.maj, hm]
    · have hcb : c ≠ b := by
        rintro rfl
        by_cases ha : a ∈ cols
        · exact h2.first cols xs ys _ hp ha (fun x hx' => hfull x (hx x hx')) hs
        · exact h2.flat cols xs ys _ (hflat ha) hs
      obtain ⟨c', rfl⟩ := (hr c).2 hcb
      have hs' := ho.split cols cols' xs ys c' (some t₀) hc hs
      have h1 : (pyUnique ys).length ≠ 1 := by
        intro h1
        simp only [generate, if_pos h1] at h0
        cases ys with
        | nil => cases h0
        | cons d ys => rw [ht] at h0; simp at h0
      have hcols' : ¬ (xs.map (keep σ) = [] ∨ cols' = []) := by
        rintro (h3 | h3)
        · exact hxs (List.map_eq_nil_iff.1 h3)
        · have : σ c' ∈ cols'.map σ := by rw [hc]; exact List.mem_filter.2 ⟨ho.mem _ _ _ _ _ hs, by simp⟩
          rw [h3] at this
          cases this
      have hl' := hlen hxs
      obtain ⟨g', ig, pg⟩ := ih cols cols' _ _ g fuel' (by omega) hp hc (fun x h => hx x (List.mem_of_mem_filter h)) (fun _ => length_selY _ xs ys hl')
        (fun ha x h y h' => hflat ha x (List.mem_of_mem_filter h) y (List.mem_of_mem_filter h')) hg
      obtain ⟨l', il, pl⟩ := ih cols cols' _ _ l fuel' (by omega) hp hc (fun x h => hx x (List.mem_of_mem_filter h)) (fun _ => length_selY _ xs ys hl')
        (fun ha x h y h' => hflat ha x (List.mem_of_mem_filter h) y (List.mem_of_mem_filter h')) hl
      refine ⟨.cont c' (o.fl t₀) (g'.nl + l'.nl) (g'.ht + l'.ht + 1) g' l', ?_, ?_⟩
      · simp only [generate]
        rw [if_neg h1, if_neg hcols', hs']
        simp only [ho.fl, ho.num, filter_keep, selY_keep]
        have e1 : ∀ r : Row V m, keep σ r c' = r (σ c') := fun _ => rfl
        simp only [e1]
        rw [ig, il]
      · intro r hrab hrx
        subst ht
        have e1 : keep σ r c' = r (σ c') := rfl
        simp only [predict, e1]
        rw [pg r hrab fun ha x h => hrx ha x (List.mem_of_mem_filter h), pl r hrab fun ha x h => hrx ha x (List.mem_of_mem_filter h)]
    · have h1 : (pyUnique ys).length ≠ 1 := by
        intro h1
        simp only [generate, if_pos h1] at h0
        cases ys with
        | nil => cases h0
        | cons d ys => rw [ht] at h0; simp at h0
      have hl' := hlen hxs
      have hemp : ∀ p : Row V m → Bool, selY p xs ys = [] → xs.filter p = [] := fun p hp => by
        rw [← List.length_eq_zero_iff, length_selY p xs ys hl', hp, List.length_nil]
      by_cases hcb : c = b
      · -- the repeated column is asked about: only where it is constant
        subst hcb
        have ha : a ∉ cols := fun ha => h2.first cols xs ys _ hp ha (fun x hx' => hfull x (hx x hx')) hs
        have hconst := hflat ha
        obtain ⟨x₀, hx₀⟩ := List.exists_mem_of_ne_nil xs hxs
        have hall : ∀ x ∈ xs, decide (x c = x₀ c) = true := fun x h => by simpa using hconst x h x₀ hx₀
        have e1 : (xs.filter fun r => decide (r c = x₀ c)) = xs := List.filter_eq_self.2 hall
        have e2 : selY (fun r => decide (r c = x₀ c)) xs ys = ys := by
          unfold selY
          rw [List.filter_eq_self.2 fun q hq => hall q.1 (List.of_mem_zip hq).1, List.map_snd_zip hl'.ge]
        obtain ⟨t₁, ht₁, hpr⟩ := genForest_get _ br (x₀ c) (mem_pyUnique.2 (List.mem_map.2 ⟨x₀, hx x₀ hx₀, rfl⟩)) hbr
        rw [e1, e2, ite_self] at ht₁
        have hsub : cols'.map σ = (cols.filter fun d => d ≠ c).filter (fun d => decide (∃ a', σ a' = d)) := by
          rw [hc, List.filter_filter]
          refine List.filter_congr fun d _ => ?_
          have := hr d
          by_cases e : d = c
          · simp only [e, hr]; simp
          · simp [e]
        obtain ⟨t', i1, i2⟩ := ih _ cols' xs ys t₁ (fuel' + 1) (by omega) (hp.filter _) hsub hx hlen (fun _ => hconst) ht₁
        refine ⟨t', i1, fun r hrab hrx => ?_⟩
        subst ht
        have hrc : r c = x₀ c := (hrx ha x₀ hx₀).symm
        rw [i2 r hrab fun _ => hrx ha]
        simp only [predict]
        rw [hrc, hpr o.num r]
      · obtain ⟨c', rfl⟩ := (hr c).2 hcb
        have hs' := ho.split cols cols' xs ys c' none hc hs
        have hcols' : ¬ (xs.map (keep σ) = [] ∨ cols' = []) := by
          rintro (h3 | h3)
          · exact hxs (List.map_eq_nil_iff.1 h3)
          · have : σ c' ∈ cols'.map σ := by rw [hc]; exact List.mem_filter.2 ⟨ho.mem _ _ _ _ _ hs, by simp⟩
            rw [h3] at this
            cases this
        have hsub : (cols'.filter fun d => d ≠ c').map σ = (cols.filter fun d => d ≠ σ c').filter (fun d => decide (∃ a', σ a' = d)) := by
          rw [List.filter_comm, ← hc, List.filter_map]
          congr 1
          refine List.filter_congr fun d _ => ?_
          simp [hσ.eq_iff]
        have hcon : ∀ v, a ∉ cols.filter (fun d => d ≠ σ c') → ∀ x ∈ xs.filter (fun r => decide (r (σ c') = v)), ∀ r : Row V m, r a = r b → r (σ c') = v →
            (a ∉ cols → ∀ x ∈ xs, x b = r b) → x b = r b := by
          intro v ha x hxv r hrab hrv hrx
          have hxm := List.mem_of_mem_filter hxv
          have hxe : x (σ c') = v := by simpa using (List.mem_filter.1 hxv).2
          by_cases ha' : a ∈ cols
          · have hac : a = σ c' := by
              by_contra hne
              exact ha (List.mem_filter.2 ⟨ha', by simpa using hne⟩)
            rw [← hfull x (hx x hxm), ← hrab, hac, hxe, hrv]
          · exact hrx ha' x hxm
        have hcon2 : ∀ v, a ∉ cols.filter (fun d => d ≠ σ c') → ∀ x ∈ xs.filter (fun r => decide (r (σ c') = v)), ∀ y ∈ xs.filter (fun r => decide (r (σ c') = v)), x b = y b := by
          intro v ha x hxv y hyv
          have hym := List.mem_of_mem_filter hyv
          exact hcon v ha x hxv y (hfull y (hx y hym)) (by simpa using (List.mem_filter.1 hyv).2) fun h x hx => hflat h x hx y hym
        obtain ⟨br', h3, h4⟩ := genForest_twice
          (gen' := fun v =>
            if selY (fun r => decide (r c' = v)) (xs.map (keep σ)) ys = [] then
              generate o' (full.map (keep σ)) fuel' (cols'.filter fun c => c ≠ c') ((xs.map (keep σ)).filter fun r => decide (r c' = v)) ys
            else generate o' (full.map (keep σ)) fuel' (cols'.filter fun c => c ≠ c') ((xs.map (keep σ)).filter fun r => decide (r c' = v))
              (selY (fun r => decide (r c' = v)) (xs.map (keep σ)) ys))
          (fun v t t' => ∀ r : Row V m, r a = r b → r (σ c') = v → (a ∉ cols → ∀ x ∈ xs, x b = r b) → predict o.num (keep σ r) t' = predict o.num r t) _ br (fun v _ tv hv => by
            simp only [filter_keep, selY_keep]
            have e1 : ∀ r : Row V m, keep σ r c' = r (σ c') := fun _ => rfl
            simp only [e1]
            have hlen' : xs.filter (fun r => decide (r (σ c') = v)) ≠ [] →
                (xs.filter (fun r => decide (r (σ c') = v))).length = (selY (fun r => decide (r (σ c') = v)) xs ys).length := fun _ => length_selY _ xs ys hl'
            by_cases he : selY (fun r => decide (r (σ c') = v)) xs ys = []
            · rw [if_pos he] at hv ⊢
              obtain ⟨t', j1, j2⟩ := ih _ _ _ _ _ fuel' (by omega) (hp.filter _) hsub (fun x h => hx x (List.mem_of_mem_filter h)) (fun hn => absurd (hemp _ he) hn)
                (hcon2 v) hv
              exact ⟨t', j1, fun r hrab hrv hrx => j2 r hrab fun ha x hxv => hcon v ha x hxv r hrab hrv hrx⟩
            · rw [if_neg he] at hv ⊢
              obtain ⟨t', j1, j2⟩ := ih _ _ _ _ _ fuel' (by omega) (hp.filter _) hsub (fun x h => hx x (List.mem_of_mem_filter h)) hlen' (hcon2 v) hv
              exact ⟨t', j1, fun r hrab hrv hrx => j2 r hrab fun ha x hxv => hcon v ha x hxv r hrab hrv hrx⟩) hbr
        rw [← column_keep σ full c'] at h3
        refine ⟨.disc c' (sumLeaves br') (maxHeight (-1) br' + 1) br', ?_, ?_⟩
        · simp only [generate]
          rw [if_neg h1, if_neg hcols', hs']
          dsimp only
          rw [h3]
        · intro r hrab hrx
          subst ht
          simp only [predict]
          exact h4 o.num r (keep σ r) (r (σ c')) fun t t' hP => hP r hrab rfl hrx

/-! ## The criteria -/

variable [Field K]

theorem before_of_lt {cols pre post : List (Fin m)} {a b : Fin m} (hp : cols.Pairwise (· < ·)) (h : cols = pre ++ b :: post) (ha : a ∈ cols) (hab : a < b) : a ∈ pre := by
  subst h
  rcases List.mem_append.1 ha with h | h
  · exact h
  · rcases List.mem_cons.1 h with h | h
    · exact absurd h hab.ne
    · have := (List.pairwise_cons.1 (List.pairwise_append.1 hp).2.1).1 a h
      exact absurd this (lt_asymm hab)

theorem getValue_const (imp : List Int → K) (num : V → K) (D : List V) (y : List Int) (h : ∀ u ∈ D, ∀ v ∈ D, u = v) : (getValue imp num true D y).1 = ⊤ := by
  have hD : (pyUnique (D.map num)).length ≤ 1 := by
    by_cases hne : D.map num = []
    · simp [hne, pyUnique]
    · exact le_of_eq (pyUnique_length_of_const hne fun u hu v hv => by
        obtain ⟨u', hu', rfl⟩ := List.mem_map.1 hu
        obtain ⟨v', hv', rfl⟩ := List.mem_map.1 hv
        rw [h u' hu' v' hv'])
  have hlen : ((pyUnique (D.map num)).insertionSort (· ≤ ·)).length ≤ 1 := by rw [List.length_insertionSort]; exact hD
  simp only [getValue, if_true]
  match (pyUnique (D.map num)).insertionSort (· ≤ ·), hlen with
  | [], _ => rfl
  | [_], _ => rfl

theorem criterion_twice {a b : Fin m} (hab : a < b) (imp : List Int → K) (num : V → K) (isCont : List V → Bool) (maj : List Int → Option Int) (fl : K → K) :
    OracleTwice a b (criterionOracle imp num isCont maj fl) where
  first cols xs ys p hp ha he h := by
    rw [criterion_split] at h
    obtain ⟨q, hq, -⟩ := answer_some (r := optimalDivision imp num isCont cols xs ys) h
    have hcol : (xs.map fun r : Row V m => r b) = xs.map fun r : Row V m => r a := List.map_congr_left fun x hx => (he x hx).symm
    rcases minLoop_spec (fun a : Fin m => getValue imp num (isCont (xs.map fun r : Row V m => r a)) (xs.map fun r : Row V m => r a) ys) cols (none, ⊤, none) with
      ⟨h1, -⟩ | ⟨pre, c, post, hl, h1, -, h3, -⟩
    · rw [optimalDivision, h1] at hq; cases hq
    · rw [optimalDivision, h1] at hq
      simp only [Prod.mk.injEq, Option.some.injEq] at hq
      obtain ⟨rfl, -⟩ := hq
      have := h3 a (before_of_lt hp hl ha hab)
      rw [hcol] at this
      exact lt_irrefl _ this
  flat cols xs ys t he h := by
    rw [criterion_split] at h
    rcases minLoop_spec (fun a : Fin m => getValue imp num (isCont (xs.map fun r : Row V m => r a)) (xs.map fun r : Row V m => r a) ys) cols (none, ⊤, none) with
      ⟨h1, -⟩ | ⟨pre, c, post, hl, h1, hlt, -, -⟩
    · rw [optimalDivision, h1] at h; cases h
    · rw [optimalDivision, h1] at h
      have hc : isCont (xs.map fun r : Row V m => r c) = true := by
        by_contra hn
        simp only [hn, getValue, answer, if_false] at h
        cases h
      simp only [hc] at h hlt
      have hcb : c = b := by
        obtain ⟨q, hq, -⟩ := answer_some h
        simp only [Prod.mk.injEq, Option.some.injEq] at hq
        exact hq.1
      subst hcb
      rw [getValue_const imp num _ ys (by simpa using fun x hx y hy => he x hx y hy)] at hlt
      exact lt_irrefl _ hlt

theorem gain_twice {a b : Fin m} (hab : a < b) (imp : List Int → K) (num : V → K) (isCont : List V → Bool) (maj : List Int → Option Int) (fl : K → K) :
    OracleTwice a b (gainOracle imp num isCont maj fl) where
  first cols xs ys p hp ha he h := by
    rw [gain_split] at h
    obtain ⟨q, hq, -⟩ := answer_some (r := gainDivision imp num isCont cols xs ys) h
    have hcol : (xs.map fun r : Row V m => r b) = xs.map fun r : Row V m => r a := List.map_congr_left fun x hx => (he x hx).symm
    rcases maxLoop_spec (fun a : Fin m => (gainOf (imp ys) (getValue imp num (isCont (xs.map fun r : Row V m => r a)) (xs.map fun r : Row V m => r a) ys).1,
        (getValue imp num (isCont (xs.map fun r : Row V m => r a)) (xs.map fun r : Row V m => r a) ys).2)) cols (none, ⊥, none) with
      ⟨h1, -⟩ | ⟨pre, c, post, hl, h1, -, h3, -⟩
    · simp only [gainDivision] at hq; rw [h1] at hq; cases hq
    · simp only [gainDivision] at hq
      rw [h1] at hq
      simp only [Prod.mk.injEq, Option.some.injEq] at hq
      obtain ⟨rfl, -⟩ := hq
      have := h3 a (before_of_lt hp hl ha hab)
      rw [hcol] at this
      exact lt_irrefl _ this
  flat cols xs ys t he h := by
    rw [gain_split] at h
    rcases maxLoop_spec (fun a : Fin m => (gainOf (imp ys) (getValue imp num (isCont (xs.map fun r : Row V m => r a)) (xs.map fun r : Row V m => r a) ys).1,
        (getValue imp num (isCont (xs.map fun r : Row V m => r a)) (xs.map fun r : Row V m => r a) ys).2)) cols (none, ⊥, none) with
      ⟨h1, -⟩ | ⟨pre, c, post, hl, h1, hlt, -, -⟩
    · simp only [gainDivision] at h; rw [h1] at h; cases h
    · simp only [gainDivision] at h
      rw [h1] at h
      have hc : isCont (xs.map fun r : Row V m => r c) = true := by
        by_contra hn
        simp only [hn, getValue, answer, if_false] at h
        cases h
      simp only [hc] at h hlt
      have hcb : c = b := by
        obtain ⟨q, hq, -⟩ := answer_some h
        simp only [Prod.mk.injEq, Option.some.injEq] at hq
        exact hq.1
      subst hcb
      rw [getValue_const imp num _ ys (by simpa using fun x hx y hy => he x hx y hy)] at hlt
      exact lt_irrefl _ hlt

/-! ## The property -/

theorem fit_twice {n : Nat} {a b : Fin (n + 1)} (hab : a < b) {o : Oracle V K (n + 1)} {o' : Oracle V K n} (ho : OracleDrop b.succAbove o o') (h2 : OracleTwice a b o)
    (limit : Nat) (xs : List (Row V (n + 1))) (ys : List Int) (hlen : xs.length = ys.length) (heq : ∀ x ∈ xs, x a = x b) (t : Tree V K (n + 1))
    (h : fit o limit xs ys = .ok t) : ∃ t', fit o' limit (xs.map fun r j => r (b.succAbove j)) ys = .ok t' ∧
      ∀ r : Row V (n + 1), r a = r b → predict o.num (fun j => r (b.succAbove j)) t' = predict o.num r t := by
  obtain ⟨t', h3, h4⟩ := generate_twice Fin.succAbove_right_injective hab (fun c => ⟨fun ⟨a', e⟩ => e ▸ Fin.succAbove_ne b a', fun h => Fin.exists_succAbove_eq h⟩) ho h2 xs heq limit
    _ _ xs ys t limit le_rfl (List.pairwise_lt_finRange _) (finRange_kept (Fin.strictMono_succAbove b)) (fun _ h => h) (fun _ => hlen)
    (fun h => absurd (List.mem_finRange a) h) h
  exact ⟨t', h3, fun r hr => h4 r hr fun h => absurd (List.mem_finRange a) h⟩

/-- C321 (Gini, entropy or any impurity): if column `b` repeats the earlier column `a` in every training row, then the table without column `b` can be fitted as well, and the
two trees give every row that repeats the attribute the same answer (or the same error). Columns may be discrete or continuous. -/
theorem C321_criterion {n : Nat} {a b : Fin (n + 1)} (hab : a < b) (imp : List Int → K) (num : V → K) (isCont : List V → Bool) (maj : List Int → Option Int) (fl : K → K)
    (limit : Nat) (xs : List (Row V (n + 1))) (ys : List Int) (hlen : xs.length = ys.length) (heq : ∀ x ∈ xs, x a = x b) (t : Tree V K (n + 1))
    (h : fit (criterionOracle imp num isCont maj fl) limit xs ys = .ok t) :
    ∃ t', fit (criterionOracle imp num isCont maj fl) limit (xs.map fun r j => r (b.succAbove j)) ys = .ok t' ∧
      ∀ r : Row V (n + 1), r a = r b → predict num (fun j => r (b.succAbove j)) t' = predict num r t :=
  fit_twice hab (criterion_drop Fin.succAbove_right_injective imp num isCont maj fl) (criterion_twice hab imp num isCont maj fl) limit xs ys hlen heq t h

/-- C321 (information gain). -/
theorem C321_gain {n : Nat} {a b : Fin (n + 1)} (hab : a < b) (imp : List Int → K) (num : V → K) (isCont : List V → Bool) (maj : List Int → Option Int) (fl : K → K)
    (limit : Nat) (xs : List (Row V (n + 1))) (ys : List Int) (hlen : xs.length = ys.length) (heq : ∀ x ∈ xs, x a = x b) (t : Tree V K (n + 1))
    (h : fit (gainOracle imp num isCont maj fl) limit xs ys = .ok t) :
    ∃ t', fit (gainOracle imp num isCont maj fl) limit (xs.map fun r j => r (b.succAbove j)) ys = .ok t' ∧
      ∀ r : Row V (n + 1), r a = r b → predict num (fun j => r (b.succAbove j)) t' = predict num r t :=
  fit_twice hab (gain_drop Fin.succAbove_right_injective imp num isCont maj fl) (gain_twice hab imp num isCont maj fl) limit xs ys hlen heq t h

/-- A continuous attribute and its copy: the tree asks about the first column only, and the answers are those of the table without the copy. -/
example : (fit (criterionOracle (K := ℚ) gini id (fun _ => true) firstMax id) 10 [![1/2, 1/2], ![3/2, (3/2 : ℚ)], ![5/2, 5/2], ![7/2, 7/2]] [0, 1, 1, 0]).map (predict id ![(2 : ℚ), 2]) = .ok (.ok 1) ∧
    (fit (criterionOracle (K := ℚ) gini id (fun _ => true) firstMax id) 10 ([![1/2, 1/2], ![3/2, (3/2 : ℚ)], ![5/2, 5/2], ![7/2, 7/2]].map fun (r : Row ℚ 2) j => r ((1 : Fin 2).succAbove j)) [0, 1, 1, 0]).map
      (predict id ![(2 : ℚ)]) = .ok (.ok 1) := by
  decide +kernel

/-- A discrete attribute and its copy, contradictory samples: the tree asks about the copy, too (where it is constant), and the answers are the same. -/
example : (fit (criterionOracle (K := ℚ) gini id (fun _ => false) firstMax id) 10 [![0, 0], ![0, (0 : ℚ)], ![0, 0], ![1, 1]] [0, 1, 1, 0]).map (Tree.attrs (V := ℚ) (K := ℚ)) = .ok [(0 : Fin 2), 1] ∧
    (fit (criterionOracle (K := ℚ) gini id (fun _ => false) firstMax id) 10 [![0, 0], ![0, (0 : ℚ)], ![0, 0], ![1, 1]] [0, 1, 1, 0]).map (predict id ![(0 : ℚ), 0]) = .ok (.ok 1) ∧
    (fit (criterionOracle (K := ℚ) gini id (fun _ => false) firstMax id) 10 ([![0, 0], ![0, (0 : ℚ)], ![0, 0], ![1, 1]].map fun (r : Row ℚ 2) j => r ((1 : Fin 2).succAbove j)) [0, 1, 1, 0]).map
      (predict id ![(0 : ℚ)]) = .ok (.ok 1) := by
  decide +kernel

/-- The copy has to come later: leaving out the earlier of two equal columns (0 and 2) lets the column between them win a tie, and an answer changes. -/
example : (fit (criterionOracle (K := ℚ) gini id (fun _ => false) firstMax id) 10 [![0, 0, (0 : ℚ)], ![1, 1, 1]] [0, 1]).map (predict id ![(0 : ℚ), 1, 0]) = .ok (.ok 0) ∧
    (fit (criterionOracle (K := ℚ) gini id (fun _ => false) firstMax id) 10 ([![0, 0, (0 : ℚ)], ![1, 1, 1]].map fun (r : Row ℚ 3) j => r ((0 : Fin 3).succAbove j)) [0, 1]).map
      (predict id ![(1 : ℚ), 0]) = .ok (.ok 1) := by
  decide +kernel

end CML.DTree
