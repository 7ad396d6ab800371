import Verif.Spec.Tree
import Mathlib.Tactic.Linarith
import Mathlib.Tactic.Ring

set_option linter.unusedSectionVars false

/-! # Lemmas about decision trees -/

namespace CML.DTree

universe u w
variable {V : Type u} {K : Type w} {m : Nat}

/-! ## pyUnique -/

theorem pyUnique_length_eq_one {α : Type*} [DecidableEq α] {l : List α} (h : (pyUnique l).length = 1) :
    ∀ a ∈ l, ∀ b ∈ l, a = b := by
  intro a ha b hb
  rw [← mem_pyUnique] at ha hb
  match hl : pyUnique l, h with
  | [c], _ => rw [hl] at ha hb; simp at ha hb; rw [ha, hb]

theorem pyUnique_length_of_const {α : Type*} [DecidableEq α] {l : List α} (hne : l ≠ [])
    (h : ∀ a ∈ l, ∀ b ∈ l, a = b) : (pyUnique l).length = 1 := by
  cases l with
  | nil => exact absurd rfl hne
  | cons c l =>
    have : (pyUnique l).filter (fun b => b ≠ c) = [] := by
      rw [List.filter_eq_nil_iff]
      intro b hb
      have hb' : b ∈ l := mem_pyUnique.1 hb
      have := h b (List.mem_cons_of_mem _ hb') c List.mem_cons_self
      simp [this]
    simp only [pyUnique, this, List.length_singleton]

/-! ## Selecting rows and labels together -/

theorem zip_filter_selY (p : Row V m → Bool) : ∀ (xs : List (Row V m)) (ys : List Int), xs.length = ys.length →
    (xs.filter p).zip (selY p xs ys) = (xs.zip ys).filter fun q => p q.1
  | [], [], _ => by simp [selY]
  | x :: xs, y :: ys, h => by
    have ih := zip_filter_selY p xs ys (by simpa using h)
    by_cases hp : p x <;> simp_all [selY]

theorem length_selY (p : Row V m → Bool) : ∀ (xs : List (Row V m)) (ys : List Int), xs.length = ys.length →
    (xs.filter p).length = (selY p xs ys).length
  | [], [], _ => by simp [selY]
  | x :: xs, y :: ys, h => by
    have ih := length_selY p xs ys (by simpa using h)
    by_cases hp : p x <;> simp_all [selY]

theorem selY_subset (p : Row V m → Bool) (xs : List (Row V m)) (ys : List Int) : ∀ c ∈ selY p xs ys, c ∈ ys := by
  intro c hc
  simp only [selY, List.mem_map, List.mem_filter] at hc
  obtain ⟨q, ⟨hq, _⟩, rfl⟩ := hc
  exact (List.of_mem_zip (a := q.1) (b := q.2) hq).2

theorem map_snd_zip {α β : Type*} {xs : List α} {ys : List β} (h : xs.length = ys.length) :
    (xs.zip ys).map Prod.snd = ys := List.map_snd_zip (by omega)

/-! ## Predictions -/

section Predict
variable [DecidableEq V] [LE K] [DecidableLE K]

mutual
theorem predict_cases (num : V → K) (r : Row V m) (full : List (Row V m)) :
    ∀ t : Tree V K m,
      (∃ c ∈ t.cats, predict num r t = .ok c) ∨ predict num r t = .error .keyError
  | .leaf c => .inl ⟨c, by simp [Tree.cats], by simp [predict]⟩
  | .cont a t n h g l => by
    rw [predict]
    split
    · rcases predict_cases num r full g with ⟨c, hc, h⟩ | h
      · exact .inl ⟨c, by simp [Tree.cats, hc], h⟩
      · exact .inr h
    · rcases predict_cases num r full l with ⟨c, hc, h⟩ | h
      · exact .inl ⟨c, by simp [Tree.cats, hc], h⟩
      · exact .inr h
  | .disc a n h br => by
    rw [predict]
    simp only [Tree.cats]
    exact predictIn_cases num r full (r a) br
theorem predictIn_cases (num : V → K) (r : Row V m) (full : List (Row V m)) (v : V) :
    ∀ f : Forest V K m,
      (∃ c ∈ f.cats, predictIn num r v f = .ok c) ∨ predictIn num r v f = .error .keyError
  | .nil => .inr (by simp [predictIn])
  | .cons w t rest => by
    rw [predictIn]
    split
    · rcases predict_cases num r full t with ⟨c, hc, h⟩ | h
      · exact .inl ⟨c, by simp [Forest.cats, hc], h⟩
      · exact .inr h
    · rcases predictIn_cases num r full v rest with ⟨c, hc, h⟩ | h
      · exact .inl ⟨c, by simp [Forest.cats, hc], h⟩
      · exact .inr h
end

/-- The keys of a forest. -/
def Forest.keys : Forest V K m → List V
  | .nil => []
  | .cons v _ r => v :: r.keys

mutual
/-- Every discrete node has a branch for each value of its training column. -/
def Tree.Covers (full : List (Row V m)) : Tree V K m → Prop
  | .leaf _ => True
  | .cont _ _ _ _ g l => g.Covers full ∧ l.Covers full
  | .disc a _ _ br => (∀ r ∈ full, r a ∈ br.keys) ∧ br.Covers full
def Forest.Covers (full : List (Row V m)) : Forest V K m → Prop
  | .nil => True
  | .cons _ t r => t.Covers full ∧ r.Covers full
end

mutual
theorem predict_ok (num : V → K) (r : Row V m) (full : List (Row V m)) :
    ∀ t : Tree V K m, t.Covers full → (∀ a ∈ t.discAttrs, r a ∈ full.map fun q => q a) → ∃ c, predict num r t = .ok c
  | .leaf c, _, _ => ⟨c, by simp [predict]⟩
  | .cont a t n h g l, hc, hv => by
    rw [predict]
    simp only [Tree.Covers] at hc
    simp only [Tree.discAttrs, List.mem_append] at hv
    split
    · exact predict_ok num r full g hc.1 fun a ha => hv a (.inl ha)
    · exact predict_ok num r full l hc.2 fun a ha => hv a (.inr ha)
  | .disc a n h br, hc, hv => by
    rw [predict]
    simp only [Tree.Covers] at hc
    simp only [Tree.discAttrs, List.mem_cons] at hv
    refine predictIn_ok num r full (r a) br hc.2 ?_ fun b hb => hv b (.inr hb)
    have := hv a (.inl rfl)
    obtain ⟨q, hq, he⟩ := List.mem_map.1 this
    rw [← he]; exact hc.1 q hq
theorem predictIn_ok (num : V → K) (r : Row V m) (full : List (Row V m)) (v : V) :
    ∀ f : Forest V K m, f.Covers full → v ∈ f.keys → (∀ a ∈ f.discAttrs, r a ∈ full.map fun q => q a) →
      ∃ c, predictIn num r v f = .ok c
  | .nil, _, hk, _ => by simp [Forest.keys] at hk
  | .cons w t rest, hc, hk, hv => by
    rw [predictIn]
    simp only [Forest.Covers] at hc
    simp only [Forest.discAttrs, List.mem_append] at hv
    simp only [Forest.keys, List.mem_cons] at hk
    split
    · exact predict_ok num r full t hc.1 fun a ha => hv a (.inl ha)
    · rename_i hne
      exact predictIn_ok num r full v rest hc.2 (hk.resolve_left hne) fun a ha => hv a (.inr ha)
end

end Predict

/-! ## Generation -/

section Generate
variable [DecidableEq V]

theorem genForest_keys (gen : V → Except PyErr (Tree V K m)) : ∀ (vs : List V) (f : Forest V K m),
    genForest gen vs = .ok f → f.keys = vs
  | [], f, h => by simp only [genForest, Except.ok.injEq] at h; subst h; rfl
  | v :: vs, f, h => by
    rw [genForest] at h
    split at h
    · exact absurd h (by simp)
    · rename_i t ht
      split at h
      · exact absurd h (by simp)
      · rename_i r hr
        simp only [Except.ok.injEq] at h
        subst h
        simp only [Forest.keys, genForest_keys gen vs r hr]

/-- Anything that holds of every generated branch holds of the forest. -/
theorem genForest_trees (gen : V → Except PyErr (Tree V K m)) (P : Tree V K m → Prop) : ∀ (vs : List V) (f : Forest V K m),
    (∀ v ∈ vs, ∀ t, gen v = .ok t → P t) → genForest gen vs = .ok f → ∀ t ∈ f.trees, P t
  | [], f, _, h => by simp only [genForest, Except.ok.injEq] at h; subst h; simp [Forest.trees]
  | v :: vs, f, hP, h => by
    rw [genForest] at h
    split at h
    · exact absurd h (by simp)
    · rename_i t ht
      split at h
      · exact absurd h (by simp)
      · rename_i r hr
        simp only [Except.ok.injEq] at h
        subst h
        simp only [Forest.trees, List.mem_cons]
        rintro s (rfl | hs)
        · exact hP v List.mem_cons_self _ ht
        · exact genForest_trees gen P vs r (fun v hv => hP v (List.mem_cons_of_mem _ hv)) hr s hs

theorem genForest_ok (gen : V → Except PyErr (Tree V K m)) : ∀ (vs : List V),
    (∀ v ∈ vs, ∃ t, gen v = .ok t) → ∃ f, genForest gen vs = .ok f
  | [], _ => ⟨.nil, rfl⟩
  | v :: vs, h => by
    obtain ⟨t, ht⟩ := h v List.mem_cons_self
    obtain ⟨r, hr⟩ := genForest_ok gen vs fun v hv => h v (List.mem_cons_of_mem _ hv)
    exact ⟨.cons v t r, by rw [genForest, ht]; simp only; rw [hr]⟩

theorem genForest_predict [LE K] [DecidableLE K] (num : V → K) (gen : V → Except PyErr (Tree V K m)) (r : Row V m) (v : V) :
    ∀ (vs : List V) (f : Forest V K m), genForest gen vs = .ok f → v ∈ vs →
      ∃ t, gen v = .ok t ∧ predictIn num r v f = predict num r t
  | [], f, h, hv => by simp at hv
  | w :: vs, f, h, hv => by
    rw [genForest] at h
    split at h
    · exact absurd h (by simp)
    · rename_i t ht
      split at h
      · exact absurd h (by simp)
      · rename_i s hs
        simp only [Except.ok.injEq] at h
        subst h
        by_cases hvw : v = w
        · subst hvw
          exact ⟨t, ht, by simp [predictIn]⟩
        · obtain ⟨t', h1, h2⟩ := genForest_predict num gen r v vs s hs ((List.mem_cons.1 hv).resolve_left hvw)
          exact ⟨t', h1, by rw [predictIn, if_neg hvw, h2]⟩

theorem forest_all_iff (P : Tree V K m → Prop) : ∀ f : Forest V K m, f.All P ↔ ∀ t ∈ f.trees, t.All P
  | .nil => by simp [Forest.All, Forest.trees]
  | .cons v t r => by simp [Forest.All, Forest.trees, forest_all_iff P r]

theorem forest_covers_iff (full : List (Row V m)) : ∀ f : Forest V K m, f.Covers full ↔ ∀ t ∈ f.trees, t.Covers full
  | .nil => by simp [Forest.Covers, Forest.trees]
  | .cons v t r => by simp [Forest.Covers, Forest.trees, forest_covers_iff full r]

theorem forest_cats_iff (S : List Int) : ∀ f : Forest V K m, (∀ c ∈ f.cats, c ∈ S) ↔ ∀ t ∈ f.trees, ∀ c ∈ t.cats, c ∈ S
  | .nil => by simp [Forest.cats, Forest.trees]
  | .cons v t r => by
    have ih := forest_cats_iff S r
    simp only [Forest.cats, Forest.trees, List.mem_append, List.mem_cons, forall_eq_or_imp]
    rw [← ih]
    constructor
    · intro h; exact ⟨fun c hc => h c (.inl hc), fun c hc => h c (.inr hc)⟩
    · rintro ⟨h1, h2⟩ c (hc | hc)
      · exact h1 c hc
      · exact h2 c hc

variable [LinearOrder K]

/-- What a successful generation step returned. -/
theorem generate_cases {o : Oracle V K m} {full : List (Row V m)} {fuel : Nat} {cols : List (Fin m)}
    {xs : List (Row V m)} {ys : List Int} {t : Tree V K m} (h : generate o full (fuel + 1) cols xs ys = .ok t) :
    (∃ c ∈ ys, (pyUnique ys).length = 1 ∧ t = .leaf c) ∨
    (∃ c, (xs = [] ∨ cols = []) ∧ (pyUnique ys).length ≠ 1 ∧ o.maj ys = some c ∧ t = .leaf c) ∨
    (∃ a t₀ g l, xs ≠ [] ∧ cols ≠ [] ∧ o.split cols xs ys = some (a, some t₀) ∧
      generate o full fuel cols (xs.filter fun r => decide (o.fl t₀ ≤ o.num (r a)))
        (selY (fun r => decide (o.fl t₀ ≤ o.num (r a))) xs ys) = .ok g ∧
      generate o full fuel cols (xs.filter fun r => decide (o.num (r a) < o.fl t₀))
        (selY (fun r => decide (o.num (r a) < o.fl t₀)) xs ys) = .ok l ∧
      t = .cont a (o.fl t₀) (g.nl + l.nl) (g.ht + l.ht + 1) g l) ∨
    (∃ a br, xs ≠ [] ∧ cols ≠ [] ∧ o.split cols xs ys = some (a, none) ∧
      genForest (fun v =>
            if selY (fun r => decide (r a = v)) xs ys = [] then
              generate o full fuel (cols.filter fun c => c ≠ a) (xs.filter fun r => decide (r a = v)) ys
            else generate o full fuel (cols.filter fun c => c ≠ a) (xs.filter fun r => decide (r a = v))
              (selY (fun r => decide (r a = v)) xs ys))
            (pyUnique (full.map fun r => r a)) = .ok br ∧
      t = .disc a (sumLeaves br) (maxHeight (-1) br + 1) br) := by
  unfold generate at h
  split at h
  · rename_i hone
    cases ys with
    | nil => simp at h
    | cons c ys =>
      simp only [Except.ok.injEq] at h
      exact .inl ⟨c, List.mem_cons_self, hone, h.symm⟩
  · rename_i hone
    split at h
    · rename_i he
      split at h
      · exact absurd h (by simp)
      · rename_i c hc
        simp only [Except.ok.injEq] at h
        exact .inr (.inl ⟨c, he, hone, hc, h.symm⟩)
    · rename_i he
      rw [not_or] at he
      split at h
      · exact absurd h (by simp)
      · rename_i a t₀ hs
        simp only at h
        split at h
        · rename_i g l hg hl
          simp only [Except.ok.injEq] at h
          exact .inr (.inr (.inl ⟨a, t₀, g, l, he.1, he.2, hs, hg, hl, h.symm⟩))
        · exact absurd h (by simp)
        · exact absurd h (by simp)
      · rename_i a hs
        simp only at h
        split at h
        · exact absurd h (by simp)
        · rename_i br hbr
          simp only [Except.ok.injEq] at h
          exact .inr (.inr (.inr ⟨a, br, he.1, he.2, hs, hbr, h.symm⟩))

theorem generate_covers (o : Oracle V K m) (full : List (Row V m)) : ∀ (fuel : Nat) (cols : List (Fin m))
    (xs : List (Row V m)) (ys : List Int) (t : Tree V K m), generate o full fuel cols xs ys = .ok t → t.Covers full := by
  intro fuel
  induction fuel with
  | zero => intro cols xs ys t h; simp [generate] at h
  | succ fuel ih =>
    intro cols xs ys t h
    rcases generate_cases h with ⟨c, -, -, rfl⟩ | ⟨c, -, -, -, rfl⟩ | ⟨a, t₀, g, l, -, -, -, hg, hl, rfl⟩ |
      ⟨a, br, -, -, -, hbr, rfl⟩
    · simp [Tree.Covers]
    · simp [Tree.Covers]
    · exact ⟨ih _ _ _ _ hg, ih _ _ _ _ hl⟩
    · refine ⟨?_, ?_⟩
      · intro r hr
        rw [genForest_keys _ _ _ hbr, mem_pyUnique]
        exact List.mem_map.2 ⟨r, hr, rfl⟩
      · rw [forest_covers_iff]
        refine genForest_trees _ _ _ _ (fun v _ t ht => ?_) hbr
        split at ht <;> exact ih _ _ _ _ ht

theorem generate_cats (o : Oracle V K m) (full : List (Row V m)) (hm : MajOK o.maj) : ∀ (fuel : Nat) (cols : List (Fin m))
    (xs : List (Row V m)) (ys : List Int) (t : Tree V K m), generate o full fuel cols xs ys = .ok t → ∀ c ∈ t.cats, c ∈ ys := by
  intro fuel
  induction fuel with
  | zero => intro cols xs ys t h; simp [generate] at h
  | succ fuel ih =>
    intro cols xs ys t h
    rcases generate_cases h with ⟨c, hc, -, rfl⟩ | ⟨c, -, -, hc, rfl⟩ | ⟨a, t₀, g, l, -, -, -, hg, hl, rfl⟩ |
      ⟨a, br, -, -, -, hbr, rfl⟩
    · simpa [Tree.cats] using hc
    · have hne : ys ≠ [] := by rintro rfl; rw [hm.1] at hc; simp at hc
      obtain ⟨d, hd, hmem, -⟩ := hm.2 ys hne
      rw [hc] at hd
      simp only [Option.some.injEq] at hd
      simpa [Tree.cats, hd] using hmem
    · intro c hc
      simp only [Tree.cats, List.mem_append] at hc
      rcases hc with hc | hc
      · exact selY_subset _ _ _ _ (ih _ _ _ _ hg c hc)
      · exact selY_subset _ _ _ _ (ih _ _ _ _ hl c hc)
    · simp only [Tree.cats]
      rw [forest_cats_iff]
      refine genForest_trees _ _ _ _ (fun v _ t ht => ?_) hbr
      split at ht
      · exact ih _ _ _ _ ht
      · exact fun c hc => selY_subset _ _ _ _ (ih _ _ _ _ ht c hc)

theorem generate_correct (o : Oracle V K m) (full : List (Row V m)) : ∀ (fuel : Nat) (cols : List (Fin m))
    (xs : List (Row V m)) (ys : List Int) (t : Tree V K m), generate o full fuel cols xs ys = .ok t →
    xs.length = ys.length → (∀ r ∈ xs, r ∈ full) → (∀ a, a ∉ cols → ∀ r ∈ xs, ∀ s ∈ xs, r a = s a) →
    Consistent (xs.zip ys) → ∀ q ∈ xs.zip ys, predict o.num q.1 t = .ok q.2 := by
  intro fuel
  induction fuel with
  | zero => intro cols xs ys t h; simp [generate] at h
  | succ fuel ih =>
    intro cols xs ys t h hlen hfull hcols hcons q hq
    have hqm := List.of_mem_zip (a := q.1) (b := q.2) hq
    have hsub : ∀ p : Row V m → Bool, p q.1 = true → ∀ cols' t', (∀ a, a ∉ cols' → ∀ r ∈ xs.filter p, ∀ s ∈ xs.filter p, r a = s a) →
        generate o full fuel cols' (xs.filter p) (selY p xs ys) = .ok t' → predict o.num q.1 t' = .ok q.2 := by
      intro p hp cols' t' hc' ht'
      refine ih cols' _ _ t' ht' (length_selY p xs ys hlen) (fun r hr => hfull r (List.mem_of_mem_filter hr)) hc' ?_ q ?_
      · rw [zip_filter_selY p xs ys hlen]
        exact fun a ha b hb => hcons a (List.mem_of_mem_filter ha) b (List.mem_of_mem_filter hb)
      · rw [zip_filter_selY p xs ys hlen, List.mem_filter]
        exact ⟨hq, hp⟩
    rcases generate_cases h with ⟨c, hc, hone, rfl⟩ | ⟨c, he, hone, hc, rfl⟩ | ⟨a, t₀, g, l, -, -, -, hg, hl, rfl⟩ |
      ⟨a, br, -, -, -, hbr, rfl⟩
    · rw [predict, pyUnique_length_eq_one hone c hc q.2 hqm.2]
    · exfalso
      rcases he with rfl | rfl
      · simp at hq
      · have hall : ∀ r ∈ xs, ∀ s ∈ xs, r = s := fun r hr s hs => funext fun a => hcols a (by simp) r hr s hs
        apply hone
        apply pyUnique_length_of_const (List.ne_nil_of_mem hqm.2)
        have hmem : ∀ y ∈ ys, ∃ p ∈ xs.zip ys, p.2 = y := by
          intro y hy
          rw [← map_snd_zip hlen] at hy
          obtain ⟨p, hp, he⟩ := List.mem_map.1 hy
          exact ⟨p, hp, he⟩
        intro y hy z hz
        obtain ⟨p, hp, rfl⟩ := hmem y hy
        obtain ⟨p', hp', rfl⟩ := hmem z hz
        exact hcons p hp p' hp' (hall _ (List.of_mem_zip (a := p.1) (b := p.2) hp).1 _ (List.of_mem_zip (a := p'.1) (b := p'.2) hp').1)
    · rw [predict]
      split
      · rename_i hge
        exact hsub _ (by simpa using hge) _ _
          (fun b hb r hr s hs => hcols b hb r (List.mem_of_mem_filter hr) s (List.mem_of_mem_filter hs)) hg
      · rename_i hlt
        exact hsub _ (by simpa using hlt) _ _
          (fun b hb r hr s hs => hcols b hb r (List.mem_of_mem_filter hr) s (List.mem_of_mem_filter hs)) hl
    · rw [predict]
      obtain ⟨t', ht', hp⟩ := genForest_predict o.num _ q.1 (q.1 a) _ _ hbr
        (mem_pyUnique.2 (List.mem_map.2 ⟨q.1, hfull _ hqm.1, rfl⟩))
      rw [hp]
      have hne : selY (fun r => decide (r a = q.1 a)) xs ys ≠ [] := by
        apply List.ne_nil_of_mem (a := q.2)
        simp only [selY, List.mem_map, List.mem_filter]
        exact ⟨q, ⟨hq, by simp⟩, rfl⟩
      rw [if_neg hne] at ht'
      refine hsub _ (by simp) _ _ ?_ ht'
      intro b hb r hr s hs
      simp only [List.mem_filter, decide_eq_true_eq] at hr hs
      by_cases hba : b = a
      · subst hba; rw [hr.2, hs.2]
      · exact hcols b (fun hbc => hb (by simp [hbc, hba])) r hr.1 s hs.1

theorem generate_ok (o : Oracle V K m) (full : List (Row V m)) (hm : MajOK o.maj) (hs : DiscreteSplits o) :
    ∀ (fuel : Nat) (cols : List (Fin m)) (xs : List (Row V m)) (ys : List Int),
    cols.length < fuel → ys ≠ [] → ∃ t, generate o full fuel cols xs ys = .ok t := by
  intro fuel
  induction fuel with
  | zero => intro cols xs ys h; omega
  | succ fuel ih =>
    intro cols xs ys hf hys
    unfold generate
    split
    · cases ys with
      | nil => exact absurd rfl hys
      | cons c ys => exact ⟨_, rfl⟩
    · split
      · obtain ⟨c, hc, -⟩ := hm.2 ys hys
        rw [hc]; exact ⟨_, rfl⟩
      · rename_i he
        rw [not_or] at he
        obtain ⟨a, ha, hsp⟩ := hs cols xs ys he.2 he.1
        rw [hsp]
        simp only
        have hlt : (cols.filter fun c => c ≠ a).length < fuel := by
          have : (cols.filter fun c => c ≠ a).length < cols.length := by
            apply List.length_filter_lt_length_iff_exists.2
            exact ⟨a, ha, by simp⟩
          omega
        obtain ⟨f, hf'⟩ := genForest_ok (fun v =>
            if selY (fun r => decide (r a = v)) xs ys = [] then
              generate o full fuel (cols.filter fun c => c ≠ a) (xs.filter fun r => decide (r a = v)) ys
            else generate o full fuel (cols.filter fun c => c ≠ a) (xs.filter fun r => decide (r a = v))
              (selY (fun r => decide (r a = v)) xs ys)) (pyUnique (full.map fun r => r a)) (by
            intro v _
            split
            · exact ih _ _ _ hlt hys
            · rename_i hne
              exact ih _ _ _ hlt hne)
        rw [hf']
        exact ⟨_, rfl⟩

/-! ## Statistics -/

theorem sumLeaves_eq : ∀ f : Forest V K m, (∀ t ∈ f.trees, LeavesRight t) → sumLeaves f = (f.leaves : Int)
  | .nil, _ => by simp [sumLeaves, Forest.leaves]
  | .cons v t r, h => by
    have h1 := h t (by simp [Forest.trees])
    have h2 := sumLeaves_eq r fun s hs => h s (by simp [Forest.trees, hs])
    simp only [LeavesRight] at h1
    simp only [sumLeaves, Forest.leaves, h1, h2]; push_cast; ring

theorem all_self {P : Tree V K m → Prop} : ∀ {t : Tree V K m}, t.All P → P t
  | .leaf _, h => h
  | .cont .., h => h.1
  | .disc .., h => h.1

theorem maxHeight_eq : ∀ (f : Forest V K m) (acc : Int), -1 ≤ acc → (∀ t ∈ f.trees, HeightRight t) →
    maxHeight acc f = max acc ((f.height1 : Int) - 1)
  | .nil, acc, ha, _ => by simp [maxHeight, Forest.height1]; omega
  | .cons v t r, acc, ha, h => by
    have h1 := h t (by simp [Forest.trees])
    simp only [HeightRight] at h1
    rw [maxHeight, maxHeight_eq r _ (by split <;> omega) fun s hs => h s (by simp [Forest.trees, hs])]
    simp only [Forest.height1, h1]
    push_cast
    split <;> omega

theorem maxHeight_ge : ∀ (f : Forest V K m) (acc : Int), -1 ≤ acc → (∀ t ∈ f.trees, (t.depth : Int) ≤ t.ht) →
    max acc ((f.height1 : Int) - 1) ≤ maxHeight acc f
  | .nil, acc, ha, _ => by simp [maxHeight, Forest.height1]; omega
  | .cons v t r, acc, ha, h => by
    have h1 := h t (by simp [Forest.trees])
    rw [maxHeight]
    refine le_trans ?_ (maxHeight_ge r _ (by split <;> omega) fun s hs => h s (by simp [Forest.trees, hs]))
    simp only [Forest.height1]
    push_cast
    split <;> omega

theorem depth_leaf {t : Tree V K m} (h : t.isLeaf = true) : t.depth = 0 := by
  cases t <;> simp_all [Tree.isLeaf, Tree.depth]

theorem generate_leaves (o : Oracle V K m) (full : List (Row V m)) : ∀ (fuel : Nat) (cols : List (Fin m))
    (xs : List (Row V m)) (ys : List Int) (t : Tree V K m), generate o full fuel cols xs ys = .ok t → t.All LeavesRight := by
  intro fuel
  induction fuel with
  | zero => intro cols xs ys t h; simp [generate] at h
  | succ fuel ih =>
    intro cols xs ys t h
    rcases generate_cases h with ⟨c, -, -, rfl⟩ | ⟨c, -, -, -, rfl⟩ | ⟨a, t₀, g, l, -, -, -, hg, hl, rfl⟩ |
      ⟨a, br, -, -, -, hbr, rfl⟩
    · simp [Tree.All, LeavesRight, Tree.nl, Tree.leaves]
    · simp [Tree.All, LeavesRight, Tree.nl, Tree.leaves]
    · have h1 := ih _ _ _ _ hg
      have h2 := ih _ _ _ _ hl
      refine ⟨?_, h1, h2⟩
      have h3 := all_self h1
      have h4 := all_self h2
      simp only [LeavesRight] at h3 h4
      show g.nl + l.nl = ((g.leaves + l.leaves : Nat) : Int)
      rw [h3, h4]; push_cast; rfl
    · have hall : ∀ t ∈ br.trees, t.All LeavesRight := by
        refine genForest_trees _ _ _ _ (fun v _ t ht => ?_) hbr
        split at ht <;> exact ih _ _ _ _ ht
      refine ⟨?_, (forest_all_iff _ _).2 hall⟩
      simp only [LeavesRight, Tree.nl, Tree.leaves]
      exact sumLeaves_eq br fun t ht => all_self (hall t ht)

theorem generate_height (o : Oracle V K m) (full : List (Row V m)) : ∀ (fuel : Nat) (cols : List (Fin m))
    (xs : List (Row V m)) (ys : List Int) (t : Tree V K m), generate o full fuel cols xs ys = .ok t → t.All OneSided →
    t.All HeightRight := by
  intro fuel
  induction fuel with
  | zero => intro cols xs ys t h; simp [generate] at h
  | succ fuel ih =>
    intro cols xs ys t h hone
    rcases generate_cases h with ⟨c, -, -, rfl⟩ | ⟨c, -, -, -, rfl⟩ | ⟨a, t₀, g, l, -, -, -, hg, hl, rfl⟩ |
      ⟨a, br, hx, -, -, hbr, rfl⟩
    · simp [Tree.All, HeightRight, Tree.ht, Tree.depth]
    · simp [Tree.All, HeightRight, Tree.ht, Tree.depth]
    · have h1 := ih _ _ _ _ hg hone.2.1
      have h2 := ih _ _ _ _ hl hone.2.2
      refine ⟨?_, h1, h2⟩
      have h3 := all_self h1
      have h4 := all_self h2
      simp only [HeightRight] at h3 h4
      show g.ht + l.ht + 1 = ((max g.depth l.depth + 1 : Nat) : Int)
      rw [h3, h4]
      rcases hone.1 with hg | hl
      · rw [depth_leaf hg]; push_cast; omega
      · rw [depth_leaf hl]; push_cast; omega
    · have hone' := (forest_all_iff _ _).1 hone.2
      have hall : ∀ t ∈ br.trees, t.All OneSided → t.All HeightRight := by
        refine genForest_trees _ _ _ _ (fun v _ t ht => ?_) hbr
        split at ht <;> exact ih _ _ _ _ ht
      have hall' : ∀ t ∈ br.trees, t.All HeightRight := fun t ht => hall t ht (hone' t ht)
      refine ⟨?_, (forest_all_iff _ _).2 hall'⟩
      simp only [HeightRight, Tree.ht, Tree.depth]
      rw [maxHeight_eq br _ (le_refl _) fun t ht => all_self (hall' t ht)]
      omega

theorem generate_height_ge (o : Oracle V K m) (full : List (Row V m)) : ∀ (fuel : Nat) (cols : List (Fin m))
    (xs : List (Row V m)) (ys : List Int) (t : Tree V K m), generate o full fuel cols xs ys = .ok t →
    (t.depth : Int) ≤ t.ht := by
  intro fuel
  induction fuel with
  | zero => intro cols xs ys t h; simp [generate] at h
  | succ fuel ih =>
    intro cols xs ys t h
    rcases generate_cases h with ⟨c, -, -, rfl⟩ | ⟨c, -, -, -, rfl⟩ | ⟨a, t₀, g, l, -, -, -, hg, hl, rfl⟩ |
      ⟨a, br, hx, -, -, hbr, rfl⟩
    · simp [Tree.ht, Tree.depth]
    · simp [Tree.ht, Tree.depth]
    · have h1 := ih _ _ _ _ hg
      have h2 := ih _ _ _ _ hl
      show ((max g.depth l.depth + 1 : Nat) : Int) ≤ g.ht + l.ht + 1
      omega
    · have hall : ∀ t ∈ br.trees, (t.depth : Int) ≤ t.ht := by
        refine genForest_trees _ _ _ _ (fun v _ t ht => ?_) hbr
        split at ht <;> exact ih _ _ _ _ ht
      have := maxHeight_ge br (-1) (le_refl _) hall
      simp only [Tree.ht, Tree.depth]
      omega

end Generate

end CML.DTree
