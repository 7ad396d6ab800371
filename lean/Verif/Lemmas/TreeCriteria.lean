import Verif.Lemmas.Tree
import Mathlib.Tactic.Positivity
import Mathlib.Tactic.FieldSimp

set_option linter.unusedSectionVars false

/-! # Lemmas about the split criteria -/

namespace CML.DTree

universe u w
variable {V : Type u} {K : Type w} {m : Nat} [DecidableEq V] [Field K] [LinearOrder K]

theorem minLoop_spec {A : Type*} (value : A → WithTop K × Option (Option K)) : ∀ (l : List A)
    (best : Option A × (WithTop K × Option (Option K))),
    (minLoop value l best = best ∧ ∀ a ∈ l, best.2.1 ≤ (value a).1) ∨
    ∃ pre a post, l = pre ++ a :: post ∧ minLoop value l best = (some a, value a) ∧ (value a).1 < best.2.1 ∧
      (∀ b ∈ pre, (value a).1 < (value b).1) ∧ ∀ b ∈ post, (value a).1 ≤ (value b).1
  | [], best => .inl ⟨rfl, by simp⟩
  | c :: l, best => by
    rw [minLoop]
    split
    · rename_i hlt
      rcases minLoop_spec value l (some c, value c) with ⟨h1, h2⟩ | ⟨pre, a, post, rfl, h1, h2, h3, h4⟩
      · exact .inr ⟨[], c, l, rfl, h1, hlt, by simp, h2⟩
      · refine .inr ⟨c :: pre, a, post, rfl, h1, lt_trans h2 hlt, ?_, h4⟩
        intro b hb
        rcases List.mem_cons.1 hb with rfl | hb
        · exact h2
        · exact h3 b hb
    · rename_i hlt
      rcases minLoop_spec value l best with ⟨h1, h2⟩ | ⟨pre, a, post, rfl, h1, h2, h3, h4⟩
      · refine .inl ⟨h1, ?_⟩
        intro b hb
        rcases List.mem_cons.1 hb with rfl | hb
        · exact not_lt.1 hlt
        · exact h2 b hb
      · refine .inr ⟨c :: pre, a, post, rfl, h1, h2, ?_, h4⟩
        intro b hb
        rcases List.mem_cons.1 hb with rfl | hb
        · exact lt_of_lt_of_le h2 (not_lt.1 hlt)
        · exact h3 b hb

theorem maxLoop_spec {A : Type*} (value : A → WithBot K × Option (Option K)) : ∀ (l : List A)
    (best : Option A × (WithBot K × Option (Option K))),
    (maxLoop value l best = best ∧ ∀ a ∈ l, (value a).1 ≤ best.2.1) ∨
    ∃ pre a post, l = pre ++ a :: post ∧ maxLoop value l best = (some a, value a) ∧ best.2.1 < (value a).1 ∧
      (∀ b ∈ pre, (value b).1 < (value a).1) ∧ ∀ b ∈ post, (value b).1 ≤ (value a).1
  | [], best => .inl ⟨rfl, by simp⟩
  | c :: l, best => by
    rw [maxLoop]
    split
    · rename_i hlt
      rcases maxLoop_spec value l (some c, value c) with ⟨h1, h2⟩ | ⟨pre, a, post, rfl, h1, h2, h3, h4⟩
      · exact .inr ⟨[], c, l, rfl, h1, hlt, by simp, h2⟩
      · refine .inr ⟨c :: pre, a, post, rfl, h1, lt_trans hlt h2, ?_, h4⟩
        intro b hb
        rcases List.mem_cons.1 hb with rfl | hb
        · exact h2
        · exact h3 b hb
    · rename_i hlt
      rcases maxLoop_spec value l best with ⟨h1, h2⟩ | ⟨pre, a, post, rfl, h1, h2, h3, h4⟩
      · refine .inl ⟨h1, ?_⟩
        intro b hb
        rcases List.mem_cons.1 hb with rfl | hb
        · exact not_lt.1 hlt
        · exact h2 b hb
      · refine .inr ⟨c :: pre, a, post, rfl, h1, h2, ?_, h4⟩
        intro b hb
        rcases List.mem_cons.1 hb with rfl | hb
        · exact lt_of_le_of_lt (not_lt.1 hlt) h2
        · exact h3 b hb

theorem contBest_spec (value : K → K) : ∀ (l : List K) (best : WithTop K × Option K),
    (contBest value l best = best ∧ ∀ t ∈ l, best.1 ≤ (value t : WithTop K)) ∨
    ∃ pre t post, l = pre ++ t :: post ∧ contBest value l best = ((value t : WithTop K), some t) ∧
      (value t : WithTop K) < best.1 ∧ (∀ s ∈ pre, value t < value s) ∧ ∀ s ∈ post, value t ≤ value s
  | [], best => .inl ⟨rfl, by simp⟩
  | c :: l, best => by
    rw [contBest]
    split
    · rename_i hlt
      rcases contBest_spec value l ((value c : WithTop K), some c) with ⟨h1, h2⟩ | ⟨pre, a, post, rfl, h1, h2, h3, h4⟩
      · exact .inr ⟨[], c, l, rfl, h1, hlt, by simp, fun s hs => by simpa using h2 s hs⟩
      · refine .inr ⟨c :: pre, a, post, rfl, h1, lt_trans h2 hlt, ?_, h4⟩
        intro b hb
        rcases List.mem_cons.1 hb with rfl | hb
        · simpa using h2
        · exact h3 b hb
    · rename_i hlt
      rcases contBest_spec value l best with ⟨h1, h2⟩ | ⟨pre, a, post, rfl, h1, h2, h3, h4⟩
      · refine .inl ⟨h1, ?_⟩
        intro b hb
        rcases List.mem_cons.1 hb with rfl | hb
        · exact not_lt.1 hlt
        · exact h2 b hb
      · refine .inr ⟨c :: pre, a, post, rfl, h1, h2, ?_, h4⟩
        intro b hb
        rcases List.mem_cons.1 hb with rfl | hb
        · have := lt_of_lt_of_le h2 (not_lt.1 hlt)
          simpa using this
        · exact h3 b hb

/-- In a strictly increasing list the midpoints are exactly those of neighbours. -/
theorem mem_midpoints : ∀ (l : List K), l.Pairwise (· < ·) → ∀ t, t ∈ midpoints l ↔ NeighbourMidpoint l t
  | [], _, t => by simp [midpoints, NeighbourMidpoint]
  | [a], _, t => by
    simp only [midpoints, List.not_mem_nil, false_iff]
    rintro ⟨x, hx, y, hy, hlt, -⟩
    simp at hx hy; subst hx; subst hy; exact lt_irrefl _ hlt
  | a :: b :: l, h, t => by
    have hs := (List.pairwise_cons.1 h)
    have hs2 := (List.pairwise_cons.1 hs.2)
    have ih := mem_midpoints (b :: l) hs.2 t
    simp only [midpoints, List.mem_cons] at ih ⊢
    rw [ih]
    constructor
    · rintro (rfl | ⟨x, hx, y, hy, hlt, hn, rfl⟩)
      · refine ⟨a, by simp, b, by simp, hs.1 b (by simp), ?_, rfl⟩
        intro c hc
        rcases List.mem_cons.1 hc with rfl | hc
        · exact .inl (le_refl _)
        · rcases List.mem_cons.1 hc with rfl | hc
          · exact .inr (le_refl _)
          · exact .inr (hs2.1 c hc).le
      · refine ⟨x, List.mem_cons_of_mem _ hx, y, List.mem_cons_of_mem _ hy, hlt, ?_, rfl⟩
        intro c hc
        rcases List.mem_cons.1 hc with rfl | hc
        · exact .inl (hs.1 x hx).le
        · exact hn c hc
    · rintro ⟨x, hx, y, hy, hlt, hn, rfl⟩
      have hya : y ≠ a := by
        rintro rfl
        rcases List.mem_cons.1 hx with rfl | hx
        · exact lt_irrefl _ hlt
        · exact lt_asymm hlt (hs.1 x hx)
      have hy' := (List.mem_cons.1 hy).resolve_left hya
      rcases List.mem_cons.1 hx with rfl | hx
      · have hyb : y = b := by
          rcases hn b (by simp) with h' | h'
          · exact absurd (hs.1 b (by simp)) (not_lt.2 h')
          · rcases List.mem_cons.1 hy' with h'' | h''
            · exact h''
            · exact absurd (hs2.1 y h'') (not_lt.2 h')
        subst hyb
        exact .inl rfl
      · exact .inr ⟨x, hx, y, hy', hlt, fun c hc => hn c (List.mem_cons_of_mem _ hc), rfl⟩

theorem sorted_unique (col : List K) : ((pyUnique col).insertionSort (· ≤ ·)).Pairwise (· < ·) := by
  have h1 : ((pyUnique col).insertionSort (· ≤ ·)).Pairwise (· ≤ ·) := List.pairwise_insertionSort _ _
  have h2 : ((pyUnique col).insertionSort (· ≤ ·)).Nodup := (List.perm_insertionSort _ _).nodup_iff.2 (nodup_pyUnique col)
  exact (h1.and h2).imp fun {a b} ⟨hle, hne⟩ => lt_of_le_of_ne hle hne

theorem neighbour_congr {l l' : List K} (h : ∀ a, a ∈ l ↔ a ∈ l') (t : K) : NeighbourMidpoint l t ↔ NeighbourMidpoint l' t := by
  unfold NeighbourMidpoint
  simp only [h]

theorem mem_candidates (col : List K) (t : K) :
    t ∈ midpoints ((pyUnique col).insertionSort (· ≤ ·)) ↔ NeighbourMidpoint col t := by
  rw [mem_midpoints _ (sorted_unique col)]
  apply neighbour_congr
  intro a
  rw [(List.perm_insertionSort (· ≤ ·) (pyUnique col)).mem_iff, mem_pyUnique]

theorem getValue_spec (imp : List Int → K) (num : V → K) (continuous : Bool) (D : List V) (y : List Int) :
    IsCriterion imp num continuous D y (getValue imp num continuous D y) := by
  unfold IsCriterion getValue
  cases continuous with
  | false =>
    simp only [Bool.false_eq_true, if_false]
    refine ⟨pyUnique D, nodup_pyUnique D, fun v => mem_pyUnique, ?_⟩
    simp only [discValue, partitionCost, labelsWhere, List.map_map]
    rfl
  | true =>
    simp only [if_true]
    have hval : ∀ t, contValue imp (D.map num) y t = splitAt imp (D.map num) y t := by
      intro t
      simp [contValue, splitAt, partitionCost, labelsWhere]
    rcases contBest_spec (contValue imp (D.map num) y) (midpoints ((pyUnique (D.map num)).insertionSort (· ≤ ·)))
      (⊤, none) with ⟨h1, h2⟩ | ⟨pre, t, post, hl, h1, h2, h3, h4⟩
    · left
      rw [h1]
      refine ⟨?_, rfl⟩
      intro t ht
      have := h2 t ((mem_candidates _ t).2 ht)
      simp at this
    · right
      have hmem : ∀ s, s ∈ pre ++ t :: post ↔ NeighbourMidpoint (D.map num) s := by
        intro s; rw [← hl]; exact mem_candidates _ s
      refine ⟨t, (hmem t).1 (by simp), ?_, ?_⟩
      · rw [h1, hval]
      · intro s hs
        rw [← hval, ← hval]
        have := (hmem s).2 hs
        rcases List.mem_append.1 this with h | h
        · exact (h3 s h).le
        · rcases List.mem_cons.1 h with rfl | h
          · exact le_refl _
          · exact h4 s h

theorem midpoints_nil {l : List K} (h : midpoints l = []) : l.length ≤ 1 := by
  match l with
  | [] => simp
  | [_] => simp
  | a :: b :: l => simp [midpoints] at h

theorem no_neighbours {col : List K} (h : ∀ t, ¬ NeighbourMidpoint col t) : ∀ a ∈ col, ∀ b ∈ col, a = b := by
  have h1 : midpoints ((pyUnique col).insertionSort (· ≤ ·)) = [] := by
    rw [List.eq_nil_iff_forall_not_mem]
    intro t ht
    exact h t ((mem_candidates _ t).1 ht)
  have h2 := midpoints_nil h1
  rw [(List.perm_insertionSort (· ≤ ·) (pyUnique col)).length_eq] at h2
  intro a ha b hb
  rw [← mem_pyUnique] at ha hb
  match hl : pyUnique col, h2 with
  | [], _ => rw [hl] at ha; simp at ha
  | [c], _ => rw [hl] at ha hb; simp at ha hb; rw [ha, hb]

theorem midpoint_between [IsStrictOrderedRing K] {a b : K} (h : a < b) : a < (a + b) / 2 ∧ (a + b) / 2 < b := by
  constructor
  · rw [lt_div_iff₀ two_pos]; linarith
  · rw [div_lt_iff₀ two_pos]; linarith

/-- Generation with an empty frame and at least one label returns a leaf. -/
theorem generate_empty (o : Oracle V K m) (full : List (Row V m)) (hm : MajOK o.maj) (fuel : Nat) (cols : List (Fin m))
    (ys : List Int) (h : ys ≠ []) : ∃ t, generate o full (fuel + 1) cols [] ys = .ok t := by
  unfold generate
  split
  · cases ys with
    | nil => exact absurd rfl h
    | cons c ys => exact ⟨_, rfl⟩
  · rw [if_pos (.inl rfl)]
    obtain ⟨c, hc, -⟩ := hm.2 ys h
    rw [hc]; exact ⟨_, rfl⟩

/-- What is needed of the criterion for generation to succeed. -/
structure GoodSplits (o : Oracle V K m) : Prop where
  mem : ∀ cols xs ys a p, o.split cols xs ys = some (a, p) → a ∈ cols
  mid : ∀ cols xs ys a t, o.split cols xs ys = some (a, some t) → NeighbourMidpoint (xs.map fun r => o.num (r a)) t
  none : ∀ cols xs ys, o.split cols xs ys = none → ∀ a ∈ cols, ∀ r ∈ xs, ∀ s ∈ xs, r a = s a

theorem criterionOracle_good (imp : List Int → K) (num : V → K) (isCont : List V → Bool) (maj : List Int → Option Int)
    (fl : K → K) (hnum : ∀ D, isCont D = true → ∀ v ∈ D, ∀ w ∈ D, num v = num w → v = w) :
    GoodSplits (criterionOracle (m := m) imp num isCont maj fl) := by
  have key : ∀ cols xs ys, (optimalDivision (m := m) imp num isCont cols xs ys = (none, ⊤, none) ∧
        ∀ a ∈ cols, ∀ r ∈ xs, ∀ s ∈ xs, r a = s a) ∨
      ∃ a ∈ cols, ∃ r : WithTop K × Option (Option K), optimalDivision imp num isCont cols xs ys = (some a, r) ∧ r.1 < ⊤ ∧
        IsCriterion imp num (isCont (xs.map fun r => r a)) (xs.map fun r => r a) ys r := by
    intro cols xs ys
    rcases minLoop_spec (fun a => let D := xs.map fun r : Row V m => r a; getValue imp num (isCont D) D ys) cols (none, ⊤, none) with
      ⟨h1, h2⟩ | ⟨pre, a, post, hl, h1, h2, -, -⟩
    · refine .inl ⟨h1, ?_⟩
      intro a ha r hr s hs
      have h3 := h2 a ha
      have hc := getValue_spec imp num (isCont (xs.map fun r => r a)) (xs.map fun r => r a) ys
      simp only [top_le_iff] at h3
      unfold IsCriterion at hc
      split at hc
      · rename_i hcont
        rcases hc with ⟨hno, -⟩ | ⟨t, -, hr, -⟩
        · have := no_neighbours hno
          refine hnum _ hcont (r a) (List.mem_map.2 ⟨r, hr, rfl⟩) (s a) (List.mem_map.2 ⟨s, hs, rfl⟩) ?_
          exact this _ (by simp only [List.mem_map]; exact ⟨r a, ⟨r, hr, rfl⟩, rfl⟩) _
            (by simp only [List.mem_map]; exact ⟨s a, ⟨s, hs, rfl⟩, rfl⟩)
        · rw [hr] at h3
          simp at h3
      · obtain ⟨vs, -, -, hr⟩ := hc
        rw [hr] at h3
        simp at h3
    · exact .inr ⟨a, by simp [hl], _, h1, h2, getValue_spec imp num _ _ _⟩
  constructor
  · intro cols xs ys a p h
    rcases key cols xs ys with ⟨h1, -⟩ | ⟨b, hb, r, h1, -, -⟩
    · simp [criterionOracle, h1] at h
    · simp only [criterionOracle, h1] at h
      obtain ⟨r1, _ | _ | t⟩ := r <;> simp at h
      · rw [← h.1]; exact hb
      · rw [← h.1]; exact hb
  · intro cols xs ys a t h
    rcases key cols xs ys with ⟨h1, -⟩ | ⟨b, hb, r, h1, -, hc⟩
    · simp [criterionOracle, h1] at h
    · simp only [criterionOracle, h1] at h
      obtain ⟨r1, _ | _ | t'⟩ := r <;> simp at h
      obtain ⟨rfl, rfl⟩ := h
      unfold IsCriterion at hc
      split at hc
      · rcases hc with ⟨-, hr⟩ | ⟨t, ht, hr, -⟩
        · simp at hr
        · simp only [Prod.mk.injEq, Option.some.injEq] at hr
          rw [hr.2]
          simpa [List.map_map, Function.comp_def, criterionOracle] using ht
      · obtain ⟨vs, -, -, hr⟩ := hc
        simp at hr
  · intro cols xs ys h
    rcases key cols xs ys with ⟨-, h2⟩ | ⟨b, hb, r, h1, hlt, hc⟩
    · exact h2
    · exfalso
      simp only [criterionOracle, h1] at h
      obtain ⟨r1, _ | _ | t'⟩ := r <;> simp at h
      unfold IsCriterion at hc
      split at hc
      · rcases hc with ⟨-, hr⟩ | ⟨t, ht, hr, -⟩
        · simp only [Prod.mk.injEq] at hr
          simp [hr.1] at hlt
        · simp at hr
      · obtain ⟨vs, -, -, hr⟩ := hc
        simp at hr

theorem generate_succeeds [IsStrictOrderedRing K] (o : Oracle V K m) (full : List (Row V m)) (hm : MajOK o.maj)
    (hg : GoodSplits o) (hfl : ∀ a, ∀ r ∈ full, ∀ s ∈ full, o.num (r a) < o.num (s a) →
      o.num (r a) < o.fl ((o.num (r a) + o.num (s a)) / 2) ∧ o.fl ((o.num (r a) + o.num (s a)) / 2) ≤ o.num (s a)) :
    ∀ (fuel : Nat) (cols : List (Fin m)) (xs : List (Row V m)) (ys : List Int), (∀ r ∈ xs, r ∈ full) →
    cols.length + xs.length < fuel → xs.length = ys.length → ys ≠ [] →
    (∀ a, a ∉ cols → ∀ r ∈ xs, ∀ s ∈ xs, r a = s a) → Consistent (xs.zip ys) →
    ∃ t, generate o full fuel cols xs ys = .ok t := by
  intro fuel
  induction fuel with
  | zero => intro cols xs ys _ h; omega
  | succ fuel ih =>
    intro cols xs ys hfull hfuel hlen hys hcols hcons
    have hxs : xs ≠ [] := by rintro rfl; apply hys; exact List.length_eq_zero_iff.1 hlen.symm
    have hsame : (∀ a ∈ cols, ∀ r ∈ xs, ∀ s ∈ xs, r a = s a) → (pyUnique ys).length = 1 := by
      intro hall
      apply pyUnique_length_of_const hys
      have hmem : ∀ y ∈ ys, ∃ p ∈ xs.zip ys, p.2 = y := by
        intro y hy
        rw [← map_snd_zip hlen] at hy
        obtain ⟨p, hp, he⟩ := List.mem_map.1 hy
        exact ⟨p, hp, he⟩
      intro y hy z hz
      obtain ⟨p, hp, rfl⟩ := hmem y hy
      obtain ⟨p', hp', rfl⟩ := hmem z hz
      refine hcons p hp p' hp' (funext fun a => ?_)
      have h1 := (List.of_mem_zip (a := p.1) (b := p.2) hp).1
      have h2 := (List.of_mem_zip (a := p'.1) (b := p'.2) hp').1
      by_cases ha : a ∈ cols
      · exact hall a ha _ h1 _ h2
      · exact hcols a ha _ h1 _ h2
    unfold generate
    split
    · cases ys with
      | nil => exact absurd rfl hys
      | cons c ys => exact ⟨_, rfl⟩
    · rename_i hone
      split
      · obtain ⟨c, hc, -⟩ := hm.2 ys hys
        rw [hc]; exact ⟨_, rfl⟩
      · rename_i he
        rw [not_or] at he
        have hsub : ∀ (p : Row V m → Bool) (cols' : List (Fin m)), (∃ r ∈ xs, p r = true) →
            cols'.length + (xs.filter p).length < fuel →
            (∀ a, a ∉ cols' → ∀ r ∈ xs.filter p, ∀ s ∈ xs.filter p, r a = s a) →
            ∃ t, generate o full fuel cols' (xs.filter p) (selY p xs ys) = .ok t := by
          intro p cols' ⟨r, hr, hp⟩ hf hc'
          refine ih _ _ _ (fun r hr => hfull r (List.mem_of_mem_filter hr)) hf (length_selY p xs ys hlen) ?_ hc' ?_
          · intro h0
            have h1 := length_selY p xs ys hlen
            rw [h0] at h1
            have : r ∈ xs.filter p := List.mem_filter.2 ⟨hr, hp⟩
            rw [List.length_eq_zero_iff.1 h1] at this
            simp at this
          · rw [zip_filter_selY p xs ys hlen]
            exact fun a ha b hb => hcons a (List.mem_of_mem_filter ha) b (List.mem_of_mem_filter hb)
        cases hsp : o.split cols xs ys with
        | none => exact absurd (hsame (hg.none _ _ _ hsp)) hone
        | some ap =>
          obtain ⟨a, _ | t₀⟩ := ap
          · simp only
            have ha := hg.mem _ _ _ _ _ hsp
            have hlt : (cols.filter fun c => c ≠ a).length < cols.length :=
              List.length_filter_lt_length_iff_exists.2 ⟨a, ha, by simp⟩
            have hxlen : ∀ v, (xs.filter fun r => decide (r a = v)).length ≤ xs.length := fun v => List.length_filter_le ..
            obtain ⟨f, hf'⟩ := genForest_ok (fun v =>
                if selY (fun r => decide (r a = v)) xs ys = [] then
                  generate o full fuel (cols.filter fun c => c ≠ a) (xs.filter fun r => decide (r a = v)) ys
                else generate o full fuel (cols.filter fun c => c ≠ a) (xs.filter fun r => decide (r a = v))
                  (selY (fun r => decide (r a = v)) xs ys)) (pyUnique (full.map fun r => r a)) (by
                intro v _
                split
                · rename_i hempty
                  have hx0 : (xs.filter fun r => decide (r a = v)) = [] := by
                    apply List.length_eq_zero_iff.1
                    rw [length_selY _ xs ys hlen, hempty]; rfl
                  rw [hx0]
                  cases fuel with
                  | zero => omega
                  | succ fuel => exact generate_empty o full hm fuel _ ys hys
                · rename_i hne
                  apply hsub
                  · by_contra hno
                    apply hne
                    have : (xs.filter fun r => decide (r a = v)) = [] := by
                      rw [List.filter_eq_nil_iff]
                      intro r hr hp
                      exact hno ⟨r, hr, hp⟩
                    apply List.length_eq_zero_iff.1
                    rw [← length_selY _ xs ys hlen, this]; rfl
                  · have := hxlen v; omega
                  · intro b hb r hr s hs
                    simp only [List.mem_filter, decide_eq_true_eq] at hr hs
                    by_cases hba : b = a
                    · subst hba; rw [hr.2, hs.2]
                    · exact hcols b (fun hbc => hb (by simp [hbc, hba])) r hr.1 s hs.1)
            rw [hf']
            exact ⟨_, rfl⟩
          · simp only
            obtain ⟨x, hx, y, hy, hlt, -, rfl⟩ := hg.mid _ _ _ _ _ hsp
            obtain ⟨r, hr, rfl⟩ := List.mem_map.1 hx
            obtain ⟨s, hs, rfl⟩ := List.mem_map.1 hy
            have hb := hfl a r (hfull r hr) s (hfull s hs) hlt
            set t := o.fl ((o.num (r a) + o.num (s a)) / 2) with ht
            have hconst : ∀ p : Row V m → Bool, ∀ b, b ∉ cols → ∀ r ∈ xs.filter p, ∀ s ∈ xs.filter p, r b = s b :=
              fun p b hb r hr s hs => hcols b hb r (List.mem_of_mem_filter hr) s (List.mem_of_mem_filter hs)
            obtain ⟨g, hgg⟩ := hsub (fun r => decide (t ≤ o.num (r a))) cols ⟨s, hs, by simp [hb.2]⟩ (by
              have : (xs.filter fun r => decide (t ≤ o.num (r a))).length < xs.length :=
                List.length_filter_lt_length_iff_exists.2 ⟨r, hr, by simp [hb.1]⟩
              omega) (hconst _)
            obtain ⟨l, hll⟩ := hsub (fun r => decide (o.num (r a) < t)) cols ⟨r, hr, by simp [hb.1]⟩ (by
              have : (xs.filter fun r => decide (o.num (r a) < t)).length < xs.length :=
                List.length_filter_lt_length_iff_exists.2 ⟨s, hs, by simp [hb.2]⟩
              omega) (hconst _)
            rw [hgg, hll]
            exact ⟨_, rfl⟩

end CML.DTree
