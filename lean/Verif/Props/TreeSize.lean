import Verif.Spec.TreeSize
import Verif.Props.Prune
import Verif.Props.Criteria
import Mathlib.Algebra.BigOperators.Fin
import Mathlib.Algebra.Order.BigOperators.Ring.Finset

/-! # The size of decision trees (C230, C231) -/

set_option linter.unusedSectionVars false

namespace CML.DTree

universe u w
variable {V : Type u} {K : Type w} {m : Nat} [DecidableEq V]

section General
variable [LinearOrder K]

/-- A generation step on an empty frame can only return a leaf. -/
theorem generate_nil_leaf {o : Oracle V K m} {full : List (Row V m)} {fuel : Nat} {cols : List (Fin m)} {ys : List Int}
    {t : Tree V K m} (h : generate o full fuel cols [] ys = .ok t) : ∃ c, t = .leaf c := by
  cases fuel with
  | zero => simp [generate] at h
  | succ fuel =>
    rcases generate_cases h with ⟨c, -, -, rfl⟩ | ⟨c, -, -, -, rfl⟩ | ⟨a, t₀, g, l, hx, -⟩ | ⟨a, br, hx, -⟩
    · exact ⟨c, rfl⟩
    · exact ⟨c, rfl⟩
    · exact absurd rfl hx
    · exact absurd rfl hx

/-- A generation step without labels fails. -/
theorem generate_no_labels {o : Oracle V K m} (hm : MajOK o.maj) {full : List (Row V m)} {fuel : Nat} {cols : List (Fin m)}
    {xs : List (Row V m)} {ys : List Int} (hlen : xs.length = ys.length)
    {t : Tree V K m} (h : generate o full fuel cols xs ys = .ok t) : xs ≠ [] := by
  rintro rfl
  have hys : ys = [] := List.length_eq_zero_iff.1 hlen.symm
  subst hys
  cases fuel with
  | zero => simp [generate] at h
  | succ fuel =>
    rcases generate_cases h with ⟨c, hc, -, rfl⟩ | ⟨c, -, -, hc, rfl⟩ | ⟨a, t₀, g, l, hx, -⟩ | ⟨a, br, hx, -⟩
    · simp at hc
    · rw [hm.1] at hc; simp at hc
    · exact absurd rfl hx
    · exact absurd rfl hx

/-- The two parts of a frame split at a point. -/
theorem split_lengths (xs : List (Row V m)) (a : Fin m) (num : V → K) (t : K) :
    (xs.filter fun r => decide (t ≤ num (r a))).length + (xs.filter fun r => decide (num (r a) < t)).length = xs.length := by
  have : (fun r : Row V m => decide (num (r a) < t)) = fun r => !decide (t ≤ num (r a)) := by
    funext r; rw [Bool.eq_iff_iff]; simp
  rw [this]
  exact (List.length_eq_length_filter_add _).symm

theorem generate_paths (o : Oracle V K m) (hm : MajOK o.maj)
    (hmem : ∀ cols xs ys a p, o.split cols xs ys = some (a, p) → a ∈ cols) (full : List (Row V m)) :
    ∀ (fuel : Nat) (cols : List (Fin m)) (xs : List (Row V m)) (ys : List Int) (t : Tree V K m),
    generate o full fuel cols xs ys = .ok t → xs = [] ∨ xs.length = ys.length → ∀ p, IsPath t p →
    (byValue p).Nodup ∧ (∀ a ∈ byValue p, a ∈ cols) ∧ (byPoint p).length ≤ xs.length - 1 ∧ (∀ e ∈ p, e.1 ∈ cols) := by
  intro fuel
  induction fuel with
  | zero => intro cols xs ys t h; simp [generate] at h
  | succ fuel ih =>
    intro cols xs ys t h hlen p hp
    rcases generate_cases h with ⟨c, -, -, rfl⟩ | ⟨c, -, -, -, rfl⟩ | ⟨a, t₀, g, l, hx, -, hs, hg, hl, rfl⟩ |
      ⟨a, br, hx, -, hs, hbr, rfl⟩
    · cases hp; simp [byValue, byPoint]
    · cases hp; simp [byValue, byPoint]
    · have hlen' := hlen.resolve_left hx
      have hl1 := length_selY (fun r => decide (o.fl t₀ ≤ o.num (r a))) xs ys hlen'
      have hl2 := length_selY (fun r => decide (o.num (r a) < o.fl t₀)) xs ys hlen'
      have hn1 := List.length_pos_iff.2 (generate_no_labels hm hl1 hg)
      have hn2 := List.length_pos_iff.2 (generate_no_labels hm hl2 hl)
      have hsum := split_lengths xs a o.num (o.fl t₀)
      have ha := hmem _ _ _ _ _ hs
      cases hp with
      | ge hp =>
        obtain ⟨h1, h2, h3, h4⟩ := ih _ _ _ _ hg (.inr hl1) _ hp
        refine ⟨by simpa [byValue] using h1, by simpa [byValue] using h2, ?_, ?_⟩
        · simp only [byPoint, List.filter_cons, Bool.not_false, if_true, List.map_cons, List.length_cons] at h3 ⊢
          omega
        · intro e he
          rcases List.mem_cons.1 he with rfl | he
          · exact ha
          · exact h4 e he
      | lt hp =>
        obtain ⟨h1, h2, h3, h4⟩ := ih _ _ _ _ hl (.inr hl2) _ hp
        refine ⟨by simpa [byValue] using h1, by simpa [byValue] using h2, ?_, ?_⟩
        · simp only [byPoint, List.filter_cons, Bool.not_false, if_true, List.map_cons, List.length_cons] at h3 ⊢
          omega
        · intro e he
          rcases List.mem_cons.1 he with rfl | he
          · exact ha
          · exact h4 e he
    · have hlen' := hlen.resolve_left hx
      have ha := hmem _ _ _ _ _ hs
      cases hp with
      | branch hsm hp =>
        rename_i s p
        have key : ∀ s ∈ br.trees, ∀ p, IsPath s p → (byValue p).Nodup ∧ (∀ b ∈ byValue p, b ∈ cols.filter fun c => c ≠ a) ∧
            (byPoint p).length ≤ xs.length - 1 ∧ (∀ e ∈ p, e.1 ∈ cols.filter fun c => c ≠ a) := by
          refine genForest_trees _ _ _ _ (fun v _ t ht p hp => ?_) hbr
          have hle : (xs.filter fun r => decide (r a = v)).length ≤ xs.length := List.length_filter_le _ _
          split at ht
          · rename_i he
            have h0 := length_selY (fun r => decide (r a = v)) xs ys hlen'
            rw [he, List.length_nil] at h0
            obtain ⟨h1, h2, h3, h4⟩ := ih _ _ _ _ ht (.inl (List.length_eq_zero_iff.1 h0)) p hp
            exact ⟨h1, h2, by omega, h4⟩
          · obtain ⟨h1, h2, h3, h4⟩ := ih _ _ _ _ ht (.inr (length_selY _ xs ys hlen')) p hp
            exact ⟨h1, h2, by omega, h4⟩
        obtain ⟨h1, h2, h3, h4⟩ := key s hsm p hp
        have e1 : byValue ((a, true) :: p) = a :: byValue p := by simp [byValue]
        have e2 : byPoint ((a, true) :: p) = byPoint p := by simp [byPoint]
        rw [e1, e2]
        refine ⟨List.nodup_cons.2 ⟨fun h => ?_, h1⟩, ?_, h3, ?_⟩
        · have := h2 a h; simp at this
        · intro b hb
          rcases List.mem_cons.1 hb with rfl | hb
          · exact ha
          · exact List.mem_of_mem_filter (h2 b hb)
        · intro e he
          rcases List.mem_cons.1 he with rfl | he
          · exact ha
          · exact List.mem_of_mem_filter (h4 e he)

end General

section Library
variable [Field K] [LinearOrder K] [IsStrictOrderedRing K]

theorem library_mem {o : Oracle V K m} (ho : LibraryOracle o) :
    ∀ cols xs ys a p, o.split cols xs ys = some (a, p) → a ∈ cols := by
  obtain ⟨imp, num, isCont, maj, fl, -, rfl | rfl⟩ := ho
  · intro cols xs ys a p h
    rcases C24_generator_choice imp num isCont maj fl cols xs ys with ⟨h1, -⟩ | ⟨b, hb, q, h1, -⟩
    · rw [h1] at h; simp at h
    · rw [h1] at h; simp only [Option.some.injEq, Prod.mk.injEq] at h; exact h.1 ▸ hb
  · intro cols xs ys a p h
    rcases C24_generator_choice_gain imp num isCont maj fl cols xs ys with ⟨h1, -⟩ | ⟨b, hb, q, h1, -⟩
    · rw [h1] at h; simp at h
    · rw [h1] at h; simp only [Option.some.injEq, Prod.mk.injEq] at h; exact h.1 ▸ hb

theorem library_maj {o : Oracle V K m} (ho : LibraryOracle o) : MajOK o.maj := by
  obtain ⟨imp, num, isCont, maj, fl, h, rfl | rfl⟩ := ho <;> exact h

/-- C230: on a path of a fitted tree every attribute is tested by value at most once, hence at most `m` such tests, and there are
fewer comparisons with dividing points than training samples.  Both hold with any rounding of the dividing points. -/
theorem C230_paths (o : Oracle V K m) (ho : LibraryOracle o) (limit : Nat) (xs : List (Row V m)) (ys : List Int)
    (hlen : xs.length = ys.length) (t : Tree V K m) (hfit : fit o limit xs ys = .ok t) (p : List (Fin m × Bool))
    (hp : IsPath t p) :
    (byValue p).Nodup ∧ (byValue p).length ≤ m ∧ (byPoint p).length < xs.length := by
  have hne := generate_no_labels (library_maj ho) hlen hfit
  have hpos := List.length_pos_iff.2 hne
  obtain ⟨h1, -, h3, -⟩ := generate_paths o (library_maj ho) (library_mem ho) xs _ _ _ _ _ hfit (.inr hlen) p hp
  refine ⟨h1, ?_, by omega⟩
  have := h1.length_le_card
  simpa using this

end Library

mutual
theorem depth_path : ∀ t : Tree V K m, t.All HasBranch → ∃ p, IsPath t p ∧ p.length = t.depth
  | .leaf c, _ => ⟨[], .leaf c, rfl⟩
  | .cont a t n h g l, hb => by
    obtain ⟨p, hp, hpl⟩ := depth_path g hb.2.1
    obtain ⟨q, hq, hql⟩ := depth_path l hb.2.2
    rcases le_total g.depth l.depth with hle | hle
    · exact ⟨(a, false) :: q, .lt hq, by simp [Tree.depth, hql, hle]⟩
    · exact ⟨(a, false) :: p, .ge hp, by simp [Tree.depth, hpl, hle]⟩
  | .disc a n h br, hb => by
    obtain ⟨s, hs, p, hp, hl⟩ := height_path br hb.2 hb.1
    exact ⟨(a, true) :: p, .branch hs hp, by simp [Tree.depth, hl]⟩
theorem height_path : ∀ f : Forest V K m, f.All HasBranch → f.trees ≠ [] →
    ∃ s ∈ f.trees, ∃ p, IsPath s p ∧ p.length + 1 = f.height1
  | .nil, _, h => absurd rfl h
  | .cons v t .nil, hb, _ => by
    obtain ⟨p, hp, hl⟩ := depth_path t hb.1
    exact ⟨t, by simp [Forest.trees], p, hp, by simp [Forest.height1, hl]⟩
  | .cons v t (.cons w s r), hb, _ => by
    obtain ⟨p, hp, hl⟩ := depth_path t hb.1
    obtain ⟨s', hs', q, hq, hql⟩ := height_path (.cons w s r) hb.2 (by simp [Forest.trees])
    rcases le_total (t.depth + 1) (Forest.cons w s r).height1 with hle | hle
    · refine ⟨s', by rw [Forest.trees]; exact List.mem_cons_of_mem _ hs', q, hq, ?_⟩
      rw [Forest.height1, hql]; omega
    · refine ⟨t, by simp [Forest.trees], p, hp, ?_⟩
      rw [Forest.height1, hl]; omega
end

theorem path_split (p : List (Fin m × Bool)) : (byValue p).length + (byPoint p).length = p.length := by
  simp only [byValue, byPoint, List.length_map]
  exact (List.length_eq_length_filter_add _).symm

section Library
variable [Field K] [LinearOrder K] [IsStrictOrderedRing K]

/-- C230: a fitted tree is less deep than the number of attributes plus the number of samples. -/
theorem C230_depth (o : Oracle V K m) (ho : LibraryOracle o) (limit : Nat) (xs : List (Row V m)) (ys : List Int)
    (hlen : xs.length = ys.length) (t : Tree V K m) (hfit : fit o limit xs ys = .ok t) : t.depth < m + xs.length := by
  have hne := generate_no_labels (library_maj ho) hlen hfit
  obtain ⟨p, hp, hl⟩ := depth_path t (sturdy_hasBranch (generate_sturdy o xs hne _ _ _ _ _ hfit))
  obtain ⟨-, h1, h2⟩ := C230_paths o ho limit xs ys hlen t hfit p hp
  have := path_split p
  omega

/-- C230: a tree without dividing points is at most as deep as there are attributes. -/
theorem C230_discrete (o : Oracle V K m) (ho : LibraryOracle o) (limit : Nat) (xs : List (Row V m)) (ys : List Int)
    (hlen : xs.length = ys.length) (t : Tree V K m) (hfit : fit o limit xs ys = .ok t)
    (hd : ∀ p, IsPath t p → byPoint p = []) : t.depth ≤ m := by
  have hne := generate_no_labels (library_maj ho) hlen hfit
  obtain ⟨p, hp, hl⟩ := depth_path t (sturdy_hasBranch (generate_sturdy o xs hne _ _ _ _ _ hfit))
  obtain ⟨-, h1, h2⟩ := C230_paths o ho limit xs ys hlen t hfit p hp
  have := path_split p
  rw [hd p hp] at this
  simp at this
  omega

end Library

theorem forest_leaves_le (B : Nat) : ∀ f : Forest V K m, (∀ t ∈ f.trees, t.leaves ≤ B) → f.leaves ≤ f.trees.length * B
  | .nil, _ => by simp [Forest.leaves, Forest.trees]
  | .cons v t r, h => by
    have h1 := h t (by simp [Forest.trees])
    have h2 := forest_leaves_le B r fun s hs => h s (by simp [Forest.trees, hs])
    simp only [Forest.leaves, Forest.trees, List.length_cons]
    rw [Nat.add_mul]; omega

theorem keys_length : ∀ f : Forest V K m, f.keys.length = f.trees.length
  | .nil => rfl
  | .cons v t r => by simp [Forest.keys, Forest.trees, keys_length r]

theorem pyUnique_length (l : List V) : (pyUnique l).length = l.dedup.length := by
  apply List.Perm.length_eq
  rw [List.perm_ext_iff_of_nodup (nodup_pyUnique l) (List.nodup_dedup l)]
  intro v; rw [mem_pyUnique, List.mem_dedup]

theorem generate_leaf_bound [LinearOrder K] (o : Oracle V K m) (hm : MajOK o.maj)
    (hmem : ∀ cols xs ys a p, o.split cols xs ys = some (a, p) → a ∈ cols) (full : List (Row V m)) (hfull : full ≠ []) :
    ∀ (fuel : Nat) (cols : List (Fin m)) (xs : List (Row V m)) (ys : List Int) (t : Tree V K m),
    generate o full fuel cols xs ys = .ok t → xs = [] ∨ xs.length = ys.length → cols.Nodup →
    t.leaves ≤ max 1 xs.length * (cols.map (valueCount full)).prod := by
  have hvc : ∀ a, 0 < valueCount full a := by
    intro a
    obtain ⟨r, hr⟩ := List.exists_mem_of_ne_nil _ hfull
    exact List.length_pos_of_mem (List.mem_dedup.2 (List.mem_map.2 ⟨r, hr, rfl⟩))
  have hpos : ∀ cols : List (Fin m), 0 < (cols.map (valueCount full)).prod := by
    intro cols
    induction cols with
    | nil => simp
    | cons a l ih => rw [List.map_cons, List.prod_cons]; exact Nat.mul_pos (hvc a) ih
  have hone : ∀ (cols : List (Fin m)) (n : Nat), 1 ≤ max 1 n * (cols.map (valueCount full)).prod := fun cols n =>
    Nat.mul_pos (by omega) (hpos cols)
  intro fuel
  induction fuel with
  | zero => intro cols xs ys t h; simp [generate] at h
  | succ fuel ih =>
    intro cols xs ys t h hlen hnd
    rcases generate_cases h with ⟨c, -, -, rfl⟩ | ⟨c, -, -, -, rfl⟩ | ⟨a, t₀, g, l, hx, -, hs, hg, hl, rfl⟩ |
      ⟨a, br, hx, -, hs, hbr, rfl⟩
    · exact hone _ _
    · exact hone _ _
    · have hlen' := hlen.resolve_left hx
      have hl1 := length_selY (fun r => decide (o.fl t₀ ≤ o.num (r a))) xs ys hlen'
      have hl2 := length_selY (fun r => decide (o.num (r a) < o.fl t₀)) xs ys hlen'
      have hn1 := List.length_pos_iff.2 (generate_no_labels hm hl1 hg)
      have hn2 := List.length_pos_iff.2 (generate_no_labels hm hl2 hl)
      have hsum := split_lengths xs a o.num (o.fl t₀)
      have h1 := ih _ _ _ _ hg (.inr hl1) hnd
      have h2 := ih _ _ _ _ hl (.inr hl2) hnd
      rw [max_eq_right hn1] at h1
      rw [max_eq_right hn2] at h2
      rw [max_eq_right (by omega), ← hsum, Nat.add_mul]
      simp only [Tree.leaves]
      omega
    · have hlen' := hlen.resolve_left hx
      have hxp := List.length_pos_iff.2 hx
      have ha := hmem _ _ _ _ _ hs
      have hb : ∀ s ∈ br.trees, s.leaves ≤ xs.length * ((cols.filter fun c => c ≠ a).map (valueCount full)).prod := by
        refine genForest_trees _ _ _ _ (fun v _ t ht => ?_) hbr
        have hle : (xs.filter fun r => decide (r a = v)).length ≤ xs.length := List.length_filter_le _ _
        split at ht
        · rename_i he
          have h0 := length_selY (fun r => decide (r a = v)) xs ys hlen'
          rw [he, List.length_nil] at h0
          refine le_trans (ih _ _ _ _ ht (.inl (List.length_eq_zero_iff.1 h0)) (hnd.filter _)) ?_
          exact Nat.mul_le_mul_right _ (by omega)
        · refine le_trans (ih _ _ _ _ ht (.inr (length_selY _ xs ys hlen')) (hnd.filter _)) ?_
          exact Nat.mul_le_mul_right _ (by omega)
      have h1 := forest_leaves_le _ br hb
      rw [← keys_length, genForest_keys _ _ _ hbr, pyUnique_length] at h1
      have hperm : cols.Perm (a :: cols.filter fun c => c ≠ a) := by
        rw [List.perm_ext_iff_of_nodup hnd (List.nodup_cons.2 ⟨by simp, hnd.filter _⟩)]
        intro b
        by_cases hb : b = a
        · subst hb; simp [ha]
        · simp [hb]
      rw [(hperm.map (valueCount full)).prod_eq, List.map_cons, List.prod_cons, max_eq_right hxp]
      simp only [Tree.leaves]
      refine le_trans h1 (le_of_eq ?_)
      simp only [valueCount]
      ring

theorem generate_leaf_cont [LinearOrder K] (o : Oracle V K m) (hm : MajOK o.maj) (full : List (Row V m)) :
    ∀ (fuel : Nat) (cols : List (Fin m)) (xs : List (Row V m)) (ys : List Int) (t : Tree V K m),
    generate o full fuel cols xs ys = .ok t → xs.length = ys.length → t.discAttrs = [] → t.leaves ≤ xs.length := by
  intro fuel
  induction fuel with
  | zero => intro cols xs ys t h; simp [generate] at h
  | succ fuel ih =>
    intro cols xs ys t h hlen hd
    have hpos := List.length_pos_iff.2 (generate_no_labels hm hlen h)
    rcases generate_cases h with ⟨c, -, -, rfl⟩ | ⟨c, -, -, -, rfl⟩ | ⟨a, t₀, g, l, hx, -, hs, hg, hl, rfl⟩ |
      ⟨a, br, hx, -, hs, hbr, rfl⟩
    · exact hpos
    · exact hpos
    · simp only [Tree.discAttrs, List.append_eq_nil_iff] at hd
      have h1 := ih _ _ _ _ hg (length_selY _ xs ys hlen) hd.1
      have h2 := ih _ _ _ _ hl (length_selY _ xs ys hlen) hd.2
      have hsum := split_lengths xs a o.num (o.fl t₀)
      simp only [Tree.leaves]
      omega
    · simp [Tree.discAttrs] at hd

section Library
variable [Field K] [LinearOrder K] [IsStrictOrderedRing K]

/-- C231 is proved for trees that test no attribute by value: they have at most as many leaves as training samples. -/
theorem C231_leaves_partial (o : Oracle V K m) (ho : LibraryOracle o) (limit : Nat) (xs : List (Row V m)) (ys : List Int)
    (hlen : xs.length = ys.length) (t : Tree V K m) (hfit : fit o limit xs ys = .ok t) (hd : t.discAttrs = []) :
    t.leaves ≤ xs.length :=
  generate_leaf_cont o (library_maj ho) xs _ _ _ _ _ hfit hlen hd

/-- C231 in general: the number of samples times the number of combinations of attribute values. -/
theorem C231_bound (o : Oracle V K m) (ho : LibraryOracle o) (limit : Nat) (xs : List (Row V m)) (ys : List Int)
    (hlen : xs.length = ys.length) (t : Tree V K m) (hfit : fit o limit xs ys = .ok t) :
    t.leaves ≤ xs.length * ∏ a : Fin m, valueCount xs a := by
  have hne := generate_no_labels (library_maj ho) hlen hfit
  have h := generate_leaf_bound o (library_maj ho) (library_mem ho) xs hne _ _ _ _ _ hfit (.inr hlen) (List.nodup_finRange m)
  rwa [max_eq_right (List.length_pos_iff.2 hne), ← Fin.prod_univ_def] at h

end Library

/-- C231 is false with attributes tested by value: a node has a branch for every value of the attribute in the whole training
frame, also for those that no sample at the node has. -/
theorem C231_violated : ∃ (xs : List (Row ℚ 2)) (ys : List Int) (t : Tree ℚ ℚ 2), xs.length = ys.length ∧
    LibraryOracle (giniDiscrete 2) ∧ fit (giniDiscrete 2) 10 xs ys = .ok t ∧ xs.length = 5 ∧ t.leaves = 7 ∧ t.nl = 7 := by
  obtain ⟨t, h1, h2⟩ := exists_ok (x := fit (giniDiscrete 2) 10 [![0, 0], ![0, 1], ![1, 0], ![1, 1], ![2, 2]] [0, 1, 1, 0, 0])
    (fun t => decide (t.leaves = 7 ∧ t.nl = 7)) (by decide +kernel)
  exact ⟨_, _, t, rfl, ⟨_, _, _, _, _, majFirst_ok, .inl rfl⟩, h1, rfl, (of_decide_eq_true h2).1, (of_decide_eq_true h2).2⟩

/-- The hypotheses of C230 and C231 are met by a mixed tree of depth 2, and by a purely continuous one with as many leaves as
samples. -/
example : (∃ t, LibraryOracle (giniOracle 2) ∧
      fit (giniOracle 2) 10 [![1/2, 0], ![3/2, 1], ![3/2, 0], ![5/2, 1]] [0, 1, 2, 1] = .ok t ∧ t.depth = 2) ∧
    ∃ t, fit (giniOracle 1) 10 [![1/2], ![3/2], ![5/2], ![7/2]] [0, 1, 0, 1] = .ok t ∧ t.discAttrs = [] ∧ t.leaves = 4 := by
  constructor
  · obtain ⟨t, h1, h2⟩ := exists_ok (x := fit (giniOracle 2) 10 [![1/2, 0], ![3/2, 1], ![3/2, 0], ![5/2, 1]] [0, 1, 2, 1])
      (fun t => decide (t.depth = 2)) (by decide +kernel)
    exact ⟨t, ⟨_, _, _, _, _, majFirst_ok, .inl rfl⟩, h1, of_decide_eq_true h2⟩
  · obtain ⟨t, h1, h2⟩ := exists_ok (x := fit (giniOracle 1) 10 [![1/2], ![3/2], ![5/2], ![7/2]] [0, 1, 0, 1])
      (fun t => decide (t.discAttrs = [] ∧ t.leaves = 4)) (by decide +kernel)
    exact ⟨t, h1, (of_decide_eq_true h2).1, (of_decide_eq_true h2).2⟩

/-! ## C232: pruning does not enlarge a tree -/

mutual
theorem leaves_pos : ∀ t : Tree V K m, t.All HasBranch → 0 < t.leaves
  | .leaf _, _ => Nat.one_pos
  | .cont _ _ _ _ g l, h => by
    have := leaves_pos g h.2.1
    simp only [Tree.leaves]; omega
  | .disc _ _ _ br, h => by
    simp only [Tree.leaves]
    exact forest_leaves_pos br h.2 h.1
theorem forest_leaves_pos : ∀ f : Forest V K m, f.All HasBranch → f.trees ≠ [] → 0 < f.leaves
  | .nil, _, h => absurd rfl h
  | .cons v t r, h, _ => by
    have := leaves_pos t h.1
    simp only [Forest.leaves]; omega
end

section Prune
variable [LinearOrder K]

mutual
theorem postPrune_size (num : V → K) (maj : List Int → Option Int) : ∀ (t : Tree V K m) (tr v : Data V m) (t' : Tree V K m),
    postPrune num maj t tr v = .ok t' → t.All HasBranch → t'.leaves ≤ t.leaves ∧ t'.depth ≤ t.depth
  | .leaf c, tr, v, t', h, _ => by
    simp only [postPrune, Except.ok.injEq] at h
    subst h; exact ⟨le_refl _, le_refl _⟩
  | .cont a t n ht g l, tr, v, t', h, hb => by
    by_cases hv : v = []
    · subst hv; simp [postPrune] at h; subst h; exact ⟨le_refl _, le_refl _⟩
    obtain ⟨c, g', l', -, hg, hl, (⟨rfl, -⟩ | ⟨n', h', rfl, -⟩)⟩ := postPrune_cont h hv
    · exact ⟨leaves_pos _ hb, Nat.zero_le _⟩
    · obtain ⟨h1, h2⟩ := postPrune_size num maj g _ _ g' hg hb.2.1
      obtain ⟨h3, h4⟩ := postPrune_size num maj l _ _ l' hl hb.2.2
      simp only [Tree.leaves, Tree.depth]
      omega
  | .disc a n ht br, tr, v, t', h, hb => by
    by_cases hv : v = []
    · subst hv; simp [postPrune] at h; subst h; exact ⟨le_refl _, le_refl _⟩
    obtain ⟨c, br', -, hbr, (⟨rfl, -⟩ | ⟨n', h', rfl, -⟩)⟩ := postPrune_disc h hv
    · exact ⟨leaves_pos _ hb, Nat.zero_le _⟩
    · simp only [Tree.leaves, Tree.depth]
      exact postPruneIn_size num maj a br _ _ br' hbr hb.2
theorem postPruneIn_size (num : V → K) (maj : List Int → Option Int) (a : Fin m) :
    ∀ (f : Forest V K m) (tr v : Data V m) (f' : Forest V K m),
    postPruneIn num maj a f tr v = .ok f' → f.All HasBranch → f'.leaves ≤ f.leaves ∧ f'.height1 ≤ f.height1
  | .nil, tr, v, f', h, _ => by
    simp only [postPruneIn, Except.ok.injEq] at h
    subst h; exact ⟨le_refl _, le_refl _⟩
  | .cons w t rest, tr, v, f', h, hb => by
    rw [postPruneIn] at h
    split at h
    · exact absurd h (by simp)
    · rename_i t' ht'
      split at h
      · exact absurd h (by simp)
      · rename_i r hr
        simp only [Except.ok.injEq] at h
        subst h
        obtain ⟨h1, h2⟩ := postPrune_size num maj t _ _ t' ht' hb.1
        obtain ⟨h3, h4⟩ := postPruneIn_size num maj a rest _ _ r hr hb.2
        simp only [Forest.leaves, Forest.height1]
        omega
end

mutual
theorem prePrune_size [Zero K] (num : V → K) (maj : List Int → Option Int) : ∀ (t : Tree V K m) (tr v : Data V m) (t' : Tree V K m),
    prePrune num maj t tr v = .ok t' → t.All HasBranch → t'.leaves ≤ t.leaves ∧ t'.depth ≤ t.depth
  | .leaf c, tr, v, t', h, _ => by
    simp only [prePrune, Except.ok.injEq] at h
    subst h; exact ⟨le_refl _, le_refl _⟩
  | .cont a t n ht g l, tr, v, t', h, hb => by
    by_cases hv : v = []
    · subst hv; simp [prePrune] at h; subst h; exact ⟨le_refl _, le_refl _⟩
    obtain ⟨-, c, -, (⟨rfl, -⟩ | ⟨g', l', n', h', hg, hl, rfl, -⟩)⟩ := prePrune_cont h hv
    · exact ⟨leaves_pos _ hb, Nat.zero_le _⟩
    · obtain ⟨h1, h2⟩ := prePrune_size num maj g _ _ g' hg hb.2.1
      obtain ⟨h3, h4⟩ := prePrune_size num maj l _ _ l' hl hb.2.2
      simp only [Tree.leaves, Tree.depth]
      omega
  | .disc a n ht br, tr, v, t', h, hb => by
    by_cases hv : v = []
    · subst hv; simp [prePrune] at h; subst h; exact ⟨le_refl _, le_refl _⟩
    obtain ⟨c, -, -, (⟨rfl, -⟩ | ⟨br', hbr, rfl, -⟩)⟩ := prePrune_disc h hv
    · exact ⟨leaves_pos _ hb, Nat.zero_le _⟩
    · simp only [Tree.leaves, Tree.depth]
      exact prePruneIn_size num maj a br _ _ br' hbr hb.2
theorem prePruneIn_size [Zero K] (num : V → K) (maj : List Int → Option Int) (a : Fin m) :
    ∀ (f : Forest V K m) (tr v : Data V m) (f' : Forest V K m),
    prePruneIn num maj a f tr v = .ok f' → f.All HasBranch → f'.leaves ≤ f.leaves ∧ f'.height1 ≤ f.height1
  | .nil, tr, v, f', h, _ => by
    simp only [prePruneIn, Except.ok.injEq] at h
    subst h; exact ⟨le_refl _, le_refl _⟩
  | .cons w t rest, tr, v, f', h, hb => by
    rw [prePruneIn] at h
    split at h
    · exact absurd h (by simp)
    · rename_i t' ht'
      split at h
      · exact absurd h (by simp)
      · rename_i r hr
        simp only [Except.ok.injEq] at h
        subst h
        obtain ⟨h1, h2⟩ := prePrune_size num maj t _ _ t' ht' hb.1
        obtain ⟨h3, h4⟩ := prePruneIn_size num maj a rest _ _ r hr hb.2
        simp only [Forest.leaves, Forest.height1]
        omega
end

/-- C232: a fitted tree that is post-pruned has at most as many leaves and is at most as deep as before. -/
theorem C232_post (o : Oracle V K m) (limit : Nat) (xs : List (Row V m)) (hne : xs ≠ []) (ys : List Int) (t t' : Tree V K m)
    (hfit : fit o limit xs ys = .ok t) (val : Data V m) (h : postPrune o.num o.maj t (xs.zip ys) val = .ok t') :
    t'.leaves ≤ t.leaves ∧ t'.depth ≤ t.depth :=
  postPrune_size _ _ _ _ _ _ h (sturdy_hasBranch (generate_sturdy o xs hne _ _ _ _ _ hfit))

/-- C232: likewise for pre-pruning. -/
theorem C232_pre [Zero K] (o : Oracle V K m) (limit : Nat) (xs : List (Row V m)) (hne : xs ≠ []) (ys : List Int) (t t' : Tree V K m)
    (hfit : fit o limit xs ys = .ok t) (val : Data V m) (h : prePrune o.num o.maj t (xs.zip ys) val = .ok t') :
    t'.leaves ≤ t.leaves ∧ t'.depth ≤ t.depth :=
  prePrune_size _ _ _ _ _ _ h (sturdy_hasBranch (generate_sturdy o xs hne _ _ _ _ _ hfit))

end Prune

/-- Both prunings shrink this tree from 2 leaves to 1. -/
example : ∃ t t' t'', fit (giniDiscrete 1) 10 [![0], ![0], ![1]] [0, 0, 1] = .ok t ∧ t.leaves = 2 ∧
    postPrune id majFirst t ([![0], ![0], ![1]].zip [0, 0, 1]) [(![0], 0), (![1], 0)] = .ok t' ∧ t'.leaves = 1 ∧
    prePrune id majFirst t ([![0], ![0], ![1]].zip [0, 0, 1]) [(![0], 0), (![1], 0)] = .ok t'' ∧ t''.leaves = 1 := by
  obtain ⟨t, h1, h2⟩ := exists_ok (x := fit (giniDiscrete 1) 10 [![0], ![0], ![1]] [0, 0, 1])
    (fun t => decide (t.leaves = 2) &&
      (onOk (postPrune id majFirst t ([![0], ![0], ![1]].zip [0, 0, 1]) [(![0], 0), (![1], 0)]) (fun t' => decide (t'.leaves = 1)) &&
       onOk (prePrune id majFirst t ([![0], ![0], ![1]].zip [0, 0, 1]) [(![0], 0), (![1], 0)]) (fun t' => decide (t'.leaves = 1))))
    (by decide +kernel)
  simp only [Bool.and_eq_true] at h2
  obtain ⟨h3, h4, h5⟩ := h2
  obtain ⟨t', h6, h7⟩ := exists_ok _ h4
  obtain ⟨t'', h8, h9⟩ := exists_ok _ h5
  exact ⟨t, t', t'', h1, of_decide_eq_true h3, h6, of_decide_eq_true h7, h8, of_decide_eq_true h9⟩

end CML.DTree
