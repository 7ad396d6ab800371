import Verif.Lemmas.Tree

set_option linter.unusedSectionVars false

/-! # Lemmas about pruning -/

namespace CML.DTree

universe u w
variable {V : Type u} {K : Type w} {m : Nat} [DecidableEq V] [LinearOrder K]

/-! ## Counting by groups -/

theorem countP_by_group {α β : Type*} [DecidableEq β] (f : α → β) (p p' : α → Bool) : ∀ (n : Nat) (l : List α), l.length ≤ n →
    (∀ w, (l.filter fun x => f x = w).countP p ≤ (l.filter fun x => f x = w).countP p') → l.countP p ≤ l.countP p' := by
  intro n
  induction n with
  | zero => intro l hl _; have : l = [] := List.length_eq_zero_iff.1 (by omega); simp [this]
  | succ n ih =>
    intro l hl h
    cases l with
    | nil => simp
    | cons a l =>
      have hsplit : ∀ q : α → Bool, (a :: l).countP q =
          ((a :: l).filter fun x => f x = f a).countP q + ((a :: l).filter fun x => ¬ f x = f a).countP q := by
        intro q
        rw [List.countP_filter, List.countP_filter, List.countP_eq_length_filter]
        generalize a :: l = l'
        induction l' with
        | nil => simp
        | cons b l' ih' =>
          by_cases hb : q b <;> by_cases hf : f b = f a <;> simp_all <;> omega
      rw [hsplit p, hsplit p']
      refine Nat.add_le_add (h _) (ih _ ?_ ?_)
      · have hlt : ((a :: l).filter fun x => ¬ f x = f a).length < (a :: l).length :=
          List.length_filter_lt_length_iff_exists.2 ⟨a, List.mem_cons_self, by simp⟩
        simp only [decide_not] at hlt ⊢
        omega
      · intro w
        rw [List.filter_filter]
        by_cases hw : w = f a
        · have : ((a :: l).filter fun x => decide (f x = w) && decide (¬ f x = f a)) = [] := by
            rw [List.filter_eq_nil_iff]; intro x _; simp [hw]
          rw [this]; simp
        · have : ((a :: l).filter fun x => decide (f x = w) && decide (¬ f x = f a)) = (a :: l).filter fun x => f x = w := by
            apply List.filter_congr
            intro x _
            by_cases hx : f x = w
            · simp [hx, hw]
            · simp [hx]
          rw [this]; exact h w

theorem countP_split {α : Type*} (b q : α → Bool) (l : List α) :
    l.countP q = (l.filter b).countP q + (l.filter fun x => ! b x).countP q := by
  rw [List.countP_filter, List.countP_filter, List.countP_eq_length_filter]
  induction l with
  | nil => simp
  | cons a l ih => by_cases hb : q a <;> by_cases hf : b a <;> simp_all <;> omega

/-! ## Post-pruning keeps the validation score -/

variable (num : V → K) (maj : List Int → Option Int)

theorem leafOf_eq (r : Row V m) (v : V) (c : Int) : ∀ br : Forest V K m, allLeaves br = true →
    (leafOf v br = some c ↔ predictIn num r v br = .ok c)
  | .nil, _ => by simp [leafOf, predictIn]
  | .cons w t rest, h => by
    simp only [allLeaves, Bool.and_eq_true] at h
    have ih := leafOf_eq r v c rest h.2
    cases t with
    | leaf d =>
      simp only [leafOf, predictIn]
      split
      · simp [predict]
      · exact ih
    | cont => simp [Tree.isLeaf] at h
    | disc => simp [Tree.isLeaf] at h

theorem countP_eq (p : Row V m × Int → Bool) (val : List (Row V m × Int)) : countP p val = val.countP p := by
  rw [countP, List.countP_eq_length_filter]

theorem correct_cont (a : Fin m) (t : K) (n h : Int) (g l : Tree V K m) (val : List (Row V m × Int)) :
    correct num (.cont a t n h g l) val =
      correct num g (val.filter fun q => t ≤ num (q.1 a)) + correct num l (val.filter fun q => num (q.1 a) < t) := by
  unfold correct
  rw [countP_split (fun q : Row V m × Int => decide (t ≤ num (q.1 a)))]
  have hneg : (val.filter fun x : Row V m × Int => ! decide (t ≤ num (x.1 a))) = val.filter fun q => num (q.1 a) < t := by
    apply List.filter_congr
    intro x _
    by_cases hx : t ≤ num (x.1 a)
    · simp [hx, not_lt.2 hx]
    · simp [hx, lt_of_not_ge hx]
  rw [hneg]
  congr 1
  · apply List.countP_congr
    intro q hq
    simp only [List.mem_filter, decide_eq_true_eq] at hq
    rw [predict, if_pos hq.2]
  · apply List.countP_congr
    intro q hq
    simp only [List.mem_filter, decide_eq_true_eq] at hq
    rw [predict, if_neg (not_le.2 hq.2)]

mutual
theorem postPrune_correct : ∀ (t : Tree V K m) (train val : List (Row V m × Int)) (t' : Tree V K m),
    postPrune num maj t train val = .ok t' → correct num t val ≤ correct num t' val
  | .leaf c, train, val, t', h => by
    simp only [postPrune, Except.ok.injEq] at h
    rw [h]
  | .cont a t n ht ge lt, train, val, t', h => by
    rw [postPrune] at h
    split at h
    · simp only [Except.ok.injEq] at h
      rw [h]
    · split at h
      · exact absurd h (by simp)
      · rename_i c _
        split at h
        · exact absurd h (by simp)
        · rename_i g hg
          split at h
          · exact absurd h (by simp)
          · rename_i l hl
            have h1 := postPrune_correct ge _ _ g hg
            have h2 := postPrune_correct lt _ _ l hl
            have key : ∀ n' h', correct num (.cont a t n ht ge lt) val ≤ correct num (.cont a t n' h' g l) val := by
              intro n' h'
              rw [correct_cont, correct_cont]
              exact Nat.add_le_add h1 h2
            split at h
            · rename_i cg cl
              simp only at h
              split at h
              · rename_i hlt
                simp only [Except.ok.injEq] at h
                subst h
                refine le_trans (key 0 0) ?_
                rw [countP_eq, countP_eq] at hlt
                have e1 : correct num (.cont a t 0 0 (.leaf cg) (.leaf cl)) val =
                    val.countP fun q => decide ((if t ≤ num (q.1 a) then cg else cl) = q.2) := by
                  apply List.countP_congr
                  intro q _
                  simp only [decide_eq_true_eq, predict]
                  split <;> simp
                have e2 : correct num (.leaf c : Tree V K m) val = val.countP fun q => decide (q.2 = c) := by
                  apply List.countP_congr
                  intro q _
                  simp [predict, eq_comm]
                rw [e1, e2]
                exact hlt.le
              · simp only [Except.ok.injEq] at h
                subst h
                exact key _ _
            · simp only [Except.ok.injEq] at h
              subst h
              exact key _ _
  | .disc a n ht br, train, val, t', h => by
    rw [postPrune] at h
    split at h
    · simp only [Except.ok.injEq] at h
      rw [h]
    · split at h
      · exact absurd h (by simp)
      · rename_i c _
        split at h
        · exact absurd h (by simp)
        · rename_i br' hbr
          have key : ∀ n' h', correct num (.disc a n ht br) val ≤ correct num (.disc a n' h' br') val := by
            intro n' h'
            unfold correct
            simp only [predict]
            refine countP_by_group (fun q : Row V m × Int => q.1 a) _ _ val.length val (le_refl _) ?_
            intro v
            exact postPruneIn_correct a br train val br' hbr v
          split at h
          · rename_i hall
            split at h
            · simp only at h
              split at h
              · rename_i hlt
                simp only [Except.ok.injEq] at h
                subst h
                refine le_trans (key 0 0) ?_
                rw [countP_eq, countP_eq] at hlt
                have e1 : correct num (.disc a 0 0 br') val =
                    val.countP fun q => decide (leafOf (q.1 a) br' = some q.2) := by
                  apply List.countP_congr
                  intro q _
                  simp only [decide_eq_true_eq, predict]
                  exact (leafOf_eq num q.1 (q.1 a) q.2 br' hall).symm
                have e2 : correct num (.leaf c : Tree V K m) val = val.countP fun q => decide (q.2 = c) := by
                  apply List.countP_congr
                  intro q _
                  simp [predict, eq_comm]
                rw [e1, e2]
                exact hlt.le
              · simp only [Except.ok.injEq] at h
                subst h
                exact key _ _
            · exact absurd h (by simp)
          · simp only [Except.ok.injEq] at h
            subst h
            exact key _ _
theorem postPruneIn_correct (a : Fin m) : ∀ (f : Forest V K m) (train val : List (Row V m × Int)) (f' : Forest V K m),
    postPruneIn num maj a f train val = .ok f' → ∀ v,
      ((val.filter fun q => q.1 a = v).countP fun q => decide (predictIn num q.1 (q.1 a) f = .ok q.2)) ≤
      (val.filter fun q => q.1 a = v).countP fun q => decide (predictIn num q.1 (q.1 a) f' = .ok q.2)
  | .nil, train, val, f', h, v => by
    simp only [postPruneIn, Except.ok.injEq] at h
    subst h
    exact le_refl _
  | .cons w t rest, train, val, f', h, v => by
    rw [postPruneIn] at h
    split at h
    · exact absurd h (by simp)
    · rename_i t' ht
      split at h
      · exact absurd h (by simp)
      · rename_i r hr
        simp only [Except.ok.injEq] at h
        subst h
        have h1 := postPrune_correct t _ _ t' ht
        have h2 := postPruneIn_correct a rest train val r hr v
        by_cases hvw : v = w
        · subst hvw
          have e : ∀ (s : Tree V K m) (fr : Forest V K m),
              ((val.filter fun q => q.1 a = v).countP fun q => decide (predictIn num q.1 (q.1 a) (.cons v s fr) = .ok q.2))
              = correct num s (val.filter fun q => q.1 a = v) := by
            intro s fr
            apply List.countP_congr
            intro q hq
            simp only [List.mem_filter, decide_eq_true_eq] at hq
            rw [predictIn, if_pos hq.2]
          rw [e, e]; exact h1
        · have e : ∀ (s : Tree V K m) (fr : Forest V K m),
              ((val.filter fun q => q.1 a = v).countP fun q => decide (predictIn num q.1 (q.1 a) (.cons w s fr) = .ok q.2))
              = (val.filter fun q => q.1 a = v).countP fun q => decide (predictIn num q.1 (q.1 a) fr = .ok q.2) := by
            intro s fr
            apply List.countP_congr
            intro q hq
            simp only [List.mem_filter, decide_eq_true_eq] at hq
            rw [predictIn, if_neg (by rw [hq.2]; exact hvw)]
          rw [e, e]; exact h2
end

/-! ## Statistics after pruning -/

theorem leavesRight_cont (a : Fin m) (t : K) (h : Int) (g l : Tree V K m) (hg : LeavesRight g) (hl : LeavesRight l) :
    LeavesRight (.cont a t (g.nl + l.nl) h g l) := by
  unfold LeavesRight at *
  show g.nl + l.nl = ((g.leaves + l.leaves : Nat) : Int)
  rw [hg, hl]; push_cast; rfl

theorem leavesRight_disc (a : Fin m) (h : Int) (br : Forest V K m) (hb : br.All LeavesRight) :
    LeavesRight (.disc a (sumLeaves br) h br) := by
  show sumLeaves br = (br.leaves : Int)
  exact sumLeaves_eq br fun t ht => all_self ((forest_all_iff _ _).1 hb t ht)

theorem leaf_leavesRight (c : Int) : (Tree.leaf c : Tree V K m).All LeavesRight := by
  simp [Tree.All, LeavesRight, Tree.nl, Tree.leaves]

theorem leaf_heightRight (c : Int) : (Tree.leaf c : Tree V K m).All HeightRight := by
  simp [Tree.All, HeightRight, Tree.ht, Tree.depth]

theorem heightRight_cont (a : Fin m) (t : K) (n : Int) (g l : Tree V K m) (hg : HeightRight g) (hl : HeightRight l) :
    HeightRight (.cont a t n (max g.ht l.ht + 1) g l) := by
  unfold HeightRight at *
  show max g.ht l.ht + 1 = ((max g.depth l.depth + 1 : Nat) : Int)
  rw [hg, hl]; push_cast; rfl

theorem buggyMax_const (d : Nat) : ∀ (f : Forest V K m), (∀ t ∈ f.trees, t.ht = (d : Int)) →
    buggyMax ((d : Int) + 1) f = d + 1
  | .nil, _ => rfl
  | .cons v t r, h => by
    rw [buggyMax, h t (by simp [Forest.trees]), if_neg (by omega)]
    exact buggyMax_const d r fun s hs => h s (by simp [Forest.trees, hs])

theorem height1_const (d : Nat) : ∀ (f : Forest V K m), (∀ t ∈ f.trees, t.depth = d) → f.trees ≠ [] →
    f.height1 = d + 1
  | .nil, _, h => by simp [Forest.trees] at h
  | .cons v t .nil, h, _ => by simp [Forest.height1, h t (by simp [Forest.trees])]
  | .cons v t (.cons v' t' r), h, _ => by
    rw [Forest.height1, height1_const d (.cons v' t' r) (fun s hs => h s (by rw [Forest.trees]; exact List.mem_cons_of_mem _ hs))
      (by simp [Forest.trees]), h t (by simp [Forest.trees])]
    omega

theorem heightRight_disc (a : Fin m) (n : Int) (br : Forest V K m) (hb : ∀ t ∈ br.trees, HeightRight t)
    (hne : br.trees ≠ []) (hlev : ∀ s ∈ br.trees, ∀ t ∈ br.trees, s.depth = t.depth) :
    HeightRight (.disc a n (buggyMax (-1) br) br) := by
  cases br with
  | nil => simp [Forest.trees] at hne
  | cons v t r =>
    have ht : t ∈ (Forest.cons v t r).trees := by simp [Forest.trees]
    have hd : ∀ s ∈ (Forest.cons v t r).trees, s.depth = t.depth := fun s hs => hlev s hs t ht
    show buggyMax (-1) (.cons v t r) = ((Forest.cons v t r).height1 : Int)
    rw [height1_const t.depth _ hd hne, buggyMax]
    have h0 : t.ht = (t.depth : Int) := hb t ht
    rw [h0, if_pos (by omega), buggyMax_const t.depth r]
    · push_cast; rfl
    · intro s hs
      have hs' : s ∈ (Forest.cons v t r).trees := by simp [Forest.trees, hs]
      have := hb s hs'
      unfold HeightRight at this
      rw [this, hd s hs']

mutual
theorem postPrune_leaves : ∀ (t : Tree V K m) (train val : List (Row V m × Int)) (t' : Tree V K m),
    postPrune num maj t train val = .ok t' → t.All LeavesRight → t'.All LeavesRight
  | .leaf c, train, val, t', h, hA => by
    simp only [postPrune, Except.ok.injEq] at h
    rwa [h] at hA
  | .cont a t n ht ge lt, train, val, t', h, hA => by
    rw [postPrune] at h
    split at h
    · simp only [Except.ok.injEq] at h
      rwa [h] at hA
    · split at h
      · exact absurd h (by simp)
      · split at h
        · exact absurd h (by simp)
        · rename_i g hg
          split at h
          · exact absurd h (by simp)
          · rename_i l hl
            have h1 := postPrune_leaves ge _ _ g hg hA.2.1
            have h2 := postPrune_leaves lt _ _ l hl hA.2.2
            split at h
            · simp only at h
              split at h
              · simp only [Except.ok.injEq] at h
                subst h
                exact leaf_leavesRight _
              · simp only [Except.ok.injEq] at h
                subst h
                exact ⟨leavesRight_cont a t _ _ _ (all_self h1) (all_self h2), h1, h2⟩
            · simp only [Except.ok.injEq] at h
              subst h
              exact ⟨leavesRight_cont a t _ _ _ (all_self h1) (all_self h2), h1, h2⟩
  | .disc a n ht br, train, val, t', h, hA => by
    rw [postPrune] at h
    split at h
    · simp only [Except.ok.injEq] at h
      rwa [h] at hA
    · split at h
      · exact absurd h (by simp)
      · split at h
        · exact absurd h (by simp)
        · rename_i br' hbr
          have h1 := postPruneIn_leaves a br train val br' hbr hA.2
          split at h
          · split at h
            · simp only at h
              split at h
              · simp only [Except.ok.injEq] at h
                subst h
                exact leaf_leavesRight _
              · simp only [Except.ok.injEq] at h
                subst h
                exact ⟨leavesRight_disc a _ _ h1, h1⟩
            · exact absurd h (by simp)
          · simp only [Except.ok.injEq] at h
            subst h
            exact ⟨leavesRight_disc a _ _ h1, h1⟩
theorem postPruneIn_leaves (a : Fin m) : ∀ (f : Forest V K m) (train val : List (Row V m × Int)) (f' : Forest V K m),
    postPruneIn num maj a f train val = .ok f' → f.All LeavesRight → f'.All LeavesRight
  | .nil, train, val, f', h, hA => by
    simp only [postPruneIn, Except.ok.injEq] at h
    subst h
    exact hA
  | .cons w t rest, train, val, f', h, hA => by
    rw [postPruneIn] at h
    split at h
    · exact absurd h (by simp)
    · rename_i t' ht
      split at h
      · exact absurd h (by simp)
      · rename_i r hr
        simp only [Except.ok.injEq] at h
        subst h
        exact ⟨postPrune_leaves t _ _ t' ht hA.1, postPruneIn_leaves a rest train val r hr hA.2⟩
end

mutual
theorem postPrune_height : ∀ (t : Tree V K m) (train val : List (Row V m × Int)) (t' : Tree V K m),
    postPrune num maj t train val = .ok t' → t.All HeightRight → t.All HasBranch → t'.All LevelBranches → t'.All HeightRight
  | .leaf c, train, val, t', h, hA, _, _ => by
    simp only [postPrune, Except.ok.injEq] at h
    rwa [h] at hA
  | .cont a t n ht ge lt, train, val, t', h, hA, hB, hL => by
    rw [postPrune] at h
    split at h
    · simp only [Except.ok.injEq] at h
      rwa [h] at hA
    · split at h
      · exact absurd h (by simp)
      · split at h
        · exact absurd h (by simp)
        · rename_i g hg
          split at h
          · exact absurd h (by simp)
          · rename_i l hl
            have h1 := postPrune_height ge _ _ g hg hA.2.1 hB.2.1
            have h2 := postPrune_height lt _ _ l hl hA.2.2 hB.2.2
            split at h
            · simp only at h
              split at h
              · simp only [Except.ok.injEq] at h
                subst h
                exact leaf_heightRight _
              · simp only [Except.ok.injEq] at h
                subst h
                exact ⟨heightRight_cont a t _ _ _ (all_self (h1 hL.2.1)) (all_self (h2 hL.2.2)), h1 hL.2.1, h2 hL.2.2⟩
            · simp only [Except.ok.injEq] at h
              subst h
              exact ⟨heightRight_cont a t _ _ _ (all_self (h1 hL.2.1)) (all_self (h2 hL.2.2)), h1 hL.2.1, h2 hL.2.2⟩
  | .disc a n ht br, train, val, t', h, hA, hB, hL => by
    rw [postPrune] at h
    split at h
    · simp only [Except.ok.injEq] at h
      rwa [h] at hA
    · split at h
      · exact absurd h (by simp)
      · split at h
        · exact absurd h (by simp)
        · rename_i br' hbr
          have h1 := postPruneIn_height a br train val br' hbr hA.2 hB.2
          have key : (Tree.disc a (sumLeaves br') (buggyMax (-1) br') br').All LevelBranches →
              (Tree.disc a (sumLeaves br') (buggyMax (-1) br') br').All HeightRight := by
            intro hL'
            have h2 := h1.1 hL'.2
            refine ⟨heightRight_disc a _ _ (fun t ht => all_self ((forest_all_iff _ _).1 h2 t ht)) ?_ hL'.1, h2⟩
            intro he
            exact hB.1 (h1.2 he)
          split at h
          · split at h
            · simp only at h
              split at h
              · simp only [Except.ok.injEq] at h
                subst h
                exact leaf_heightRight _
              · simp only [Except.ok.injEq] at h
                subst h
                exact key hL
            · exact absurd h (by simp)
          · simp only [Except.ok.injEq] at h
            subst h
            exact key hL
theorem postPruneIn_height (a : Fin m) : ∀ (f : Forest V K m) (train val : List (Row V m × Int)) (f' : Forest V K m),
    postPruneIn num maj a f train val = .ok f' → f.All HeightRight → f.All HasBranch →
      (f'.All LevelBranches → f'.All HeightRight) ∧ (f'.trees = [] → f.trees = [])
  | .nil, train, val, f', h, hA, _ => by
    simp only [postPruneIn, Except.ok.injEq] at h
    subst h
    exact ⟨fun _ => hA, fun h => h⟩
  | .cons w t rest, train, val, f', h, hA, hB => by
    rw [postPruneIn] at h
    split at h
    · exact absurd h (by simp)
    · rename_i t' ht
      split at h
      · exact absurd h (by simp)
      · rename_i r hr
        simp only [Except.ok.injEq] at h
        subst h
        refine ⟨fun hL => ⟨postPrune_height t _ _ t' ht hA.1 hB.1 hL.1,
          (postPruneIn_height a rest train val r hr hA.2 hB.2).1 hL.2⟩, by simp [Forest.trees]⟩
end

/-! ## When post-pruning succeeds -/

theorem leafOf_isSome (v : V) : ∀ br : Forest V K m, allLeaves br = true → v ∈ br.keys → (leafOf v br).isSome = true
  | .nil, _, h => by simp [Forest.keys] at h
  | .cons w t rest, h, hk => by
    simp only [allLeaves, Bool.and_eq_true] at h
    simp only [Forest.keys, List.mem_cons] at hk
    have ih := leafOf_isSome v rest h.2
    cases t with
    | leaf d =>
      simp only [leafOf]
      split
      · simp
      · rename_i hne
        exact ih (hk.resolve_left hne)
    | cont => simp [Tree.isLeaf] at h
    | disc => simp [Tree.isLeaf] at h

theorem postPruneIn_keys (a : Fin m) : ∀ (f : Forest V K m) (train val : List (Row V m × Int)) (f' : Forest V K m),
    postPruneIn num maj a f train val = .ok f' → f'.keys = f.keys
  | .nil, train, val, f', h => by
    simp only [postPruneIn, Except.ok.injEq] at h
    subst h
    rfl
  | .cons w t rest, train, val, f', h => by
    rw [postPruneIn] at h
    split at h
    · exact absurd h (by simp)
    · split at h
      · exact absurd h (by simp)
      · rename_i r hr
        simp only [Except.ok.injEq] at h
        subst h
        simp only [Forest.keys, postPruneIn_keys a rest train val r hr]

theorem postPruneIn_ok (a : Fin m) : ∀ (f : Forest V K m) (train val : List (Row V m × Int)),
    (∀ v t, (v, t) ∈ f.keys.zip f.trees → ∃ t', postPrune num maj t (train.filter fun q => q.1 a = v)
      (val.filter fun q => q.1 a = v) = .ok t') → ∃ f', postPruneIn num maj a f train val = .ok f'
  | .nil, _, _, _ => ⟨.nil, by simp [postPruneIn]⟩
  | .cons w t rest, train, val, h => by
    obtain ⟨t', ht⟩ := h w t (by simp [Forest.keys, Forest.trees])
    obtain ⟨r, hr⟩ := postPruneIn_ok a rest train val fun v s hs => h v s (by simp [Forest.keys, Forest.trees, hs])
    exact ⟨.cons w t' r, by rw [postPruneIn, ht]; simp only; rw [hr]⟩

theorem genForest_zip (gen : V → Except PyErr (Tree V K m)) : ∀ (vs : List V) (f : Forest V K m),
    genForest gen vs = .ok f → ∀ v t, (v, t) ∈ f.keys.zip f.trees → gen v = .ok t
  | [], f, h => by simp only [genForest, Except.ok.injEq] at h; subst h; simp [Forest.trees, Forest.keys]
  | v :: vs, f, h => by
    rw [genForest] at h
    split at h
    · exact absurd h (by simp)
    · rename_i t ht
      split at h
      · exact absurd h (by simp)
      · rename_i r hr
        simp only [Except.ok.injEq] at h
        subst h
        intro w s hs
        simp only [Forest.trees, Forest.keys, List.zip_cons_cons, List.mem_cons, Prod.mk.injEq] at hs
        rcases hs with ⟨rfl, rfl⟩ | hs
        · exact ht
        · exact genForest_zip gen vs r hr w s hs

theorem forest_mem_discAttrs {b : Fin m} {t : Tree V K m} : ∀ {f : Forest V K m}, t ∈ f.trees → b ∈ t.discAttrs → b ∈ f.discAttrs
  | .nil, h, _ => by simp [Forest.trees] at h
  | .cons v s r, h, hb => by
    simp only [Forest.trees, List.mem_cons] at h
    simp only [Forest.discAttrs, List.mem_append]
    rcases h with rfl | h
    · exact .inl hb
    · exact .inr (forest_mem_discAttrs h hb)

theorem postPrune_leaf_ok (c : Int) (train val : List (Row V m × Int)) :
    postPrune num maj (.leaf c : Tree V K m) train val = .ok (.leaf c) := by rw [postPrune]

theorem postPrune_ok (o : Oracle V K m) (hmaj : MajOK o.maj) (full : List (Row V m)) : ∀ (fuel : Nat) (cols : List (Fin m))
    (xs : List (Row V m)) (ys : List Int) (t : Tree V K m) (val : List (Row V m × Int)),
    generate o full fuel cols xs ys = .ok t → xs.length = ys.length →
    (∀ q ∈ val, ∀ a ∈ t.discAttrs, q.1 a ∈ full.map fun r => r a) →
    ∃ t', postPrune o.num o.maj t (xs.zip ys) val = .ok t' := by
  intro fuel
  induction fuel with
  | zero => intro cols xs ys t val h; simp [generate] at h
  | succ fuel ih =>
    intro cols xs ys t val h hlen hval
    have hmaj' : xs ≠ [] → ∃ c, o.maj ((xs.zip ys).map Prod.snd) = some c := by
      intro hx
      rw [map_snd_zip hlen]
      have : ys ≠ [] := by
        intro he
        apply hx
        apply List.length_eq_zero_iff.1
        rw [hlen, he]; rfl
      obtain ⟨c, hc, -⟩ := hmaj.2 ys this
      exact ⟨c, hc⟩
    rcases generate_cases h with ⟨c, -, -, rfl⟩ | ⟨c, -, -, -, rfl⟩ | ⟨a, t₀, g, l, hx, -, -, hg, hl, rfl⟩ |
      ⟨a, br, hx, -, -, hbr, rfl⟩
    · exact ⟨_, postPrune_leaf_ok ..⟩
    · exact ⟨_, postPrune_leaf_ok ..⟩
    · obtain ⟨c, hc⟩ := hmaj' hx
      rw [postPrune]
      split
      · exact ⟨_, rfl⟩
      · rw [hc]
        simp only
        have hvg : ∀ (p : Row V m × Int → Bool) (b : Tree V K m), (∀ a' ∈ b.discAttrs, a' ∈ g.discAttrs ++ l.discAttrs) →
            ∀ q ∈ val.filter p, ∀ a' ∈ b.discAttrs, q.1 a' ∈ full.map fun r => r a' := by
          intro p b hb q hq a' ha'
          exact hval q (List.mem_of_mem_filter hq) a' (hb a' ha')
        obtain ⟨g', hg'⟩ := ih _ _ _ g (val.filter fun q => o.fl t₀ ≤ o.num (q.1 a)) hg (length_selY _ _ _ hlen)
          (hvg _ g fun a' ha' => by simp [ha'])
        obtain ⟨l', hl'⟩ := ih _ _ _ l (val.filter fun q => o.num (q.1 a) < o.fl t₀) hl (length_selY _ _ _ hlen)
          (hvg _ l fun a' ha' => by simp [ha'])
        rw [zip_filter_selY _ _ _ hlen] at hg' hl'
        rw [hg']
        simp only
        rw [hl']
        simp only
        split
        · split <;> exact ⟨_, rfl⟩
        · exact ⟨_, rfl⟩
    · obtain ⟨c, hc⟩ := hmaj' hx
      rw [postPrune]
      split
      · exact ⟨_, rfl⟩
      · rw [hc]
        simp only
        obtain ⟨br', hbr'⟩ := postPruneIn_ok o.num o.maj a br (xs.zip ys) val (by
          intro v t ht
          have hgen := genForest_zip _ _ _ hbr v t ht
          have htm : t ∈ br.trees := (List.of_mem_zip ht).2
          have hv : ∀ q ∈ val.filter (fun q => q.1 a = v), ∀ b ∈ t.discAttrs, q.1 b ∈ full.map fun r => r b := by
            intro q hq b hb
            refine hval q (List.mem_of_mem_filter hq) b ?_
            simp only [Tree.discAttrs, List.mem_cons]
            exact .inr (forest_mem_discAttrs htm hb)
          split at hgen
          · rename_i hempty
            have hx0 : (xs.filter fun r => decide (r a = v)) = [] := by
              apply List.length_eq_zero_iff.1
              rw [length_selY _ xs ys hlen, hempty]; rfl
            rw [hx0] at hgen
            cases fuel with
            | zero => simp [generate] at hgen
            | succ fuel =>
              rcases generate_cases hgen with ⟨c, -, -, rfl⟩ | ⟨c, -, -, -, rfl⟩ | ⟨_, _, _, _, hx1, -⟩ |
                ⟨_, _, hx1, -⟩
              · exact ⟨_, postPrune_leaf_ok ..⟩
              · exact ⟨_, postPrune_leaf_ok ..⟩
              · exact absurd rfl hx1
              · exact absurd rfl hx1
          · have := ih _ _ _ t (val.filter fun q => q.1 a = v) hgen (length_selY _ _ _ hlen) hv
            rwa [zip_filter_selY _ _ _ hlen] at this)
        rw [hbr']
        simp only
        split
        · rename_i hall
          have : (val.all fun q => (leafOf (q.1 a) br').isSome) = true := by
            rw [List.all_eq_true]
            intro q hq
            apply leafOf_isSome _ _ hall
            rw [postPruneIn_keys o.num o.maj a _ _ _ _ hbr', genForest_keys _ _ _ hbr, mem_pyUnique]
            exact hval q hq a (by simp [Tree.discAttrs])
          rw [if_pos this]
          split <;> exact ⟨_, rfl⟩
        · exact ⟨_, rfl⟩

theorem trees_ne_nil {f : Forest V K m} (h : f.keys ≠ []) : f.trees ≠ [] := by
  cases f <;> simp_all [Forest.keys, Forest.trees]

theorem generate_hasBranch (o : Oracle V K m) (full : List (Row V m)) (hne : full ≠ []) : ∀ (fuel : Nat) (cols : List (Fin m))
    (xs : List (Row V m)) (ys : List Int) (t : Tree V K m), generate o full fuel cols xs ys = .ok t → t.All HasBranch := by
  intro fuel
  induction fuel with
  | zero => intro cols xs ys t h; simp [generate] at h
  | succ fuel ih =>
    intro cols xs ys t h
    rcases generate_cases h with ⟨c, -, -, rfl⟩ | ⟨c, -, -, -, rfl⟩ | ⟨a, t₀, g, l, -, -, -, hg, hl, rfl⟩ |
      ⟨a, br, -, -, -, hbr, rfl⟩
    · simp [Tree.All, HasBranch]
    · simp [Tree.All, HasBranch]
    · exact ⟨trivial, ih _ _ _ _ hg, ih _ _ _ _ hl⟩
    · refine ⟨?_, ?_⟩
      · apply trees_ne_nil
        rw [genForest_keys _ _ _ hbr]
        cases full with
        | nil => exact absurd rfl hne
        | cons r full => simp [pyUnique]
      · rw [forest_all_iff]
        refine genForest_trees _ _ _ _ (fun v _ t ht => ?_) hbr
        split at ht <;> exact ih _ _ _ _ ht

/-! ## Pre-pruning -/

mutual
theorem prePrune_leaves [Zero K] : ∀ (t : Tree V K m) (train val : List (Row V m × Int)) (t' : Tree V K m),
    prePrune num maj t train val = .ok t' → t.All LeavesRight → t'.All LeavesRight
  | .leaf c, train, val, t', h, hA => by
    simp only [prePrune, Except.ok.injEq] at h
    rwa [h] at hA
  | .cont a t n ht ge lt, train, val, t', h, hA => by
    rw [prePrune] at h
    split at h
    · simp only [Except.ok.injEq] at h
      rwa [h] at hA
    · split at h
      · exact absurd h (by simp)
      · split at h
        · exact absurd h (by simp)
        · split at h
          · exact absurd h (by simp)
          · simp only at h
            split at h
            · simp only [Except.ok.injEq] at h
              subst h
              exact leaf_leavesRight _
            · split at h
              · exact absurd h (by simp)
              · rename_i l hl
                split at h
                · exact absurd h (by simp)
                · rename_i g hg
                  simp only [Except.ok.injEq] at h
                  subst h
                  have h1 := prePrune_leaves ge _ _ g hg hA.2.1
                  have h2 := prePrune_leaves lt _ _ l hl hA.2.2
                  exact ⟨leavesRight_cont a t _ _ _ (all_self h1) (all_self h2), h1, h2⟩
  | .disc a n ht br, train, val, t', h, hA => by
    rw [prePrune] at h
    split at h
    · simp only [Except.ok.injEq] at h
      rwa [h] at hA
    · split at h
      · exact absurd h (by simp)
      · split at h
        · exact absurd h (by simp)
        · simp only at h
          split at h
          · simp only [Except.ok.injEq] at h
            subst h
            exact leaf_leavesRight _
          · split at h
            · exact absurd h (by simp)
            · rename_i br' hbr
              simp only [Except.ok.injEq] at h
              subst h
              have h1 := prePruneIn_leaves a br train val br' hbr hA.2
              exact ⟨leavesRight_disc a _ _ h1, h1⟩
theorem prePruneIn_leaves [Zero K] (a : Fin m) : ∀ (f : Forest V K m) (train val : List (Row V m × Int)) (f' : Forest V K m),
    prePruneIn num maj a f train val = .ok f' → f.All LeavesRight → f'.All LeavesRight
  | .nil, train, val, f', h, hA => by
    simp only [prePruneIn, Except.ok.injEq] at h
    subst h
    exact hA
  | .cons w t rest, train, val, f', h, hA => by
    rw [prePruneIn] at h
    split at h
    · exact absurd h (by simp)
    · rename_i t' ht
      split at h
      · exact absurd h (by simp)
      · rename_i r hr
        simp only [Except.ok.injEq] at h
        subst h
        exact ⟨prePrune_leaves t _ _ t' ht hA.1, prePruneIn_leaves a rest train val r hr hA.2⟩
end

/-! ## Recorded heights of inner nodes -/

/-- A discrete node has a branch, and recorded heights are positive except for leaves. -/
def Sturdy (t : Tree V K m) : Prop := HasBranch t ∧ 0 ≤ t.ht ∧ (t.isLeaf = false → 1 ≤ t.ht)

theorem leaf_sturdy (c : Int) : (Tree.leaf c : Tree V K m).All Sturdy := by
  simp [Tree.All, Sturdy, HasBranch, Tree.ht, Tree.isLeaf]

theorem sturdy_cont (a : Fin m) (t : K) (n : Int) (g l : Tree V K m) (hg : Sturdy g) (hl : Sturdy l) :
    Sturdy (.cont a t n (max g.ht l.ht + 1) g l) := by
  have := hg.2.1
  have h : 1 ≤ max g.ht l.ht + 1 := by omega
  exact ⟨trivial, le_trans (by omega) h, fun _ => h⟩

theorem buggyMax_ge : ∀ (f : Forest V K m) (acc : Int), acc ≤ buggyMax acc f
  | .nil, acc => by simp [buggyMax]
  | .cons v t r, acc => by
    rw [buggyMax]
    refine le_trans ?_ (buggyMax_ge r _)
    split <;> omega

theorem buggyMax_pos (f : Forest V K m) (hne : f.trees ≠ []) (h : f.All Sturdy) : 1 ≤ buggyMax (-1) f := by
  cases f with
  | nil => simp [Forest.trees] at hne
  | cons v t r =>
    have h1 := (all_self h.1).2.1
    rw [buggyMax, if_pos (by omega)]
    exact le_trans (by omega) (buggyMax_ge r _)

theorem sturdy_disc (a : Fin m) (n : Int) (br : Forest V K m) (hne : br.trees ≠ []) (hb : br.All Sturdy) :
    Sturdy (.disc a n (buggyMax (-1) br) br) := by
  have := buggyMax_pos br hne hb
  refine ⟨hne, ?_, fun _ => ?_⟩ <;> simp only [Tree.ht] <;> omega

theorem sturdy_disc' (a : Fin m) (n : Int) (br : Forest V K m) (hne : br.trees ≠ []) (hb : br.All Sturdy) :
    Sturdy (.disc a n (buggyMax (-1) br + 1) br) := by
  have := buggyMax_pos br hne hb
  refine ⟨hne, ?_, fun _ => ?_⟩ <;> simp only [Tree.ht] <;> omega

theorem postPruneIn_ne (a : Fin m) (f : Forest V K m) (train val : List (Row V m × Int)) (f' : Forest V K m)
    (h : postPruneIn num maj a f train val = .ok f') (hne : f.trees ≠ []) : f'.trees ≠ [] := by
  cases f with
  | nil => simp [Forest.trees] at hne
  | cons w t rest =>
    rw [postPruneIn] at h
    split at h
    · exact absurd h (by simp)
    · split at h
      · exact absurd h (by simp)
      · simp only [Except.ok.injEq] at h
        subst h
        simp [Forest.trees]

theorem prePruneIn_ne [Zero K] (a : Fin m) (f : Forest V K m) (train val : List (Row V m × Int)) (f' : Forest V K m)
    (h : prePruneIn num maj a f train val = .ok f') (hne : f.trees ≠ []) : f'.trees ≠ [] := by
  cases f with
  | nil => simp [Forest.trees] at hne
  | cons w t rest =>
    rw [prePruneIn] at h
    split at h
    · exact absurd h (by simp)
    · split at h
      · exact absurd h (by simp)
      · simp only [Except.ok.injEq] at h
        subst h
        simp [Forest.trees]

mutual
theorem postPrune_sturdy : ∀ (t : Tree V K m) (train val : List (Row V m × Int)) (t' : Tree V K m),
    postPrune num maj t train val = .ok t' → t.All Sturdy → t'.All Sturdy
  | .leaf c, train, val, t', h, hA => by
    simp only [postPrune, Except.ok.injEq] at h
    rwa [h] at hA
  | .cont a t n ht ge lt, train, val, t', h, hA => by
    rw [postPrune] at h
    split at h
    · simp only [Except.ok.injEq] at h
      rwa [h] at hA
    · split at h
      · exact absurd h (by simp)
      · split at h
        · exact absurd h (by simp)
        · rename_i g hg
          split at h
          · exact absurd h (by simp)
          · rename_i l hl
            have h1 := postPrune_sturdy ge _ _ g hg hA.2.1
            have h2 := postPrune_sturdy lt _ _ l hl hA.2.2
            split at h
            · simp only at h
              split at h
              · simp only [Except.ok.injEq] at h
                subst h
                exact leaf_sturdy _
              · simp only [Except.ok.injEq] at h
                subst h
                exact ⟨sturdy_cont a t _ _ _ (all_self h1) (all_self h2), h1, h2⟩
            · simp only [Except.ok.injEq] at h
              subst h
              exact ⟨sturdy_cont a t _ _ _ (all_self h1) (all_self h2), h1, h2⟩
  | .disc a n ht br, train, val, t', h, hA => by
    rw [postPrune] at h
    split at h
    · simp only [Except.ok.injEq] at h
      rwa [h] at hA
    · split at h
      · exact absurd h (by simp)
      · split at h
        · exact absurd h (by simp)
        · rename_i br' hbr
          have h1 := postPruneIn_sturdy a br train val br' hbr hA.2
          split at h
          · split at h
            · simp only at h
              split at h
              · simp only [Except.ok.injEq] at h
                subst h
                exact leaf_sturdy _
              · simp only [Except.ok.injEq] at h
                subst h
                exact ⟨sturdy_disc a _ _ (postPruneIn_ne num maj a br train val br' hbr hA.1.1) h1, h1⟩
            · exact absurd h (by simp)
          · simp only [Except.ok.injEq] at h
            subst h
            exact ⟨sturdy_disc a _ _ (postPruneIn_ne num maj a br train val br' hbr hA.1.1) h1, h1⟩
theorem postPruneIn_sturdy (a : Fin m) : ∀ (f : Forest V K m) (train val : List (Row V m × Int)) (f' : Forest V K m),
    postPruneIn num maj a f train val = .ok f' → f.All Sturdy → f'.All Sturdy
  | .nil, train, val, f', h, hA => by
    simp only [postPruneIn, Except.ok.injEq] at h
    subst h
    exact hA
  | .cons w t rest, train, val, f', h, hA => by
    rw [postPruneIn] at h
    split at h
    · exact absurd h (by simp)
    · rename_i t' ht
      split at h
      · exact absurd h (by simp)
      · rename_i r hr
        simp only [Except.ok.injEq] at h
        subst h
        exact ⟨postPrune_sturdy t _ _ t' ht hA.1, postPruneIn_sturdy a rest train val r hr hA.2⟩
end

mutual
theorem prePrune_sturdy [Zero K] : ∀ (t : Tree V K m) (train val : List (Row V m × Int)) (t' : Tree V K m),
    prePrune num maj t train val = .ok t' → t.All Sturdy → t'.All Sturdy
  | .leaf c, train, val, t', h, hA => by
    simp only [prePrune, Except.ok.injEq] at h
    rwa [h] at hA
  | .cont a t n ht ge lt, train, val, t', h, hA => by
    rw [prePrune] at h
    split at h
    · simp only [Except.ok.injEq] at h
      rwa [h] at hA
    · split at h
      · exact absurd h (by simp)
      · split at h
        · exact absurd h (by simp)
        · split at h
          · exact absurd h (by simp)
          · simp only at h
            split at h
            · simp only [Except.ok.injEq] at h
              subst h
              exact leaf_sturdy _
            · split at h
              · exact absurd h (by simp)
              · rename_i l hl
                split at h
                · exact absurd h (by simp)
                · rename_i g hg
                  simp only [Except.ok.injEq] at h
                  subst h
                  have h1 := prePrune_sturdy ge _ _ g hg hA.2.1
                  have h2 := prePrune_sturdy lt _ _ l hl hA.2.2
                  exact ⟨sturdy_cont a t _ _ _ (all_self h1) (all_self h2), h1, h2⟩
  | .disc a n ht br, train, val, t', h, hA => by
    rw [prePrune] at h
    split at h
    · simp only [Except.ok.injEq] at h
      rwa [h] at hA
    · split at h
      · exact absurd h (by simp)
      · split at h
        · exact absurd h (by simp)
        · simp only at h
          split at h
          · simp only [Except.ok.injEq] at h
            subst h
            exact leaf_sturdy _
          · split at h
            · exact absurd h (by simp)
            · rename_i br' hbr
              simp only [Except.ok.injEq] at h
              subst h
              have h1 := prePruneIn_sturdy a br train val br' hbr hA.2
              exact ⟨sturdy_disc' a _ _ (prePruneIn_ne num maj a br train val br' hbr hA.1.1) h1, h1⟩
theorem prePruneIn_sturdy [Zero K] (a : Fin m) : ∀ (f : Forest V K m) (train val : List (Row V m × Int)) (f' : Forest V K m),
    prePruneIn num maj a f train val = .ok f' → f.All Sturdy → f'.All Sturdy
  | .nil, train, val, f', h, hA => by
    simp only [prePruneIn, Except.ok.injEq] at h
    subst h
    exact hA
  | .cons w t rest, train, val, f', h, hA => by
    rw [prePruneIn] at h
    split at h
    · exact absurd h (by simp)
    · rename_i t' ht
      split at h
      · exact absurd h (by simp)
      · rename_i r hr
        simp only [Except.ok.injEq] at h
        subst h
        exact ⟨prePrune_sturdy t _ _ t' ht hA.1, prePruneIn_sturdy a rest train val r hr hA.2⟩
end

theorem generate_sturdy (o : Oracle V K m) (full : List (Row V m)) (hne : full ≠ []) : ∀ (fuel : Nat) (cols : List (Fin m))
    (xs : List (Row V m)) (ys : List Int) (t : Tree V K m), generate o full fuel cols xs ys = .ok t → t.All Sturdy := by
  intro fuel
  induction fuel with
  | zero => intro cols xs ys t h; simp [generate] at h
  | succ fuel ih =>
    intro cols xs ys t h
    have hge := generate_height_ge o full _ _ _ _ _ h
    have hbr := all_self (generate_hasBranch o full hne _ _ _ _ _ h)
    rcases generate_cases h with ⟨c, -, -, rfl⟩ | ⟨c, -, -, -, rfl⟩ | ⟨a, t₀, g, l, -, -, -, hg, hl, rfl⟩ |
      ⟨a, br, -, -, -, hb, rfl⟩
    · exact leaf_sturdy c
    · exact leaf_sturdy c
    · refine ⟨⟨hbr, by omega, fun _ => ?_⟩, ih _ _ _ _ hg, ih _ _ _ _ hl⟩
      simp only [Tree.depth] at hge
      push_cast at hge
      omega
    · refine ⟨⟨hbr, by omega, fun _ => ?_⟩, ?_⟩
      · simp only [HasBranch] at hbr
        cases br with
        | nil => simp [Forest.trees] at hbr
        | cons v t r =>
          simp only [Tree.depth, Forest.height1] at hge
          push_cast at hge
          omega
      · rw [forest_all_iff]
        refine genForest_trees _ _ _ _ (fun v _ t ht => ?_) hb
        split at ht <;> exact ih _ _ _ _ ht

mutual
theorem all_mono {P Q : Tree V K m → Prop} (h : ∀ s, P s → Q s) : ∀ {t : Tree V K m}, t.All P → t.All Q
  | .leaf _, ht => h _ ht
  | .cont .., ht => ⟨h _ ht.1, all_mono h ht.2.1, all_mono h ht.2.2⟩
  | .disc .., ht => ⟨h _ ht.1, all_mono_in h ht.2⟩
theorem all_mono_in {P Q : Tree V K m → Prop} (h : ∀ s, P s → Q s) : ∀ {f : Forest V K m}, f.All P → f.All Q
  | .nil, _ => trivial
  | .cons .., hf => ⟨all_mono h hf.1, all_mono_in h hf.2⟩
end

theorem sturdy_hasBranch : ∀ {t : Tree V K m}, t.All Sturdy → t.All HasBranch := by
  intro t h
  exact all_mono (fun s hs => hs.1) h

end CML.DTree
