import Verif.Spec.Prune
import Verif.Lemmas.TreePrune

set_option linter.unusedSectionVars false

/-! # Lemmas about the nodes of pruned trees -/

namespace CML.DTree

universe u w
variable {V : Type u} {K : Type w} {m : Nat}

mutual
/-- Induction over trees with the branches as a list. -/
theorem tree_ind {P : Tree V K m → Prop} (h1 : ∀ c, P (.leaf c))
    (h2 : ∀ a t n h g l, P g → P l → P (.cont a t n h g l))
    (h3 : ∀ a n h (br : Forest V K m), (∀ p ∈ br.pairs, P p.2) → P (.disc a n h br)) : ∀ t : Tree V K m, P t
  | .leaf c => h1 c
  | .cont a t n h g l => h2 a t n h g l (tree_ind h1 h2 h3 g) (tree_ind h1 h2 h3 l)
  | .disc a n h br => h3 a n h br (forest_ind h1 h2 h3 br)
theorem forest_ind {P : Tree V K m → Prop} (h1 : ∀ c, P (.leaf c))
    (h2 : ∀ a t n h g l, P g → P l → P (.cont a t n h g l))
    (h3 : ∀ a n h (br : Forest V K m), (∀ p ∈ br.pairs, P p.2) → P (.disc a n h br)) : ∀ f : Forest V K m, ∀ p ∈ f.pairs, P p.2
  | .nil => by simp [Forest.pairs]
  | .cons v t r => by
    intro p hp
    simp only [Forest.pairs, List.mem_cons] at hp
    rcases hp with rfl | hp
    · exact tree_ind h1 h2 h3 t
    · exact forest_ind h1 h2 h3 r p hp
end

theorem mem_trees_iff (u : Tree V K m) : ∀ f : Forest V K m, u ∈ f.trees ↔ ∃ x, (x, u) ∈ f.pairs
  | .nil => by simp [Forest.trees, Forest.pairs]
  | .cons v t r => by
    simp only [Forest.trees, Forest.pairs, List.mem_cons, mem_trees_iff u r, Prod.mk.injEq]
    constructor
    · rintro (rfl | ⟨x, hx⟩)
      · exact ⟨v, .inl ⟨rfl, rfl⟩⟩
      · exact ⟨x, .inr hx⟩
    · rintro ⟨x, ⟨_, rfl⟩ | hx⟩
      · exact .inl rfl
      · exact .inr ⟨x, hx⟩

theorem allLeaves_iff : ∀ f : Forest V K m, allLeaves f = true ↔ ∀ u ∈ f.trees, u.isLeaf = true
  | .nil => by simp [allLeaves, Forest.trees]
  | .cons v t r => by simp [allLeaves, Forest.trees, allLeaves_iff r]

variable [DecidableEq V] [LinearOrder K] (num : V → K) (maj : List Int → Option Int)

theorem sub_nil {num : V → K} {t s : Tree V K m} {tr v tr' v' : Data V m} (h : Sub num t tr v s tr' v') (hv : v = []) : v' = [] := by
  induction h with
  | here => exact hv
  | ge _ ih => exact ih (by simp [hv])
  | lt _ ih => exact ih (by simp [hv])
  | disc _ _ ih => exact ih (by simp [hv])

theorem sub_leaf {num : V → K} {c : Int} {s : Tree V K m} {tr v tr' v' : Data V m} (h : Sub num (.leaf c) tr v s tr' v') :
    s = .leaf c ∧ tr' = tr ∧ v' = v := by
  cases h; exact ⟨rfl, rfl, rfl⟩

/-- The score of a bottom node, as the pruner computes it. -/
theorem correct_bottom_cont (a : Fin m) (t : K) (n h : Int) (cg cl : Int) (val : Data V m) :
    countP (fun q => (if t ≤ num (q.1 a) then cg else cl) = q.2) val = correct num (.cont a t n h (.leaf cg) (.leaf cl)) val := by
  rw [countP_eq]
  apply List.countP_congr
  intro q _
  simp only [decide_eq_true_eq, predict]
  split <;> simp

theorem correct_leaf (c : Int) (val : Data V m) :
    countP (fun q => decide (q.2 = c)) val = correct num (.leaf c : Tree V K m) val := by
  rw [countP_eq]
  apply List.countP_congr
  intro q _
  simp [predict, eq_comm]

theorem correct_bottom_disc (a : Fin m) (n h : Int) (br : Forest V K m) (hall : allLeaves br = true) (val : Data V m) :
    countP (fun q => leafOf (q.1 a) br = some q.2) val = correct num (.disc a n h br) val := by
  rw [countP_eq]
  apply List.countP_congr
  intro q _
  simp only [decide_eq_true_eq, predict]
  exact leafOf_eq num q.1 (q.1 a) q.2 br hall

variable {num maj}

/-- What post-pruning does with a continuous node that validation rows reach. -/
theorem postPrune_cont {a : Fin m} {t : K} {n h : Int} {g l t' : Tree V K m} {tr v : Data V m}
    (hp : postPrune num maj (.cont a t n h g l) tr v = .ok t') (hv : v ≠ []) :
    ∃ c g' l', maj (tr.map Prod.snd) = some c ∧
      postPrune num maj g (tr.filter fun q => t ≤ num (q.1 a)) (v.filter fun q => t ≤ num (q.1 a)) = .ok g' ∧
      postPrune num maj l (tr.filter fun q => num (q.1 a) < t) (v.filter fun q => num (q.1 a) < t) = .ok l' ∧
      ((t' = .leaf c ∧ ∀ n' h', (Tree.cont a t n' h' g' l').Bottom ∧
          correct num (.cont a t n' h' g' l') v < correct num (.leaf c : Tree V K m) v) ∨
       ∃ n' h', t' = .cont a t n' h' g' l' ∧ (t'.Bottom → correct num (.leaf c : Tree V K m) v ≤ correct num t' v)) := by
  rw [postPrune, if_neg hv] at hp
  split at hp
  · exact absurd hp (by simp)
  · rename_i c hc
    split at hp
    · exact absurd hp (by simp)
    · rename_i g' hg
      split at hp
      · exact absurd hp (by simp)
      · rename_i l' hl
        refine ⟨c, g', l', hc, hg, hl, ?_⟩
        split at hp
        · rename_i cg cl _ _
          simp only at hp
          split at hp
          · rename_i hlt
            simp only [Except.ok.injEq] at hp
            left
            refine ⟨hp.symm, fun n' h' => ⟨⟨rfl, rfl⟩, ?_⟩⟩
            rw [← correct_bottom_cont, ← correct_leaf]
            exact hlt
          · rename_i hlt
            simp only [Except.ok.injEq] at hp
            right
            refine ⟨_, _, hp.symm, fun _ => ?_⟩
            rw [← hp, ← correct_bottom_cont, ← correct_leaf]
            exact not_lt.1 hlt
        · rename_i hno
          simp only [Except.ok.injEq] at hp
          right
          refine ⟨_, _, hp.symm, fun hb => ?_⟩
          rw [← hp] at hb
          cases g' with
          | leaf cg =>
            cases l' with
            | leaf cl => exact absurd rfl (hno cg cl rfl)
            | cont => simp [Tree.Bottom, Tree.isLeaf] at hb
            | disc => simp [Tree.Bottom, Tree.isLeaf] at hb
          | cont => simp [Tree.Bottom, Tree.isLeaf] at hb
          | disc => simp [Tree.Bottom, Tree.isLeaf] at hb

/-- What post-pruning does with a discrete node that validation rows reach. -/
theorem postPrune_disc {a : Fin m} {n h : Int} {br : Forest V K m} {t' : Tree V K m} {tr v : Data V m}
    (hp : postPrune num maj (.disc a n h br) tr v = .ok t') (hv : v ≠ []) :
    ∃ c br', maj (tr.map Prod.snd) = some c ∧ postPruneIn num maj a br tr v = .ok br' ∧
      ((t' = .leaf c ∧ ∀ n' h', (Tree.disc a n' h' br').Bottom ∧
          correct num (.disc a n' h' br') v < correct num (.leaf c : Tree V K m) v) ∨
       ∃ n' h', t' = .disc a n' h' br' ∧ (t'.Bottom → correct num (.leaf c : Tree V K m) v ≤ correct num t' v)) := by
  rw [postPrune, if_neg hv] at hp
  split at hp
  · exact absurd hp (by simp)
  · rename_i c hc
    split at hp
    · exact absurd hp (by simp)
    · rename_i br' hbr
      refine ⟨c, br', hc, hbr, ?_⟩
      split at hp
      · rename_i hall
        split at hp
        · simp only at hp
          split at hp
          · rename_i hlt
            simp only [Except.ok.injEq] at hp
            left
            refine ⟨hp.symm, fun n' h' => ⟨(allLeaves_iff _).1 hall, ?_⟩⟩
            rw [← correct_bottom_disc num a n' h' br' hall, ← correct_leaf]
            exact hlt
          · rename_i hlt
            simp only [Except.ok.injEq] at hp
            right
            refine ⟨_, _, hp.symm, fun _ => ?_⟩
            rw [← hp, ← correct_bottom_disc num a _ _ br' hall, ← correct_leaf]
            exact not_lt.1 hlt
        · exact absurd hp (by simp)
      · rename_i hall
        simp only [Except.ok.injEq] at hp
        right
        refine ⟨_, _, hp.symm, fun hb => ?_⟩
        rw [← hp] at hb
        exact absurd ((allLeaves_iff _).2 hb) hall

theorem postPruneIn_pairs {a : Fin m} {tr v : Data V m} : ∀ {f f' : Forest V K m}, postPruneIn num maj a f tr v = .ok f' →
    ∀ p' ∈ f'.pairs, ∃ u, (p'.1, u) ∈ f.pairs ∧
      postPrune num maj u (tr.filter fun q => q.1 a = p'.1) (v.filter fun q => q.1 a = p'.1) = .ok p'.2
  | .nil, f', h => by
    simp only [postPruneIn, Except.ok.injEq] at h
    subst h; simp [Forest.pairs]
  | .cons w t rest, f', h => by
    rw [postPruneIn] at h
    split at h
    · exact absurd h (by simp)
    · rename_i t' ht
      split at h
      · exact absurd h (by simp)
      · rename_i r hr
        simp only [Except.ok.injEq] at h
        subst h
        intro p' hp'
        simp only [Forest.pairs, List.mem_cons] at hp'
        rcases hp' with rfl | hp'
        · exact ⟨t, by simp [Forest.pairs], ht⟩
        · obtain ⟨u, hu, h2⟩ := postPruneIn_pairs hr p' hp'
          exact ⟨u, by simp [Forest.pairs, hu], h2⟩

theorem postPrune_nil {t t' : Tree V K m} {tr : Data V m} (h : postPrune num maj t tr [] = .ok t') : t' = t := by
  cases t <;> simp [postPrune] at h <;> exact h.symm

theorem post_kept : ∀ (t t' : Tree V K m) (train val : Data V m), postPrune num maj t train val = .ok t' →
    ∀ s tr v, Sub num t' train val s tr v → v ≠ [] → s.Bottom →
      ∃ c, maj (tr.map Prod.snd) = some c ∧ correct num (.leaf c : Tree V K m) v ≤ correct num s v := by
  intro t
  induction t using tree_ind with
  | h1 c =>
    intro t' train val h s tr v hs hv hb
    simp only [postPrune, Except.ok.injEq] at h
    subst h
    rw [(sub_leaf hs).1] at hb; exact hb.elim
  | h2 a t n h g l ihg ihl =>
    intro t' train val hp s tr v hs hv hb
    by_cases hval : val = []
    · exact absurd (sub_nil hs hval) hv
    obtain ⟨c, g', l', hc, hg, hl, (⟨rfl, -⟩ | ⟨n', h', rfl, hbot⟩)⟩ := postPrune_cont hp hval
    · rw [(sub_leaf hs).1] at hb; exact hb.elim
    · cases hs with
      | here => exact ⟨c, hc, hbot hb⟩
      | ge hs => exact ihg _ _ _ hg _ _ _ hs hv hb
      | lt hs => exact ihl _ _ _ hl _ _ _ hs hv hb
  | h3 a n h br ih =>
    intro t' train val hp s tr v hs hv hb
    by_cases hval : val = []
    · exact absurd (sub_nil hs hval) hv
    obtain ⟨c, br', hc, hbr, (⟨rfl, -⟩ | ⟨n', h', rfl, hbot⟩)⟩ := postPrune_disc hp hval
    · rw [(sub_leaf hs).1] at hb; exact hb.elim
    · cases hs with
      | here => exact ⟨c, hc, hbot hb⟩
      | disc hmem hs =>
        obtain ⟨u, hu, h2⟩ := postPruneIn_pairs hbr _ hmem
        exact ih _ hu _ _ _ h2 _ _ _ hs hv hb

theorem post_shape : ∀ (t t' : Tree V K m) (train val : Data V m), postPrune num maj t train val = .ok t' →
    ∀ s' tr v, Sub num t' train val s' tr v → ∃ s, Sub num t train val s tr v ∧
      (s'.test = s.test ∧ (v = [] → s' = s) ∧ (∀ c, s' = .leaf c → s = .leaf c) ∨
        ∃ c, s' = .leaf c ∧ s.isLeaf = false ∧ maj (tr.map Prod.snd) = some c ∧
        correct num s v < correct num (.leaf c : Tree V K m) v) := by
  intro t
  induction t using tree_ind with
  | h1 c =>
    intro t' train val h s tr v hs
    simp only [postPrune, Except.ok.injEq] at h
    subst h
    exact ⟨s, hs, .inl ⟨rfl, fun _ => rfl, fun _ h => h⟩⟩
  | h2 a t n h g l ihg ihl =>
    intro t' train val hp s tr v hs
    by_cases hval : val = []
    · subst hval
      rw [postPrune_nil hp] at hs
      exact ⟨s, hs, .inl ⟨rfl, fun _ => rfl, fun _ h => h⟩⟩
    have hcor := postPrune_correct num maj _ _ _ _ hp
    obtain ⟨c, g', l', hc, hg, hl, (⟨rfl, hlt⟩ | ⟨n', h', rfl, hbot⟩)⟩ := postPrune_cont hp hval
    · obtain ⟨rfl, rfl, rfl⟩ := sub_leaf hs
      refine ⟨_, .here _ _ _, .inr ⟨c, rfl, rfl, hc, ?_⟩⟩
      refine lt_of_le_of_lt ?_ (hlt 0 0).2
      rw [correct_cont, correct_cont]
      exact Nat.add_le_add (postPrune_correct num maj _ _ _ _ hg) (postPrune_correct num maj _ _ _ _ hl)
    · cases hs with
      | here => exact ⟨_, .here _ _ _, .inl ⟨rfl, fun h => absurd h hval, fun c h => by simp at h⟩⟩
      | ge hs => obtain ⟨s0, h1, h2⟩ := ihg _ _ _ hg _ _ _ hs; exact ⟨s0, .ge h1, h2⟩
      | lt hs => obtain ⟨s0, h1, h2⟩ := ihl _ _ _ hl _ _ _ hs; exact ⟨s0, .lt h1, h2⟩
  | h3 a n h br ih =>
    intro t' train val hp s tr v hs
    by_cases hval : val = []
    · subst hval
      rw [postPrune_nil hp] at hs
      exact ⟨s, hs, .inl ⟨rfl, fun _ => rfl, fun _ h => h⟩⟩
    obtain ⟨c, br', hc, hbr, (⟨rfl, hlt⟩ | ⟨n', h', rfl, hbot⟩)⟩ := postPrune_disc hp hval
    · obtain ⟨rfl, rfl, rfl⟩ := sub_leaf hs
      refine ⟨_, .here _ _ _, .inr ⟨c, rfl, rfl, hc, ?_⟩⟩
      refine lt_of_le_of_lt ?_ (hlt 0 0).2
      unfold correct
      simp only [predict]
      refine countP_by_group (fun q : Row V m × Int => q.1 a) _ _ v.length v (le_refl _) ?_
      intro x
      exact postPruneIn_correct num maj a br tr v br' hbr x
    · cases hs with
      | here => exact ⟨_, .here _ _ _, .inl ⟨rfl, fun h => absurd h hval, fun c h => by simp at h⟩⟩
      | disc hmem hs =>
        obtain ⟨u, hu, h2⟩ := postPruneIn_pairs hbr _ hmem
        obtain ⟨s0, h1, h3⟩ := ih _ hu _ _ _ h2 _ _ _ hs
        exact ⟨s0, .disc hu h1, h3⟩

/-! ## Pre-pruning -/

variable [Zero K]

theorem prePrune_disc {a : Fin m} {n h : Int} {br : Forest V K m} {t' : Tree V K m} {tr v : Data V m}
    (hp : prePrune num maj (.disc a n h br) tr v = .ok t') (hv : v ≠ []) :
    ∃ c, maj (tr.map Prod.snd) = some c ∧ (∀ q ∈ v, ∃ p ∈ tr, p.1 a = q.1 a) ∧
      ((t' = .leaf c ∧ valueCorrect maj a tr v ≤ correct num (.leaf c : Tree V K m) v) ∨
       ∃ br', prePruneIn num maj a br tr v = .ok br' ∧ t' = .disc a (sumLeaves br') (buggyMax (-1) br' + 1) br' ∧
         correct num (.leaf c : Tree V K m) v < valueCorrect maj a tr v) := by
  rw [prePrune, if_neg hv] at hp
  split at hp
  · exact absurd hp (by simp)
  · rename_i c hc
    refine ⟨c, hc, ?_⟩
    split at hp
    · exact absurd hp (by simp)
    · rename_i after haft
      unfold preCorrect at haft
      split at haft
      · rename_i hall
        simp only [List.all_eq_true, List.any_eq_true, decide_eq_true_eq] at hall
        refine ⟨hall, ?_⟩
        injection haft with haft
        rw [countP_eq] at haft
        simp only at hp
        rw [correct_leaf num] at hp
        split at hp
        · rename_i hle
          simp only [Except.ok.injEq] at hp
          left
          refine ⟨hp.symm, ?_⟩
          unfold valueCorrect; rw [haft]; exact hle
        · rename_i hle
          split at hp
          · exact absurd hp (by simp)
          · rename_i br' hbr
            simp only [Except.ok.injEq] at hp
            right
            refine ⟨br', hbr, hp.symm, ?_⟩
            unfold valueCorrect; rw [haft]; exact not_le.1 hle
      · exact absurd haft (by simp)

theorem prePrune_cont {a : Fin m} {t : K} {n h : Int} {g l t' : Tree V K m} {tr v : Data V m}
    (hp : prePrune num maj (.cont a t n h g l) tr v = .ok t') (hv : v ≠ []) :
    t = 0 ∧ ∃ c, maj (tr.map Prod.snd) = some c ∧
      ((t' = .leaf c ∧ valueCorrect maj a tr v ≤ correct num (.leaf c : Tree V K m) v) ∨
       ∃ g' l' n' h', prePrune num maj g (tr.filter fun q => t ≤ num (q.1 a)) (v.filter fun q => t ≤ num (q.1 a)) = .ok g' ∧
         prePrune num maj l (tr.filter fun q => num (q.1 a) < t) (v.filter fun q => num (q.1 a) < t) = .ok l' ∧
         t' = .cont a t n' h' g' l' ∧ h' = max g'.ht l'.ht + 1 ∧
         correct num (.leaf c : Tree V K m) v < valueCorrect maj a tr v) := by
  rw [prePrune, if_neg hv] at hp
  split at hp
  · exact absurd hp (by simp)
  · rename_i c hc
    split at hp
    · exact absurd hp (by simp)
    · rename_i ht
      refine ⟨not_not.1 ht, c, hc, ?_⟩
      split at hp
      · exact absurd hp (by simp)
      · rename_i after haft
        unfold preCorrect at haft
        split at haft
        · injection haft with haft
          rw [countP_eq] at haft
          simp only at hp
          rw [correct_leaf num] at hp
          split at hp
          · rename_i hle
            simp only [Except.ok.injEq] at hp
            left
            refine ⟨hp.symm, ?_⟩
            unfold valueCorrect; rw [haft]; exact hle
          · rename_i hle
            split at hp
            · exact absurd hp (by simp)
            · rename_i l' hl
              split at hp
              · exact absurd hp (by simp)
              · rename_i g' hg
                simp only [Except.ok.injEq] at hp
                right
                refine ⟨g', l', _, _, hg, hl, hp.symm, rfl, ?_⟩
                unfold valueCorrect; rw [haft]; exact not_le.1 hle
        · exact absurd haft (by simp)

theorem prePruneIn_pairs {a : Fin m} {tr v : Data V m} : ∀ {f f' : Forest V K m}, prePruneIn num maj a f tr v = .ok f' →
    ∀ p' ∈ f'.pairs, ∃ u, (p'.1, u) ∈ f.pairs ∧
      prePrune num maj u (tr.filter fun q => q.1 a = p'.1) (v.filter fun q => q.1 a = p'.1) = .ok p'.2
  | .nil, f', h => by
    simp only [prePruneIn, Except.ok.injEq] at h
    subst h; simp [Forest.pairs]
  | .cons w t rest, f', h => by
    rw [prePruneIn] at h
    split at h
    · exact absurd h (by simp)
    · rename_i t' ht
      split at h
      · exact absurd h (by simp)
      · rename_i r hr
        simp only [Except.ok.injEq] at h
        subst h
        intro p' hp'
        simp only [Forest.pairs, List.mem_cons] at hp'
        rcases hp' with rfl | hp'
        · exact ⟨t, by simp [Forest.pairs], ht⟩
        · obtain ⟨u, hu, h2⟩ := prePruneIn_pairs hr p' hp'
          exact ⟨u, by simp [Forest.pairs, hu], h2⟩

theorem prePruneIn_keys {a : Fin m} {tr v : Data V m} : ∀ {f f' : Forest V K m}, prePruneIn num maj a f tr v = .ok f' →
    f'.keys = f.keys
  | .nil, f', h => by
    simp only [prePruneIn, Except.ok.injEq] at h
    subst h; rfl
  | .cons w t rest, f', h => by
    rw [prePruneIn] at h
    split at h
    · exact absurd h (by simp)
    · split at h
      · exact absurd h (by simp)
      · rename_i r hr
        simp only [Except.ok.injEq] at h
        subst h
        simp [Forest.keys, prePruneIn_keys hr]

theorem prePrune_nil {t t' : Tree V K m} {tr : Data V m} (h : prePrune num maj t tr [] = .ok t') : t' = t := by
  cases t <;> simp [prePrune] at h <;> exact h.symm

theorem pre_kept : ∀ (t t' : Tree V K m) (train val : Data V m), prePrune num maj t train val = .ok t' →
    ∀ s tr v, Sub num t' train val s tr v → v ≠ [] → ∀ a x, s.test = some (a, x) →
      ∃ c, maj (tr.map Prod.snd) = some c ∧ correct num (.leaf c : Tree V K m) v < valueCorrect maj a tr v := by
  intro t
  induction t using tree_ind with
  | h1 c =>
    intro t' train val h s tr v hs hv a x hx
    simp only [prePrune, Except.ok.injEq] at h
    subst h
    rw [(sub_leaf hs).1] at hx; simp [Tree.test] at hx
  | h2 a t n h g l ihg ihl =>
    intro t' train val hp s tr v hs hv b x hx
    by_cases hval : val = []
    · exact absurd (sub_nil hs hval) hv
    obtain ⟨h0, c, hc, (⟨rfl, -⟩ | ⟨g', l', n', h', hg, hl, rfl, -, hlt⟩)⟩ := prePrune_cont hp hval
    · rw [(sub_leaf hs).1] at hx; simp [Tree.test] at hx
    · cases hs with
      | here =>
        simp only [Tree.test, Option.some.injEq, Prod.mk.injEq] at hx
        rw [← hx.1]; exact ⟨c, hc, hlt⟩
      | ge hs => exact ihg _ _ _ hg _ _ _ hs hv _ _ hx
      | lt hs => exact ihl _ _ _ hl _ _ _ hs hv _ _ hx
  | h3 a n h br ih =>
    intro t' train val hp s tr v hs hv b x hx
    by_cases hval : val = []
    · exact absurd (sub_nil hs hval) hv
    obtain ⟨c, hc, _, (⟨rfl, -⟩ | ⟨br', hbr, rfl, hlt⟩)⟩ := prePrune_disc hp hval
    · rw [(sub_leaf hs).1] at hx; simp [Tree.test] at hx
    · cases hs with
      | here =>
        simp only [Tree.test, Option.some.injEq, Prod.mk.injEq] at hx
        rw [← hx.1]; exact ⟨c, hc, hlt⟩
      | disc hmem hs =>
        obtain ⟨u, hu, h2⟩ := prePruneIn_pairs hbr _ hmem
        exact ih _ hu _ _ _ h2 _ _ _ hs hv _ _ hx

theorem pre_shape : ∀ (t t' : Tree V K m) (train val : Data V m), prePrune num maj t train val = .ok t' →
    ∀ s' tr v, Sub num t' train val s' tr v → ∃ s, Sub num t train val s tr v ∧
      (s'.test = s.test ∧ (v = [] → s' = s) ∧ (∀ c, s' = .leaf c → s = .leaf c) ∨
        ∃ c a x, s' = .leaf c ∧ s.test = some (a, x) ∧ maj (tr.map Prod.snd) = some c ∧
        valueCorrect maj a tr v ≤ correct num (.leaf c : Tree V K m) v) := by
  intro t
  induction t using tree_ind with
  | h1 c =>
    intro t' train val h s tr v hs
    simp only [prePrune, Except.ok.injEq] at h
    subst h
    exact ⟨s, hs, .inl ⟨rfl, fun _ => rfl, fun _ h => h⟩⟩
  | h2 a t n h g l ihg ihl =>
    intro t' train val hp s tr v hs
    by_cases hval : val = []
    · subst hval
      rw [prePrune_nil hp] at hs
      exact ⟨s, hs, .inl ⟨rfl, fun _ => rfl, fun _ h => h⟩⟩
    obtain ⟨h0, c, hc, (⟨rfl, hle⟩ | ⟨g', l', n', h', hg, hl, rfl, -, hlt⟩)⟩ := prePrune_cont hp hval
    · obtain ⟨rfl, rfl, rfl⟩ := sub_leaf hs
      exact ⟨_, .here _ _ _, .inr ⟨c, a, some t, rfl, rfl, hc, hle⟩⟩
    · cases hs with
      | here => exact ⟨_, .here _ _ _, .inl ⟨rfl, fun h => absurd h hval, fun c h => by simp at h⟩⟩
      | ge hs => obtain ⟨s0, h1, h2⟩ := ihg _ _ _ hg _ _ _ hs; exact ⟨s0, .ge h1, h2⟩
      | lt hs => obtain ⟨s0, h1, h2⟩ := ihl _ _ _ hl _ _ _ hs; exact ⟨s0, .lt h1, h2⟩
  | h3 a n h br ih =>
    intro t' train val hp s tr v hs
    by_cases hval : val = []
    · subst hval
      rw [prePrune_nil hp] at hs
      exact ⟨s, hs, .inl ⟨rfl, fun _ => rfl, fun _ h => h⟩⟩
    obtain ⟨c, hc, _, (⟨rfl, hle⟩ | ⟨br', hbr, rfl, hlt⟩)⟩ := prePrune_disc hp hval
    · obtain ⟨rfl, rfl, rfl⟩ := sub_leaf hs
      exact ⟨_, .here _ _ _, .inr ⟨c, a, none, rfl, rfl, hc, hle⟩⟩
    · cases hs with
      | here => exact ⟨_, .here _ _ _, .inl ⟨rfl, fun h => absurd h hval, fun c h => by simp at h⟩⟩
      | disc hmem hs =>
        obtain ⟨u, hu, h2⟩ := prePruneIn_pairs hbr _ hmem
        obtain ⟨s0, h1, h3⟩ := ih _ hu _ _ _ h2 _ _ _ hs
        exact ⟨s0, .disc hu h1, h3⟩

end CML.DTree
