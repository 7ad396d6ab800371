import Verif.Props.Prune
import Verif.Spec.PruneBest

set_option linter.unusedSectionVars false

/-!
# Property C302: post-pruning and the best pruning

pruners.py:41-154.
-/

namespace CML.DTree

universe u w
variable {V : Type u} [DecidableEq V] {K : Type w} [LinearOrder K] {m : Nat} {num : V → K} {maj : List Int → Option Int}

lemma correct_nil (t : Tree V K m) : correct num t [] = 0 := by simp [correct]

lemma noBetterLeaf_leaf (c : Int) (tr v : Data V m) : NoBetterLeaf num maj (.leaf c : Tree V K m) tr v := by
  intro s tr' v' hs _ hl
  rw [(sub_leaf hs).1] at hl
  simp [Tree.isLeaf] at hl

lemma isLeaf_leaf {t : Tree V K m} (h : t.isLeaf = true) : ∃ c, t = .leaf c := by
  cases t with
  | leaf c => exact ⟨c, rfl⟩
  | cont => simp [Tree.isLeaf] at h
  | disc => simp [Tree.isLeaf] at h

lemma forest_best (a : Fin m) (tr v : Data V m) : ∀ (f f' f'' : Forest V K m), postPruneIn num maj a f tr v = .ok f' → PruningIn num maj a f tr f'' →
    (∀ p ∈ f.pairs, ∀ t' t'', postPrune num maj p.2 (tr.filter fun q => q.1 a = p.1) (v.filter fun q => q.1 a = p.1) = .ok t' →
      NoBetterLeaf num maj t' (tr.filter fun q => q.1 a = p.1) (v.filter fun q => q.1 a = p.1) → Pruning num maj p.2 (tr.filter fun q => q.1 a = p.1) t'' →
      correct num t'' (v.filter fun q => q.1 a = p.1) ≤ correct num t' (v.filter fun q => q.1 a = p.1)) →
    (∀ p ∈ f'.pairs, NoBetterLeaf num maj p.2 (tr.filter fun q => q.1 a = p.1) (v.filter fun q => q.1 a = p.1)) → ∀ x,
      ((v.filter fun q => q.1 a = x).countP fun q => decide (predictIn num q.1 (q.1 a) f'' = .ok q.2)) ≤
      (v.filter fun q => q.1 a = x).countP fun q => decide (predictIn num q.1 (q.1 a) f' = .ok q.2)
  | .nil, f', f'', h, hp, _, _, x => by
    simp only [postPruneIn, Except.ok.injEq] at h
    subst h
    cases hp
    exact le_refl _
  | .cons w t rest, f', f'', h, hp, hih, hnb, x => by
    rw [postPruneIn] at h
    split at h
    · exact absurd h (by simp)
    · rename_i t' ht
      split at h
      · exact absurd h (by simp)
      · rename_i r hr
        simp only [Except.ok.injEq] at h
        subst h
        cases hp with
        | cons _ _ _ t'' _ r'' _ h1 h2 =>
          by_cases hvw : x = w
          · subst hvw
            have e : ∀ (s : Tree V K m) (fr : Forest V K m),
                ((v.filter fun q => q.1 a = x).countP fun q => decide (predictIn num q.1 (q.1 a) (.cons x s fr) = .ok q.2))
                = correct num s (v.filter fun q => q.1 a = x) := by
              intro s fr
              apply List.countP_congr
              intro q hq
              simp only [List.mem_filter, decide_eq_true_eq] at hq
              rw [predictIn, if_pos hq.2]
            rw [e, e]
            exact hih (x, t) (by simp [Forest.pairs]) t' t'' ht (hnb (x, t') (by simp [Forest.pairs])) h1
          · have e : ∀ (s : Tree V K m) (fr : Forest V K m),
                ((v.filter fun q => q.1 a = x).countP fun q => decide (predictIn num q.1 (q.1 a) (.cons w s fr) = .ok q.2))
                = (v.filter fun q => q.1 a = x).countP fun q => decide (predictIn num q.1 (q.1 a) fr = .ok q.2) := by
              intro s fr
              apply List.countP_congr
              intro q hq
              simp only [List.mem_filter, decide_eq_true_eq] at hq
              rw [predictIn, if_neg (by rw [hq.2]; exact hvw)]
            rw [e, e]
            exact forest_best a tr v rest r r'' hr h2 (fun p hp => hih p (by simp [Forest.pairs, hp])) (fun p hp => hnb p (by simp [Forest.pairs, hp])) x

theorem post_best : ∀ (t t' t'' : Tree V K m) (train val : Data V m), postPrune num maj t train val = .ok t' → NoBetterLeaf num maj t' train val →
    Pruning num maj t train t'' → correct num t'' val ≤ correct num t' val := by
  intro t
  induction t using tree_ind with
  | h1 c =>
    intro t' t'' train val h _ hp
    simp only [postPrune, Except.ok.injEq] at h
    subst h
    cases hp with
    | leaf => exact le_refl _
    | cut _ _ _ h => simp [Tree.isLeaf] at h
  | h2 a t n h g l ihg ihl =>
    intro t' t'' train val h hnb hp
    by_cases hval : val = []
    · subst hval; rw [correct_nil]; exact Nat.zero_le _
    obtain ⟨c, g', l', hc, hg, hl, (⟨rfl, hlt⟩ | ⟨n', h', rfl, -⟩)⟩ := postPrune_cont h hval
    · cases hp with
      | cut _ _ d _ hd => rw [hc] at hd; cases hd; exact le_refl _
      | cont _ _ _ _ n2 h2 _ _ g2 l2 _ hg2 hl2 =>
        obtain ⟨⟨b1, b2⟩, b3⟩ := hlt 0 0
        obtain ⟨cg, rfl⟩ := isLeaf_leaf b1
        obtain ⟨cl, rfl⟩ := isLeaf_leaf b2
        refine le_trans ?_ b3.le
        rw [correct_cont, correct_cont]
        exact Nat.add_le_add (ihg _ _ _ _ hg (noBetterLeaf_leaf _ _ _) hg2) (ihl _ _ _ _ hl (noBetterLeaf_leaf _ _ _) hl2)
    · cases hp with
      | cut _ _ d _ hd => exact hnb _ _ _ (.here _ _ _) hval rfl d hd
      | cont _ _ _ _ n2 h2 _ _ g2 l2 _ hg2 hl2 =>
        rw [correct_cont, correct_cont]
        exact Nat.add_le_add (ihg _ _ _ _ hg (fun s tr v hs => hnb s tr v (.ge hs)) hg2) (ihl _ _ _ _ hl (fun s tr v hs => hnb s tr v (.lt hs)) hl2)
  | h3 a n h br ih =>
    intro t' t'' train val h hnb hp
    by_cases hval : val = []
    · subst hval; rw [correct_nil]; exact Nat.zero_le _
    obtain ⟨c, br', hc, hbr, hcase⟩ := postPrune_disc h hval
    have key : ∀ br2 n2 h2 n3 h3, PruningIn num maj a br train br2 →
        (∀ p ∈ br'.pairs, NoBetterLeaf num maj p.2 (train.filter fun q => q.1 a = p.1) (val.filter fun q => q.1 a = p.1)) →
        correct num (.disc a n2 h2 br2) val ≤ correct num (.disc a n3 h3 br') val := by
      intro br2 n2 h2 n3 h3 hp2 hn
      unfold correct
      simp only [predict]
      refine countP_by_group (fun q : Row V m × Int => q.1 a) _ _ val.length val (le_refl _) ?_
      intro x
      exact forest_best a train val br br' br2 hbr hp2 (fun p hp t' t'' h1 h2 h3 => ih p hp t' t'' _ _ h1 h2 h3) hn x
    rcases hcase with ⟨rfl, hlt⟩ | ⟨n', h', rfl, -⟩
    · cases hp with
      | cut _ _ d _ hd => rw [hc] at hd; cases hd; exact le_refl _
      | disc _ _ _ n2 h2 _ br2 _ hbr2 =>
        obtain ⟨b1, b3⟩ := hlt 0 0
        refine le_trans (key br2 n2 h2 0 0 hbr2 fun p hp => ?_) b3.le
        obtain ⟨d, hd⟩ := isLeaf_leaf (b1 p.2 ((mem_trees_iff _ _).2 ⟨p.1, hp⟩))
        rw [hd]
        exact noBetterLeaf_leaf _ _ _
    · cases hp with
      | cut _ _ d _ hd => exact hnb _ _ _ (.here _ _ _) hval rfl d hd
      | disc _ _ _ n2 h2 _ br2 _ hbr2 => exact key br2 n2 h2 n' h' hbr2 fun p hp s tr v hs => hnb s tr v (.disc hp hs)

/-- C302 (part): if no remaining inner node would be right more often as a leaf, no way of replacing inner nodes by majority leaves is right on more validation
rows than the result of post-pruning. -/
theorem C302_best_partial (t t' : Tree V K m) (train val : Data V m) (h : postPrune num maj t train val = .ok t') (hnb : NoBetterLeaf num maj t' train val)
    (t'' : Tree V K m) (hp : Pruning num maj t train t'') : correct num t'' val ≤ correct num t' val :=
  post_best t t' t'' train val h hnb hp

/-- C302 (part): in particular if the result of post-pruning is a leaf or a node all of whose branches are leaves, it is the best of all. -/
theorem C302_small_partial (t t' : Tree V K m) (train val : Data V m) (h : postPrune num maj t train val = .ok t') (hb : t'.isLeaf = true ∨ t'.Bottom)
    (t'' : Tree V K m) (hp : Pruning num maj t train t'') : correct num t'' val ≤ correct num t' val := by
  refine C302_best_partial t t' train val h ?_ t'' hp
  rcases hb with hb | hb
  · obtain ⟨c, rfl⟩ := isLeaf_leaf hb
    exact noBetterLeaf_leaf _ _ _
  · intro s tr v hs hv hl c hc
    have hsb : s.Bottom := by
      cases hs with
      | here => exact hb
      | ge hs =>
        obtain ⟨d, rfl⟩ := isLeaf_leaf hb.1
        rw [(sub_leaf hs).1] at hl; simp [Tree.isLeaf] at hl
      | lt hs =>
        obtain ⟨d, rfl⟩ := isLeaf_leaf hb.2
        rw [(sub_leaf hs).1] at hl; simp [Tree.isLeaf] at hl
      | disc hmem hs =>
        obtain ⟨d, rfl⟩ := isLeaf_leaf (hb _ ((mem_trees_iff _ _).2 ⟨_, hmem⟩))
        rw [(sub_leaf hs).1] at hl; simp [Tree.isLeaf] at hl
    obtain ⟨d, hd, hle⟩ := C127_kept num maj t t' train val h s tr v hs hv hsb
    rw [hc] at hd
    cases hd
    exact hle

/-- C302 is false: a tree fitted to five samples, and four validation rows. Post-pruning changes nothing that predictions show, and one row is classified
correctly; the tree cut at its root classifies three correctly. -/
theorem C302_violated : ∃ t t', fit (giniDiscrete 2) 10 [![1, 0], ![1, 1], ![1, 0], ![0, 0], ![0, 1]] [2, 2, 2, 0, 1] = .ok t ∧
    postPrune id majFirst t ([![1, 0], ![1, 1], ![1, 0], ![0, 0], ![0, 1]].zip [2, 2, 2, 0, 1]) [(![0, 0], 0), (![0, 1], 2), (![0, 1], 2), (![0, 0], 2)] = .ok t' ∧
    correct id t' [(![0, 0], 0), (![0, 1], 2), (![0, 1], 2), (![0, 0], 2)] = 1 ∧
    ∃ t'', Pruning id majFirst t ([![1, 0], ![1, 1], ![1, 0], ![0, 0], ![0, 1]].zip [2, 2, 2, 0, 1]) t'' ∧
      correct id t'' [(![0, 0], 0), (![0, 1], 2), (![0, 1], 2), (![0, 0], 2)] = 3 := by
  obtain ⟨t, h1, h2⟩ := exists_ok (x := fit (giniDiscrete 2) 10 [![1, 0], ![1, 1], ![1, 0], ![0, 0], ![0, 1]] [2, 2, 2, 0, 1])
    (fun t => !t.isLeaf && onOk (postPrune id majFirst t ([![1, 0], ![1, 1], ![1, 0], ![0, 0], ![0, 1]].zip [2, 2, 2, 0, 1])
      [(![0, 0], 0), (![0, 1], 2), (![0, 1], 2), (![0, 0], 2)])
      fun t' => decide (correct id t' [(![0, 0], 0), (![0, 1], 2), (![0, 1], 2), (![0, 0], 2)] = 1)) (by decide +kernel)
  simp only [Bool.and_eq_true, Bool.not_eq_true'] at h2
  obtain ⟨t', h3, h4⟩ := exists_ok _ h2.2
  exact ⟨t, t', h1, h3, by simpa using h4, .leaf 2, .cut _ _ 2 h2.1 (by decide +kernel), by decide +kernel⟩

/-- The hypotheses of the theorems are met: a node with two leaves is kept. -/
example : ∃ t t', fit (giniDiscrete 1) 10 [![0], ![0], ![1]] [0, 0, 1] = .ok t ∧
    postPrune id majFirst t ([![0], ![0], ![1]].zip [0, 0, 1]) [(![0], 0), (![1], 1)] = .ok t' ∧ t'.isLeaf = false ∧ (t'.isLeaf = true ∨ t'.Bottom) := by
  obtain ⟨t, h1, h2⟩ := exists_ok (x := fit (giniDiscrete 1) 10 [![0], ![0], ![1]] [0, 0, 1])
    (fun t => onOk (postPrune id majFirst t ([![0], ![0], ![1]].zip [0, 0, 1]) [(![0], 0), (![1], 1)])
      fun t' => match t' with | .disc _ _ _ br => allLeaves br | _ => false) (by decide +kernel)
  obtain ⟨t', h3, h4⟩ := exists_ok _ h2
  cases t' with
  | leaf => simp at h4
  | cont => simp at h4
  | disc a n h br => exact ⟨t, _, h1, h3, rfl, .inr ((allLeaves_iff _).1 h4)⟩

end CML.DTree
