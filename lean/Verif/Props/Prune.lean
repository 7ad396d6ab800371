import Verif.Lemmas.Prune
import Verif.Props.Tree

/-! # What pruning does at each node (C127 to C129, more about C28) -/

set_option linter.unusedSectionVars false

namespace CML.DTree

universe u w
variable {V : Type u} {K : Type w} {m : Nat} [DecidableEq V] [LinearOrder K]

/-! ## C127: post-pruning -/

/-- C127: after post-pruning no bottom node that validation rows reach could still be improved: replacing it by a leaf with the
majority label of its training rows would not classify more of its validation rows correctly. -/
theorem C127_kept (num : V → K) (maj : List Int → Option Int) (t t' : Tree V K m) (train val : Data V m)
    (h : postPrune num maj t train val = .ok t') (s : Tree V K m) (tr v : Data V m) (hs : Sub num t' train val s tr v)
    (hv : v ≠ []) (hb : s.Bottom) :
    ∃ c, maj (tr.map Prod.snd) = some c ∧ correct num (.leaf c : Tree V K m) v ≤ correct num s v :=
  post_kept t t' train val h s tr v hs hv hb

/-- C127: every node of the post-pruned tree comes from a node of the tree reached by the same rows: it has the same test (and is the
same if no validation row reaches it), or it is a leaf that replaces an inner node, labelled with the majority of the training rows
there, and this leaf classifies strictly more of the validation rows there correctly than the subtree that it replaces. -/
theorem C127_replaced (num : V → K) (maj : List Int → Option Int) (t t' : Tree V K m) (train val : Data V m)
    (h : postPrune num maj t train val = .ok t') (s' : Tree V K m) (tr v : Data V m) (hs : Sub num t' train val s' tr v) :
    ∃ s, Sub num t train val s tr v ∧
      (s'.test = s.test ∧ (v = [] → s' = s) ∧ (∀ c, s' = .leaf c → s = .leaf c) ∨
        ∃ c, s' = .leaf c ∧ s.isLeaf = false ∧ maj (tr.map Prod.snd) = some c ∧
          correct num s v < correct num (.leaf c : Tree V K m) v) :=
  post_shape t t' train val h s' tr v hs

/-- C127: without validation rows nothing is pruned. -/
theorem C127_no_validation (num : V → K) (maj : List Int → Option Int) (t : Tree V K m) (train : Data V m) :
    postPrune num maj t train [] = .ok t := by
  cases t <;> simp [postPrune]

/-- A run where the root is replaced and one where it is kept. -/
example : (∃ t, fit (giniDiscrete 1) 10 [![0], ![0], ![1]] [0, 0, 1] = .ok t ∧ t.isLeaf = false ∧
      postPrune id majFirst t ([![0], ![0], ![1]].zip [0, 0, 1]) [(![0], 0), (![1], 0)] = .ok (.leaf 0)) ∧
    ∃ t t', fit (giniDiscrete 1) 10 [![0], ![0], ![1]] [0, 0, 1] = .ok t ∧
      postPrune id majFirst t ([![0], ![0], ![1]].zip [0, 0, 1]) [(![0], 0), (![1], 1)] = .ok t' ∧ t'.isLeaf = false := by
  constructor
  · obtain ⟨t, h1, h2⟩ := exists_ok (x := fit (giniDiscrete 1) 10 [![0], ![0], ![1]] [0, 0, 1])
      (fun t => !t.isLeaf && onOk (postPrune id majFirst t ([![0], ![0], ![1]].zip [0, 0, 1]) [(![0], 0), (![1], 0)])
        fun t' => match t' with | .leaf c => decide (c = 0) | _ => false) (by decide +kernel)
    simp only [Bool.and_eq_true] at h2
    obtain ⟨t', h3, h4⟩ := exists_ok _ h2.2
    refine ⟨t, h1, by simpa using h2.1, ?_⟩
    cases t' with
    | leaf c => simp only [decide_eq_true_eq] at h4; rw [h3, h4]
    | cont => simp at h4
    | disc => simp at h4
  · obtain ⟨t, h1, h2⟩ := exists_ok (x := fit (giniDiscrete 1) 10 [![0], ![0], ![1]] [0, 0, 1])
      (fun t => onOk (postPrune id majFirst t ([![0], ![0], ![1]].zip [0, 0, 1]) [(![0], 0), (![1], 1)])
        fun t' => !t'.isLeaf) (by decide +kernel)
    obtain ⟨t', h3, h4⟩ := exists_ok _ h2
    exact ⟨t, t', h1, h3, by simpa using h4⟩

/-! ## C128: pre-pruning -/

/-- C128: a node of the pre-pruned tree that validation rows reach is only kept if labelling each of its branches with the majority of
the training rows there classifies strictly more validation rows correctly than one leaf.  (The branches are those of the values; for
the only kind of continuous node that can be pre-pruned, with dividing point 0, this is not the split of the node, see C28.) -/
theorem C128_kept [Zero K] (num : V → K) (maj : List Int → Option Int) (t t' : Tree V K m) (train val : Data V m)
    (h : prePrune num maj t train val = .ok t') (s : Tree V K m) (tr v : Data V m) (hs : Sub num t' train val s tr v)
    (hv : v ≠ []) (a : Fin m) (x : Option K) (ht : s.test = some (a, x)) :
    ∃ c, maj (tr.map Prod.snd) = some c ∧ correct num (.leaf c : Tree V K m) v < valueCorrect maj a tr v :=
  pre_kept t t' train val h s tr v hs hv a x ht

/-- C128: every node of the pre-pruned tree comes from a node of the tree reached by the same rows: it has the same test (and is the
same if no validation row reaches it), or it is a leaf that replaces an inner node, labelled with the majority of the training rows
there, where the split would not have classified more validation rows correctly. -/
theorem C128_replaced [Zero K] (num : V → K) (maj : List Int → Option Int) (t t' : Tree V K m) (train val : Data V m)
    (h : prePrune num maj t train val = .ok t') (s' : Tree V K m) (tr v : Data V m) (hs : Sub num t' train val s' tr v) :
    ∃ s, Sub num t train val s tr v ∧
      (s'.test = s.test ∧ (v = [] → s' = s) ∧ (∀ c, s' = .leaf c → s = .leaf c) ∨
        ∃ c a x, s' = .leaf c ∧ s.test = some (a, x) ∧ maj (tr.map Prod.snd) = some c ∧
          valueCorrect maj a tr v ≤ correct num (.leaf c : Tree V K m) v) :=
  pre_shape t t' train val h s' tr v hs

theorem first_pair (num : V → K) (r : Row V m) (x : V) : ∀ f : Forest V K m, x ∈ f.keys →
    ∃ u, (x, u) ∈ f.pairs ∧ ∀ r' : Row V m, predictIn num r' x f = predict num r' u
  | .nil, h => by simp [Forest.keys] at h
  | .cons w t rest, h => by
    by_cases hx : x = w
    · subst hx
      exact ⟨t, by simp [Forest.pairs], fun r' => by rw [predictIn, if_pos rfl]⟩
    · obtain ⟨u, h1, h2⟩ := first_pair num r x rest (by simpa [Forest.keys, hx] using h)
      exact ⟨u, by simp [Forest.pairs, h1], fun r' => by rw [predictIn, if_neg hx, h2]⟩

theorem covers_mem {full : List (Row V m)} : ∀ {f : Forest V K m}, f.Covers full → ∀ p ∈ f.pairs, p.2.Covers full
  | .nil, _ => by simp [Forest.pairs]
  | .cons w t rest, h => by
    intro p hp
    simp only [Forest.pairs, List.mem_cons] at hp
    rcases hp with rfl | hp
    · exact h.1
    · exact covers_mem h.2 p hp

theorem all_mem {P : Tree V K m → Prop} : ∀ {f : Forest V K m}, f.All P → ∀ p ∈ f.pairs, p.2.All P
  | .nil, _ => by simp [Forest.pairs]
  | .cons w t rest, h => by
    intro p hp
    simp only [Forest.pairs, List.mem_cons] at hp
    rcases hp with rfl | hp
    · exact h.1
    · exact all_mem h.2 p hp

/-- The general form of `C128_score`. -/
theorem pre_score [Zero K] (num : V → K) (maj : List Int → Option Int) (hm : MajOK maj) (full : List (Row V m)) :
    ∀ (t t' : Tree V K m) (train val : Data V m), (∀ p ∈ train, p.1 ∈ full) →
    t.Covers full → t.All Tree.Discrete →
    (∀ c tr v, Sub num t train val (.leaf c) tr v → tr ≠ [] → maj (tr.map Prod.snd) = some c) →
    prePrune num maj t train val = .ok t' → ∀ c, maj (train.map Prod.snd) = some c →
    correct num (.leaf c : Tree V K m) val ≤ correct num t' val := by
  intro t
  induction t using tree_ind with
  | h1 d =>
    intro t' train val _ _ _ hL h c hc
    simp only [prePrune, Except.ok.injEq] at h
    subst h
    have hne : train ≠ [] := by
      rintro rfl; simp [hm.1] at hc
    have := hL d _ _ (.here _ _ _) hne
    rw [hc] at this
    injection this with this
    rw [this]
  | h2 a t n h g l ihg ihl => intro t' train val _ _ hd; exact absurd hd.1 (by simp [Tree.Discrete])
  | h3 a n h br ih =>
    intro t' train val hfull hcov hdisc hL hp c hc
    by_cases hval : val = []
    · subst hval; simp [correct]
    obtain ⟨c', hc', hseen, (⟨rfl, -⟩ | ⟨br', hbr, rfl, hlt⟩)⟩ := prePrune_disc hp hval
    · rw [hc] at hc'; injection hc' with hc'; rw [hc']
    · rw [hc] at hc'; injection hc' with hc'; subst hc'
      refine le_trans hlt.le ?_
      unfold valueCorrect correct
      simp only [predict]
      refine countP_by_group (fun q : Row V m × Int => q.1 a) _ _ val.length val (le_refl _) ?_
      intro x
      by_cases hvx : (val.filter fun q => q.1 a = x) = []
      · rw [hvx]; simp
      obtain ⟨q, hq⟩ := List.exists_mem_of_ne_nil _ hvx
      simp only [List.mem_filter, decide_eq_true_eq] at hq
      obtain ⟨p, hp1, hp2⟩ := hseen q hq.1
      have hxk : x ∈ br.keys := by
        have := hcov.1 p.1 (hfull p hp1)
        rwa [hp2, hq.2] at this
      have htr : (train.filter fun q => q.1 a = x) ≠ [] := by
        intro h0
        have : p ∈ train.filter fun q => q.1 a = x := by simp [hp1, hp2, hq.2]
        rw [h0] at this; simp at this
      obtain ⟨cx, hcx, -⟩ := hm.2 ((train.filter fun q => q.1 a = x).map Prod.snd) (by simpa using htr)
      have hxk' : x ∈ br'.keys := by rw [prePruneIn_keys hbr]; exact hxk
      obtain ⟨u', hu', hpu'⟩ := first_pair num q.1 x br' hxk'
      obtain ⟨u, hu, hpu⟩ := prePruneIn_pairs hbr _ hu'
      have key := ih _ hu u' _ _ (fun p hp => hfull p (List.mem_of_mem_filter hp)) (covers_mem hcov.2 _ hu) (all_mem hdisc.2 _ hu)
        (fun c tr v hs => hL c tr v (.disc hu hs)) hpu cx hcx
      have e1 : ((val.filter fun q => q.1 a = x).countP fun q =>
            decide (maj ((train.filter fun p => p.1 a = q.1 a).map Prod.snd) = some q.2)) =
          correct num (.leaf cx : Tree V K m) (val.filter fun q => q.1 a = x) := by
        apply List.countP_congr
        intro q hq
        simp only [List.mem_filter, decide_eq_true_eq] at hq
        rw [hq.2, hcx]
        simp [predict]
      have e2 : ((val.filter fun q => q.1 a = x).countP fun q => decide (predictIn num q.1 (q.1 a) br' = .ok q.2)) =
          correct num u' (val.filter fun q => q.1 a = x) := by
        apply List.countP_congr
        intro q hq
        simp only [List.mem_filter, decide_eq_true_eq] at hq
        rw [hq.2, hpu']
      rw [e1, e2]
      exact key

/-! ## C129: the labels of the leaves of a fitted tree -/

theorem sub_tr_nil {num : V → K} {t s : Tree V K m} {tr v tr' v' : Data V m} (h : Sub num t tr v s tr' v') (hv : tr = []) :
    tr' = [] := by
  induction h with
  | here => exact hv
  | ge _ ih => exact ih (by simp [hv])
  | lt _ ih => exact ih (by simp [hv])
  | disc _ _ ih => exact ih (by simp [hv])

theorem pairs_eq : ∀ f : Forest V K m, f.pairs = f.keys.zip f.trees
  | .nil => by simp [Forest.pairs, Forest.keys]
  | .cons v t r => by simp [Forest.pairs, Forest.keys, Forest.trees, pairs_eq r]

theorem maj_const {maj : List Int → Option Int} (hm : MajOK maj) {ys : List Int} {c : Int} (hc : c ∈ ys) (h : ∀ d ∈ ys, d = c) :
    maj ys = some c := by
  obtain ⟨d, hd, hd2, -⟩ := hm.2 ys (by rintro rfl; simp at hc)
  rw [hd, h d hd2]

theorem generate_majority (o : Oracle V K m) (hm : MajOK o.maj) (full : List (Row V m)) : ∀ (fuel : Nat) (cols : List (Fin m))
    (xs : List (Row V m)) (ys : List Int) (t : Tree V K m), xs.length = ys.length → generate o full fuel cols xs ys = .ok t →
    ∀ (v : Data V m) c tr v', Sub o.num t (xs.zip ys) v (.leaf c) tr v' → tr ≠ [] → o.maj (tr.map Prod.snd) = some c := by
  intro fuel
  induction fuel with
  | zero => intro cols xs ys t _ h; simp [generate] at h
  | succ fuel ih =>
    intro cols xs ys t hlen h v c tr v' hs htr
    rcases generate_cases h with ⟨c', hc', hone, rfl⟩ | ⟨c', -, -, hmaj, rfl⟩ | ⟨a, t₀, g, l, -, -, -, hg, hl, rfl⟩ |
      ⟨a, br, hx, -, -, hbr, rfl⟩
    · obtain ⟨h1, rfl, -⟩ := sub_leaf hs
      injection h1 with h1
      rw [map_snd_zip hlen, h1]
      exact maj_const hm hc' fun e he => pyUnique_length_eq_one hone e he c' hc'
    · obtain ⟨h1, rfl, -⟩ := sub_leaf hs
      injection h1 with h1
      rw [map_snd_zip hlen, h1]; exact hmaj
    · cases hs with
      | ge hs =>
        rw [← zip_filter_selY (fun r => decide (o.fl t₀ ≤ o.num (r a))) xs ys hlen] at hs
        exact ih _ _ _ _ (length_selY _ xs ys hlen) hg _ _ _ _ hs htr
      | lt hs =>
        rw [← zip_filter_selY (fun r => decide (o.num (r a) < o.fl t₀)) xs ys hlen] at hs
        exact ih _ _ _ _ (length_selY _ xs ys hlen) hl _ _ _ _ hs htr
    · cases hs with
      | @disc _ _ _ _ x u _ _ _ _ _ hmem hs =>
        rw [pairs_eq] at hmem
        have hgen := genForest_zip _ _ _ hbr _ _ hmem
        rw [← zip_filter_selY (fun r => decide (r a = x)) xs ys hlen] at hs
        split at hgen
        · rename_i he
          rw [he] at hs
          exact absurd (sub_tr_nil hs (by simp)) htr
        · exact ih _ _ _ _ (length_selY _ xs ys hlen) hgen _ _ _ _ hs htr

/-- C129: every leaf of a fitted tree that training rows reach is labelled with the majority of the labels of these rows. -/
theorem C129_leaf_majority (o : Oracle V K m) (hm : MajOK o.maj) (limit : Nat) (xs : List (Row V m)) (ys : List Int)
    (t : Tree V K m) (hlen : xs.length = ys.length) (hfit : fit o limit xs ys = .ok t) (c : Int) (tr : Data V m)
    (hs : Sub o.num t (xs.zip ys) [] (.leaf c) tr []) (htr : tr ≠ []) : o.maj (tr.map Prod.snd) = some c :=
  generate_majority o hm xs _ _ _ _ _ hlen hfit _ _ _ _ hs htr

theorem generate_empty_branch (o : Oracle V K m) (hm : MajOK o.maj) (full : List (Row V m)) : ∀ (fuel : Nat) (cols : List (Fin m))
    (xs : List (Row V m)) (ys : List Int) (t : Tree V K m), xs.length = ys.length → generate o full fuel cols xs ys = .ok t →
    ∀ (v : Data V m) a n h br tr v', Sub o.num t (xs.zip ys) v (.disc a n h br) tr v' → tr ≠ [] → ∀ x u, (x, u) ∈ br.pairs →
      (tr.filter fun q => q.1 a = x) = [] → ∃ c, o.maj (tr.map Prod.snd) = some c ∧ u = .leaf c := by
  intro fuel
  induction fuel with
  | zero => intro cols xs ys t _ h; simp [generate] at h
  | succ fuel ih =>
    intro cols xs ys t hlen hgen v a' n h br' tr v' hs htr x u hxu hemp
    rcases generate_cases hgen with ⟨c', hc', hone, rfl⟩ | ⟨c', -, -, hmaj, rfl⟩ | ⟨a, t₀, g, l, -, -, -, hg, hl, rfl⟩ |
      ⟨a, br, hx, -, -, hbr, rfl⟩
    · exact absurd (sub_leaf hs).1 (by simp)
    · exact absurd (sub_leaf hs).1 (by simp)
    · cases hs with
      | ge hs =>
        rw [← zip_filter_selY (fun r => decide (o.fl t₀ ≤ o.num (r a))) xs ys hlen] at hs
        exact ih _ _ _ _ (length_selY _ xs ys hlen) hg _ _ _ _ _ _ _ hs htr x u hxu hemp
      | lt hs =>
        rw [← zip_filter_selY (fun r => decide (o.num (r a) < o.fl t₀)) xs ys hlen] at hs
        exact ih _ _ _ _ (length_selY _ xs ys hlen) hl _ _ _ _ _ _ _ hs htr x u hxu hemp
    · cases hs with
      | here =>
        rw [pairs_eq] at hxu
        have hgen' := genForest_zip _ _ _ hbr _ _ hxu
        rw [← zip_filter_selY (fun r => decide (r a' = x)) xs ys hlen] at hemp
        have hl2 := length_selY (fun r => decide (r a' = x)) xs ys hlen
        have hx0 : xs.filter (fun r => decide (r a' = x)) = [] := by
          cases h1 : xs.filter (fun r => decide (r a' = x)) with
          | nil => rfl
          | cons r rs =>
            cases h2 : selY (fun r => decide (r a' = x)) xs ys with
            | nil => rw [h1, h2] at hl2; simp at hl2
            | cons y ys' => rw [h1, h2] at hemp; simp at hemp
        have hs0 : selY (fun r => decide (r a' = x)) xs ys = [] := by
          rw [hx0] at hl2; exact List.length_eq_zero_iff.1 hl2.symm
        rw [if_pos hs0, hx0] at hgen'
        rw [map_snd_zip hlen]
        cases fuel with
        | zero => simp [generate] at hgen'
        | succ fuel =>
          rcases generate_cases hgen' with ⟨c', hc', hone, rfl⟩ | ⟨c', -, -, hmaj, rfl⟩ | ⟨_, _, _, _, h0, _⟩ | ⟨_, _, h0, _⟩
          · exact ⟨c', maj_const hm hc' fun e he => pyUnique_length_eq_one hone e he c' hc', rfl⟩
          · exact ⟨c', hmaj, rfl⟩
          · exact absurd rfl h0
          · exact absurd rfl h0
      | @disc _ _ _ _ y w _ _ _ _ _ hmem hs =>
        rw [pairs_eq] at hmem
        have hgen' := genForest_zip _ _ _ hbr _ _ hmem
        rw [← zip_filter_selY (fun r => decide (r a = y)) xs ys hlen] at hs
        split at hgen'
        · rename_i he
          rw [he] at hs
          exact absurd (sub_tr_nil hs (by simp)) htr
        · exact ih _ _ _ _ (length_selY _ xs ys hlen) hgen' _ _ _ _ _ _ _ hs htr x u hxu hemp

/-- C129: a branch for a value that no training row of the node has is a leaf with the majority of the labels of the node. -/
theorem C129_empty_branch (o : Oracle V K m) (hm : MajOK o.maj) (limit : Nat) (xs : List (Row V m)) (ys : List Int)
    (t : Tree V K m) (hlen : xs.length = ys.length) (hfit : fit o limit xs ys = .ok t) (a : Fin m) (n h : Int) (br : Forest V K m)
    (tr : Data V m) (hs : Sub o.num t (xs.zip ys) [] (.disc a n h br) tr []) (htr : tr ≠ []) (x : V) (u : Tree V K m)
    (hx : (x, u) ∈ br.pairs) (hemp : (tr.filter fun q => q.1 a = x) = []) :
    ∃ c, o.maj (tr.map Prod.snd) = some c ∧ u = .leaf c :=
  generate_empty_branch o hm xs _ _ _ _ _ hlen hfit _ _ _ _ _ _ _ hs htr x u hx hemp

/-- C128: pre-pruning a fitted tree that tests by value only, when it completes, leaves a tree that classifies at least as many
validation rows correctly as the majority label of the training data.  (It may classify fewer than the unpruned tree.) -/
theorem C128_score [Zero K] (o : Oracle V K m) (hm : MajOK o.maj) (limit : Nat) (xs : List (Row V m)) (ys : List Int)
    (t t' : Tree V K m) (hlen : xs.length = ys.length) (hfit : fit o limit xs ys = .ok t) (hd : t.All Tree.Discrete)
    (val : Data V m) (h : prePrune o.num o.maj t (xs.zip ys) val = .ok t') (c : Int) (hc : o.maj ys = some c) :
    correct o.num (.leaf c : Tree V K m) val ≤ correct o.num t' val :=
  pre_score o.num o.maj hm xs t t' (xs.zip ys) val (fun p hp => (List.of_mem_zip (a := p.1) (b := p.2) hp).1)
    (generate_covers o xs _ _ _ _ _ hfit) hd
    (fun _ _ _ hs htr => generate_majority o hm xs _ _ _ _ _ hlen hfit _ _ _ _ hs htr) h c
    (by rw [map_snd_zip hlen]; exact hc)

/-- Pre-pruning can lower the validation score below that of the unpruned tree: two levels are needed to classify at all, the first
one alone gains nothing, so the tree becomes a leaf. -/
theorem C128_may_lower :
    ∃ (xs : List (Row ℚ 2)) (ys : List Int) (val : Data ℚ 2) (t t' : Tree ℚ ℚ 2),
      fit (giniDiscrete 2) 10 xs ys = .ok t ∧ prePrune id majFirst t (xs.zip ys) val = .ok t' ∧
      correct id t' val < correct id t val := by
  obtain ⟨t, h1, h2⟩ := exists_ok (x := fit (giniDiscrete 2) 10 [![0, 0], ![0, 1], ![1, 0], ![1, 1]] [0, 1, 1, 0])
    (fun t => onOk (prePrune id majFirst t ([![0, 0], ![0, 1], ![1, 0], ![1, 1]].zip [0, 1, 1, 0])
        [(![0, 0], 0), (![0, 1], 1), (![1, 0], 1), (![1, 1], 0)]) fun t' =>
        decide (correct id t' [(![0, 0], 0), (![0, 1], 1), (![1, 0], 1), (![1, 1], 0)] <
          correct id t [(![0, 0], 0), (![0, 1], 1), (![1, 0], 1), (![1, 1], 0)])) (by decide +kernel)
  obtain ⟨t', h3, h4⟩ := exists_ok _ h2
  exact ⟨_, _, _, t, t', h1, h3, of_decide_eq_true h4⟩

/-! ## C28: the heights after pre-pruning -/

theorem buggyMax_mem : ∀ (f : Forest V K m) (acc : Int), ∀ u ∈ f.trees, u.ht ≤ buggyMax acc f
  | .nil, acc => by simp [Forest.trees]
  | .cons v t r, acc => by
    intro u hu
    rw [buggyMax]
    simp only [Forest.trees, List.mem_cons] at hu
    rcases hu with rfl | hu
    · refine le_trans ?_ (buggyMax_ge r _)
      split <;> omega
    · exact buggyMax_mem r _ u hu

theorem height1_le : ∀ (f : Forest V K m) (B : Int), 0 ≤ B → (∀ u ∈ f.trees, (u.depth : Int) + 1 ≤ B) → (f.height1 : Int) ≤ B
  | .nil, B, h0, _ => by simpa [Forest.height1] using h0
  | .cons v t r, B, h0, h => by
    have h1 := h t (by simp [Forest.trees])
    have h2 := height1_le r B h0 (fun u hu => h u (by simp [Forest.trees, hu]))
    simp only [Forest.height1]
    omega

/-- C28 (height): the height recorded by pre-pruning is never too low, if it was not before (as for fitted trees); it is often too
high, see `C28_bottom_height`. -/
theorem C28_height_not_low_partial [Zero K] (num : V → K) (maj : List Int → Option Int) : ∀ (t t' : Tree V K m) (train val : Data V m),
    t.All (fun s => (s.depth : Int) ≤ s.ht) → prePrune num maj t train val = .ok t' → (t'.depth : Int) ≤ t'.ht := by
  intro t
  induction t using tree_ind with
  | h1 c =>
    intro t' train val _ h
    simp only [prePrune, Except.ok.injEq] at h
    subst h; simp [Tree.depth, Tree.ht]
  | h2 a t n h g l ihg ihl =>
    intro t' train val hA hp
    by_cases hval : val = []
    · subst hval; rw [prePrune_nil hp]; exact hA.1
    obtain ⟨h0, c, hc, (⟨rfl, -⟩ | ⟨g', l', n', h', hg, hl, rfl, rfl, -⟩)⟩ := prePrune_cont hp hval
    · simp [Tree.depth, Tree.ht]
    · have h1 := ihg _ _ _ hA.2.1 hg
      have h2 := ihl _ _ _ hA.2.2 hl
      show ((max g'.depth l'.depth + 1 : Nat) : Int) ≤ max g'.ht l'.ht + 1
      omega
  | h3 a n h br ih =>
    intro t' train val hA hp
    by_cases hval : val = []
    · subst hval; rw [prePrune_nil hp]; exact hA.1
    obtain ⟨c, hc, _, (⟨rfl, -⟩ | ⟨br', hbr, rfl, -⟩)⟩ := prePrune_disc hp hval
    · simp [Tree.depth, Tree.ht]
    · simp only [Tree.depth, Tree.ht]
      refine height1_le br' _ ?_ fun u hu => ?_
      · have := buggyMax_ge br' (-1); omega
      · have h1 := buggyMax_mem br' (-1) u hu
        obtain ⟨x, hx⟩ := (mem_trees_iff u br').1 hu
        obtain ⟨w, hw, h2⟩ := prePruneIn_pairs hbr _ hx
        have := ih _ hw _ _ _ (all_mem hA.2 _ hw) h2
        simp only at this
        omega

theorem buggyMax_one : ∀ (f : Forest V K m) (acc : Int), 0 ≤ acc → (∀ u ∈ f.trees, u.isLeaf = true) → buggyMax acc f = acc
  | .nil, acc, _, _ => rfl
  | .cons v t r, acc, h0, h => by
    have ht := h t (by simp [Forest.trees])
    cases t with
    | leaf c =>
      rw [buggyMax, if_neg (by simp [Tree.ht]; omega)]
      exact buggyMax_one r acc h0 fun u hu => h u (by simp [Forest.trees, hu])
    | cont => simp [Tree.isLeaf] at ht
    | disc => simp [Tree.isLeaf] at ht

/-- C28 is false for the heights, everywhere: a discrete node kept by pre-pruning whose branches are all leaves (true height 1) and
that validation rows reach always gets height 2. -/
theorem C28_bottom_height [Zero K] (num : V → K) (maj : List Int → Option Int) : ∀ (t t' : Tree V K m) (train val : Data V m),
    prePrune num maj t train val = .ok t' → ∀ a n h br tr v, Sub num t' train val (.disc a n h br) tr v → v ≠ [] →
    br.trees ≠ [] → (Tree.disc a n h br).Bottom → h = 2 ∧ (Tree.disc a n h br).depth = 1 := by
  intro t
  induction t using tree_ind with
  | h1 c =>
    intro t' train val h a n h' br tr v hs
    simp only [prePrune, Except.ok.injEq] at h
    subst h
    exact absurd (sub_leaf hs).1 (by simp)
  | h2 a t n h g l ihg ihl =>
    intro t' train val hp b n1 h1 br tr v hs hv hne hb
    by_cases hval : val = []
    · exact absurd (sub_nil hs hval) hv
    obtain ⟨h0, c, hc, (⟨rfl, -⟩ | ⟨g', l', n', h', hg, hl, rfl, -, -⟩)⟩ := prePrune_cont hp hval
    · exact absurd (sub_leaf hs).1 (by simp)
    · cases hs with
      | ge hs => exact ihg _ _ _ hg _ _ _ _ _ _ hs hv hne hb
      | lt hs => exact ihl _ _ _ hl _ _ _ _ _ _ hs hv hne hb
  | h3 a n h br ih =>
    intro t' train val hp b n1 h1 br1 tr v hs hv hne hb
    by_cases hval : val = []
    · exact absurd (sub_nil hs hval) hv
    obtain ⟨c, hc, _, (⟨rfl, -⟩ | ⟨br', hbr, rfl, -⟩)⟩ := prePrune_disc hp hval
    · exact absurd (sub_leaf hs).1 (by simp)
    · cases hs with
      | here =>
        have hb' : ∀ u ∈ br1.trees, u.isLeaf = true := hb
        constructor
        · cases br1 with
          | nil => simp [Forest.trees] at hne
          | cons w u r =>
            have hu := hb' u (by simp [Forest.trees])
            cases u with
            | leaf d =>
              rw [buggyMax, if_pos (by simp [Tree.ht]), buggyMax_one r _ (by simp [Tree.ht]) fun s hs =>
                hb' s (by simp [Forest.trees, hs])]
              simp [Tree.ht]
            | cont => simp [Tree.isLeaf] at hu
            | disc => simp [Tree.isLeaf] at hu
        · simp only [Tree.depth]
          rw [height1_const 0 br1 (fun u hu => depth_leaf (hb' u hu)) hne]
      | disc hmem hs =>
        obtain ⟨u, hu, h2⟩ := prePruneIn_pairs hbr _ hmem
        exact ih _ hu _ _ _ h2 _ _ _ _ _ _ hs hv hne hb

/-- A fitted tree kept by pre-pruning, tests by value only: the hypotheses of `C128_score`, `C128_kept` are met. -/
example : ∃ t t', fit (giniDiscrete 1) 10 [![0], ![1], ![1]] [0, 1, 1] = .ok t ∧
    prePrune id majFirst t ([![0], ![1], ![1]].zip [0, 1, 1]) [(![0], 0), (![1], 1)] = .ok t' ∧ t'.isLeaf = false ∧
    majFirst [0, 1, 1] = some 1 := by
  obtain ⟨t, h1, h2⟩ := exists_ok (x := fit (giniDiscrete 1) 10 [![0], ![1], ![1]] [0, 1, 1])
    (fun t => onOk (prePrune id majFirst t ([![0], ![1], ![1]].zip [0, 1, 1]) [(![0], 0), (![1], 1)])
      fun t' => !t'.isLeaf) (by decide +kernel)
  obtain ⟨t', h3, h4⟩ := exists_ok _ h2
  exact ⟨t, t', h1, h3, by simpa using h4, by decide +kernel⟩

end CML.DTree
