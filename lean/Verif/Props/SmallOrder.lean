import Verif.Spec.SmallOrder
import Verif.Props.SmallTwice
import Verif.Props.TreeOrder

set_option linter.unusedSectionVars false

/-! # Property C343: stumps, two-level trees and the order of the attributes -/

namespace CML.Small

variable {K : Type*} [Field K] [LinearOrder K] [IsStrictOrderedRing K] {m : Nat}

deriving instance DecidableEq for T2
deriving instance DecidableEq for Stump

/-! ## Two-level trees -/

theorem chooseLoop_strict {d : List (Sample K m)} {a : Fin m} {l : List (Fin m)} (ha : a ∈ l) (ht : (wValue d a).1 < ⊤)
    (hs : ∀ b, b ≠ a → (wValue d a).1 < (wValue d b).1) : chooseLoop d l (⊤, none, none) = ((wValue d a).2, some a) := by
  rcases chooseLoop_spec d l (⊤, none, none) with ⟨-, h2⟩ | ⟨c, -, h1, -, h3⟩
  · exact absurd ht (not_lt.2 (h2 a ha))
  · have : c = a := by
      by_contra hc
      exact absurd (hs c hc) (not_lt.2 (h3 a ha))
    rw [h1, this]

theorem chooseFeature_perm (e : Equiv.Perm (Fin m)) {d : List (Sample K m)} {t : K} {a : Fin m} (h : chooseFeature d = (some t, some a))
    (hn : ∀ b, b ≠ a → ∀ s ∈ candidatePoints (d.map fun q => q.x b), giniSplit d a t < giniSplit d b s) :
    chooseFeature (d.map (Sample.keep e)) = (some t, some (e.symm a)) := by
  have hk : chooseLoop d ((List.finRange m).map e) (⊤, none, none) = ((chooseFeature (d.map (Sample.keep e))).1, (chooseFeature (d.map (Sample.keep e))).2.map e) :=
    chooseLoop_keep e d (List.finRange m) ⊤ none none
  rcases chooseLoop_spec d (List.finRange m) (⊤, none, none) with ⟨h1, -⟩ | ⟨a', -, h1, h2, -⟩
  · exact absurd (h.symm.trans h1) (by simp)
  · have h3 := h.symm.trans h1
    simp only [Prod.mk.injEq, Option.some.injEq] at h3
    obtain ⟨h4, rfl⟩ := h3
    have h5 : (wValue d a).1 = ((giniSplit d a t : K) : WithTop K) := by
      rcases wValue_spec d a with ⟨-, h6⟩ | ⟨t', -, h6, -⟩
      · rw [h6] at h4; simp at h4
      · rw [h6] at h4 ⊢
        simp only [Option.some.injEq] at h4
        rw [h4]
    have h6 := chooseLoop_strict (l := (List.finRange m).map e) (DTree.perm_columns e |>.mem_iff.2 (List.mem_finRange a)) h2 fun b hb => by
      rw [h5]
      rcases wValue_spec d b with ⟨-, h6⟩ | ⟨t', ht', h6, -⟩
      · rw [h6]; exact WithTop.coe_lt_top _
      · rw [h6]; exact WithTop.coe_lt_coe.2 (hn b hb t' ht')
    rw [hk, ← h4] at h6
    generalize chooseFeature (d.map (Sample.keep e)) = pc at h6 ⊢
    obtain ⟨p, c⟩ := pc
    simp only [Prod.mk.injEq] at h6
    obtain ⟨rfl, h7⟩ := h6
    cases c with
    | none => simp at h7
    | some c =>
      simp only [Option.map_some, Option.some.injEq] at h7
      rw [← h7, Equiv.symm_apply_apply]

theorem gen2_order (e : Equiv.Perm (Fin m)) : ∀ (k : Nat) (d : List (Sample K m)) (T : T2 K m), gen2 k d = .ok T → T.NoTies d →
    ∃ T', gen2 k (d.map (Sample.keep e)) = .ok T' ∧ T = T'.renumber e := by
  intro k
  induction k with
  | zero =>
    intro d T h _
    simp only [gen2, Except.ok.injEq] at h
    subst h
    exact ⟨_, by simp only [gen2, leafCat_keep]; rfl, rfl⟩
  | succ k ih =>
    intro d T h hn
    simp only [gen2] at h
    by_cases hl : d.length ≤ 2
    · rw [if_pos hl] at h
      simp only [Except.ok.injEq] at h
      subst h
      exact ⟨_, by simp only [gen2, List.length_map, if_pos hl, leafCat_keep]; rfl, rfl⟩
    · rw [if_neg hl] at h
      obtain ⟨p, c, hc⟩ : ∃ p c, chooseFeature d = (p, c) := ⟨_, _, rfl⟩
      rw [hc] at h
      cases p with
      | none => simp at h
      | some t =>
        cases c with
        | none => simp at h
        | some a =>
          simp only at h
          cases hu : gen2 k (d.filter fun s => t ≤ s.x a) with
          | error e => rw [hu] at h; simp at h
          | ok u =>
            cases hv : gen2 k (d.filter fun s => s.x a < t) with
            | error e => rw [hu, hv] at h; simp at h
            | ok l =>
              rw [hu, hv] at h
              simp only [Except.ok.injEq] at h
              subst h
              obtain ⟨hn1, hn2, hn3⟩ := hn
              obtain ⟨u', hu', rfl⟩ := ih _ _ hu hn2
              obtain ⟨l', hl', rfl⟩ := ih _ _ hv hn3
              refine ⟨.node (e.symm a) t u' l', ?_, by simp [T2.renumber]⟩
              simp only [gen2, List.length_map, if_neg hl]
              rw [chooseFeature_perm e hc hn1]
              simp only [upper_keep, lower_keep, Equiv.apply_symm_apply, hu', hl']

/-- **C343** (two-level trees): if no question of the fitted tree is tied with a question about another attribute, then fitting on the same samples with the attributes in any other order
gives the same tree with the attributes renumbered, and the same answers. Missing: trees with ties (`C343_violated`). -/
theorem C343_two_levels_partial (e : Equiv.Perm (Fin m)) (d : List (Sample K m)) (T : T2 K m) (h : fit2 d = .ok T) (hn : T.NoTies d) :
    ∃ T', fit2 (d.map fun s => ⟨fun j => s.x (e j), s.y, s.w⟩) = .ok T' ∧ T = T'.renumber e ∧ ∀ r : Fin m → K, T'.predict (fun j => r (e j)) = T.predict r := by
  obtain ⟨T', h1, rfl⟩ := gen2_order e 2 d T h hn
  exact ⟨T', h1, rfl, fun r => (t2_renumber e r T').symm⟩

theorem gen2_root {k : Nat} {d : List (Sample K m)} {a : Fin m} {t : K} {u l : T2 K m} (h : gen2 (k + 1) d = .ok (.node a t u l)) :
    2 < d.length ∧ t ∈ candidatePoints (d.map fun q => q.x a) ∧ ∀ b, ∀ s ∈ candidatePoints (d.map fun q => q.x b), giniSplit d a t ≤ giniSplit d b s := by
  simp only [gen2] at h
  by_cases hl : d.length ≤ 2
  · rw [if_pos hl] at h; simp at h
  · rw [if_neg hl] at h
    obtain ⟨t', a', h1, h2, h3⟩ := chooseFeature_spec d (by omega) (Fin.pos a)
    rw [h1] at h
    simp only at h
    cases hu : gen2 k (d.filter fun s => t' ≤ s.x a') with
    | error e => rw [hu] at h; simp at h
    | ok u' =>
      cases hv : gen2 k (d.filter fun s => s.x a' < t') with
      | error e => rw [hu, hv] at h; simp at h
      | ok l' =>
        rw [hu, hv] at h
        simp only [Except.ok.injEq, T2.node.injEq] at h
        obtain ⟨rfl, rfl, -, -⟩ := h
        exact ⟨by omega, h2, h3⟩

/-- C343: with or without ties, the weighted Gini index of the first question of a two-level tree does not depend on the order of the attributes. -/
theorem C343_root_value (e : Equiv.Perm (Fin m)) (d : List (Sample K m)) (a : Fin m) (t : K) (u l : T2 K m) (h : fit2 d = .ok (.node a t u l)) :
    ∃ a' t' u' l', fit2 (d.map fun s => ⟨fun j => s.x (e j), s.y, s.w⟩) = .ok (.node a' t' u' l') ∧
      giniSplit (d.map fun s => ⟨fun j => s.x (e j), s.y, s.w⟩) a' t' = giniSplit d a t := by
  obtain ⟨h0, h1, h2⟩ := gen2_root h
  have hk : ∀ b s, giniSplit (d.map (Sample.keep e)) b s = giniSplit d (e b) s := fun b s => by rw [← wCost_eq, ← wCost_eq, wCost_keep]
  have hcol : ∀ b, ((d.map (Sample.keep e)).map fun q => q.x b) = d.map fun q => q.x (e b) := fun b => by simp [Function.comp_def, Sample.keep]
  obtain ⟨T, hT⟩ := gen2_ok (Fin.pos a) 2 (d.map (Sample.keep e))
  cases T with
  | leaf c =>
    exfalso
    simp only [gen2, List.length_map, if_neg (not_le.2 h0)] at hT
    split at hT
    · split at hT <;> simp at hT
    · simp at hT
  | node a' t' u' l' =>
    obtain ⟨-, g1, g2⟩ := gen2_root hT
    refine ⟨a', t', u', l', hT, ?_⟩
    change giniSplit (d.map (Sample.keep e)) a' t' = _
    rw [hcol] at g1
    refine le_antisymm ?_ ?_
    · have := g2 (e.symm a) t (by rw [hcol, Equiv.apply_symm_apply]; exact h1)
      rwa [hk (e.symm a), Equiv.apply_symm_apply] at this
    · rw [hk]; exact h2 _ _ g1

/-! ## Stumps -/

theorem scan_start (err : Stump K m → WithTop K) : ∀ (l : List (Stump K m)) (b b' : WithTop K × Option (Stump K m)),
    (∃ s ∈ l, err s < b.1 ∧ err s < b'.1) → scan err l b = scan err l b'
  | [], _, _, h => by simp at h
  | c :: l, b, b', ⟨s, hs, h1, h2⟩ => by
    simp only [scan]
    by_cases h3 : err c < b.1 <;> by_cases h4 : err c < b'.1
    · rw [if_pos h3, if_pos h4]
    · rw [if_pos h3, if_neg h4]
      have h5 := h2.trans_le (not_lt.1 h4)
      refine scan_start err l _ _ ⟨s, ?_, h5, h2⟩
      rcases List.mem_cons.1 hs with rfl | hs
      · exact absurd h5 (lt_irrefl _)
      · exact hs
    · rw [if_neg h3, if_pos h4]
      have h5 := h1.trans_le (not_lt.1 h3)
      refine scan_start err l _ _ ⟨s, ?_, h1, h5⟩
      rcases List.mem_cons.1 hs with rfl | hs
      · exact absurd h5 (lt_irrefl _)
      · exact hs
    · rw [if_neg h3, if_neg h4]
      have h5 := h1.trans_le (not_lt.1 h3)
      refine scan_start err l _ _ ⟨s, ?_, h1, h2⟩
      rcases List.mem_cons.1 hs with rfl | hs
      · exact absurd h5 (lt_irrefl _)
      · exact hs

theorem scan_bound (err : Stump K m → WithTop K) : ∀ (l : List (Stump K m)) (b : WithTop K × Option (Stump K m)),
    (scan err l b).1 = b.1 ∨ ∃ s ∈ l, (scan err l b).1 = err s
  | [], _ => .inl rfl
  | c :: l, b => by
    simp only [scan]
    by_cases h : err c < b.1
    · rw [if_pos h]
      rcases scan_bound err l (err c, some c) with h1 | ⟨s, hs, h1⟩
      · exact .inr ⟨c, by simp, h1⟩
      · exact .inr ⟨s, by simp [hs], h1⟩
    · rw [if_neg h]
      rcases scan_bound err l b with h1 | ⟨s, hs, h1⟩
      · exact .inl h1
      · exact .inr ⟨s, by simp [hs], h1⟩

theorem bestStump_scan (err : Stump K m → WithTop K) : ∀ (l : List (Stump K m)) (b : WithTop K × Option (Stump K m)), bestStump err l b = (scan err l b).2
  | [], _ => rfl
  | c :: l, b => by simp only [bestStump, scan]; exact bestStump_scan err l _

/-- A part of the candidates with a candidate that is better than all the others decides alone. -/
theorem bestStump_only (err : Stump K m → WithTop K) (l₁ A l₂ : List (Stump K m)) {s₀ : Stump K m} (h0 : s₀ ∈ A) (ht : err s₀ < ⊤) (h1 : ∀ s ∈ l₁, err s₀ < err s)
    (h2 : ∀ s ∈ l₂, err s₀ < err s) : bestStump err (l₁ ++ (A ++ l₂)) (⊤, none) = bestStump err A (⊤, none) := by
  rw [bestStump_append, bestStump_append]
  have hstart : err s₀ < (scan err l₁ (⊤, none)).1 := by
    rcases scan_bound err l₁ (⊤, none) with h | ⟨s, hs, h⟩
    · rw [h]; exact ht
    · rw [h]; exact h1 s hs
  rw [scan_start err A _ (⊤, none) ⟨s₀, h0, hstart, ht⟩, bestStump_scan, bestStump_scan]
  rw [scan_skip err l₂ _ fun s hs => ((scan_le err A (⊤, none)).2 s₀ h0).trans (h2 s hs).le]

theorem bestStump_columns (err : Stump K m → WithTop K) (data : List ((Fin m → K) × Int)) {s₀ : Stump K m} (h0 : s₀ ∈ block data s₀.feature) (ht : err s₀ < ⊤)
    (hs : ∀ b, b ≠ s₀.feature → ∀ s ∈ block data b, err s₀ < err s) (l : List (Fin m)) (hl : l.Nodup) (ha : s₀.feature ∈ l) :
    bestStump err (l.flatMap (block data)) (⊤, none) = bestStump err (block data s₀.feature) (⊤, none) := by
  obtain ⟨p, q, rfl⟩ := List.append_of_mem ha
  rw [List.flatMap_append, List.flatMap_cons]
  have hd := List.nodup_append.1 hl
  refine bestStump_only err _ _ _ h0 ht ?_ ?_
  · intro s h
    obtain ⟨b, hb, h⟩ := List.mem_flatMap.1 h
    exact hs b (fun e => hd.2.2 b hb _ (by simp) e) s h
  · intro s h
    obtain ⟨b, hb, h⟩ := List.mem_flatMap.1 h
    refine hs b (fun e => ?_) s h
    subst e
    exact (List.nodup_cons.1 hd.2.1).1 hb

theorem mem_block {data : List ((Fin m → K) × Int)} {b : Fin m} {s : Stump K m} :
    s ∈ block data b ↔ s.feature = b ∧ s.point ∈ candidatePoints (data.map fun q => q.1 b) := by
  unfold block
  simp only [List.mem_flatMap, List.mem_map]
  constructor
  · rintro ⟨md, -, t, ht, rfl⟩
    exact ⟨rfl, ht⟩
  · rintro ⟨rfl, h⟩
    exact ⟨s.mode, by cases s.mode <;> simp, s.point, h, rfl⟩

theorem error_lt_top (s : Stump K m) {data : List ((Fin m → K) × Int)} (hne : data ≠ []) (hy : ∀ q ∈ data, q.2 = 1 ∨ q.2 = -1) : s.error data < ⊤ := by
  rw [stump_error s data hne hy]; exact WithTop.coe_lt_top _

theorem error_lt {s s' : Stump K m} {data : List ((Fin m → K) × Int)} (hne : data ≠ []) (hy : ∀ q ∈ data, q.2 = 1 ∨ q.2 = -1)
    (h : mistakes s.predict data < mistakes s'.predict data) : s.error data < s'.error data := by
  rw [stump_error s data hne hy, stump_error s' data hne hy, WithTop.coe_lt_coe]
  have hpos : (0 : K) < data.length := by exact_mod_cast List.length_pos_of_ne_nil hne
  exact div_lt_div_of_pos_right (by exact_mod_cast h) hpos

theorem error_eq {s s' : Stump K m} {data : List ((Fin m → K) × Int)} (hne : data ≠ []) (hy : ∀ q ∈ data, q.2 = 1 ∨ q.2 = -1)
    (h : s.error data = s'.error data) : mistakes s.predict data = mistakes s'.predict data := by
  rcases lt_trichotomy (mistakes s.predict data) (mistakes s'.predict data) with h1 | h1 | h1
  · exact absurd h (error_lt hne hy h1).ne
  · exact h1
  · exact absurd h (error_lt hne hy h1).ne'

/-- The search on reordered columns is the search over the reordered blocks. -/
theorem stumpGenerate_order (e : Equiv.Perm (Fin m)) (data : List ((Fin m → K) × Int)) :
    bestStump (fun s => s.error data) (((List.finRange m).map e).flatMap (block data)) (⊤, none) =
      (stumpGenerate (data.map fun q => ((fun j => q.1 (e j)), q.2))).map (Stump.renumber e) := by
  have hm : ((List.finRange m).map e).flatMap (block data) = (stumpCandidates (data.map fun q => ((fun j => q.1 (e j)), q.2))).map (Stump.renumber e) := by
    unfold stumpCandidates
    rw [List.map_flatMap, List.flatMap_map]
    refine List.flatMap_congr fun i _ => ?_
    rw [block, List.map_flatMap]
    refine List.flatMap_congr fun md _ => ?_
    rw [List.map_map, List.map_map]
    rfl
  rw [hm]
  refine bestStump_renumber _ (fun s => s.error (data.map fun q => ((fun j => q.1 (e j)), q.2))) _ (fun s => ?_) _ (⊤, none)
  simp only [Stump.error, List.map_map, Function.comp_def, stump_renumber]

/-- **C343** (stumps): if no candidate about another feature makes as few mistakes as the fitted stump, then fitting on the same samples with the features in any other order gives the same
stump with the features renumbered, and the same answers. Missing: stumps with ties (`C343_violated`). -/
theorem C343_stump_partial (e : Equiv.Perm (Fin m)) (data : List ((Fin m → K) × Int)) (hy : ∀ q ∈ data, q.2 = 1 ∨ q.2 = -1) (s : Stump K m) (h : stumpGenerate data = some s)
    (hn : s.NoTies data) :
    ∃ s', stumpGenerate (data.map fun q => ((fun j => q.1 (e j)), q.2)) = some s' ∧ s = s'.renumber e ∧ ∀ r : Fin m → K, s'.predict (fun j => r (e j)) = s.predict r := by
  have hc : stumpCandidates data = (List.finRange m).flatMap (block data) := rfl
  have hmem : s ∈ block data s.feature := by
    rcases bestStump_spec (fun s => s.error data) (stumpCandidates data) (⊤, none) with ⟨h1, -⟩ | ⟨s', hs', h1, -, -⟩
    · exact absurd (h.symm.trans h1) (by simp)
    · have h2 := h.symm.trans h1
      simp only [Option.some.injEq] at h2
      subst h2
      exact mem_block.2 ⟨rfl, mem_stumpCandidates.1 hs'⟩
  have hne : data ≠ [] := by
    rintro rfl
    have := (mem_block.1 hmem).2
    simp [candidatePoints, DTree.midpoints] at this
  have hs : ∀ b, b ≠ s.feature → ∀ s' ∈ block data b, s.error data < s'.error data := by
    intro b hb s' hs'
    obtain ⟨rfl, hp⟩ := mem_block.1 hs'
    refine error_lt hne hy ?_
    have := hn _ hb _ hp s'.mode
    rwa [show s'.predict = thresholdRule s'.feature s'.point s'.mode from funext fun r => predict_eq_rule s' r]
  have hcol := fun l => bestStump_columns (fun s => s.error data) data hmem (error_lt_top s hne hy) hs l
  have h1 : stumpGenerate data = bestStump (fun s => s.error data) (((List.finRange m).map e).flatMap (block data)) (⊤, none) := by
    unfold stumpGenerate
    rw [hc, hcol _ (List.nodup_finRange m) (List.mem_finRange _),
      hcol _ ((List.nodup_finRange m).map e.injective) ((DTree.perm_columns e).mem_iff.2 (List.mem_finRange _))]
  rw [stumpGenerate_order e data, h] at h1
  cases hg : stumpGenerate (data.map fun q => ((fun j => q.1 (e j)), q.2)) with
  | none => rw [hg] at h1; simp at h1
  | some s' =>
    rw [hg] at h1
    simp only [Option.map_some, Option.some.injEq] at h1
    subst h1
    exact ⟨s', rfl, rfl, fun r => (stump_renumber e s' r).symm⟩

/-- C343: with or without ties, the number of mistakes of the fitted stump on its training samples does not depend on the order of the features. -/
theorem C343_stump_mistakes (e : Equiv.Perm (Fin m)) (data : List ((Fin m → K) × Int)) (hy : ∀ q ∈ data, q.2 = 1 ∨ q.2 = -1) (s : Stump K m) (h : stumpGenerate data = some s) :
    ∃ s', stumpGenerate (data.map fun q => ((fun j => q.1 (e j)), q.2)) = some s' ∧
      mistakes s'.predict (data.map fun q => ((fun j => q.1 (e j)), q.2)) = mistakes s.predict data := by
  have hc : stumpCandidates data = (List.finRange m).flatMap (block data) := rfl
  have hm : ∀ s', s' ∈ ((List.finRange m).map e).flatMap (block data) ↔ s' ∈ stumpCandidates data := by
    intro s'
    rw [hc, List.mem_flatMap, List.mem_flatMap]
    constructor
    · rintro ⟨b, -, h⟩; exact ⟨b, List.mem_finRange b, h⟩
    · rintro ⟨b, -, h⟩; exact ⟨b, (DTree.perm_columns e).mem_iff.2 (List.mem_finRange _), h⟩
  rcases bestStump_spec (fun s => s.error data) (stumpCandidates data) (⊤, none) with ⟨h1, -⟩ | ⟨s₁, hs₁, h1, h2, h3⟩
  · exact absurd (h.symm.trans h1) (by simp)
  have h4 := h.symm.trans h1
  simp only [Option.some.injEq] at h4
  subst h4
  have hne : data ≠ [] := by
    rintro rfl
    have := mem_stumpCandidates.1 hs₁
    simp [candidatePoints, DTree.midpoints] at this
  have ho := stumpGenerate_order e data
  rcases bestStump_spec (fun s => s.error data) (((List.finRange m).map e).flatMap (block data)) (⊤, none) with ⟨-, h5⟩ | ⟨s₂, hs₂, h5, -, h6⟩
  · exact absurd h2 (not_lt.2 (h5 s ((hm s).2 hs₁)))
  rw [h5] at ho
  cases hg : stumpGenerate (data.map fun q => ((fun j => q.1 (e j)), q.2)) with
  | none => rw [hg] at ho; simp at ho
  | some s' =>
    rw [hg] at ho
    simp only [Option.map_some, Option.some.injEq] at ho
    refine ⟨s', rfl, ?_⟩
    have h7 : mistakes s₂.predict data = mistakes s.predict data := error_eq hne hy (le_antisymm (h6 s ((hm s).2 hs₁)) (h3 s₂ ((hm s₂).1 hs₂)))
    rw [← h7, ho]
    unfold mistakes
    rw [List.filter_map, List.length_map]
    simp only [Function.comp_def, stump_renumber]

/-- C343 is false with ties: two columns that agree on all training rows; the fitted stump and the fitted tree ask about the one that comes first, so a row in which they differ is labelled
by the order of the columns. -/
theorem C343_violated :
    ¬ (∀ (data : List ((Fin 2 → ℚ) × Int)) (e : Equiv.Perm (Fin 2)) (r : Fin 2 → ℚ),
      stumpPredict (stumpGenerate (data.map fun q => ((fun j => q.1 (e j)), q.2))) [fun j => r (e j)] = stumpPredict (stumpGenerate data) [r]) ∧
    ¬ (∀ (d : List (Sample ℚ 2)) (e : Equiv.Perm (Fin 2)) (r : Fin 2 → ℚ),
      (fit2 (d.map fun s => ⟨fun j => s.x (e j), s.y, s.w⟩)).map (fun T => T.predict fun j => r (e j)) = (fit2 d).map fun T => T.predict r) := by
  constructor
  · intro h
    have := h [(![0, 0], -1), (![1, 1], 1)] (Equiv.swap 0 1) ![0, 1]
    revert this; decide +kernel
  · intro h
    have := h [⟨![0, 0], -1, 1⟩, ⟨![1, 1], -1, 1⟩, ⟨![2, 2], 1, 1⟩, ⟨![3, 3], 1, 1⟩] (Equiv.swap 0 1) ![0, 3]
    revert this; decide +kernel

/-- A tree and a stump without ties: the second column separates the labels, the first one does not. -/
example : (∃ T, fit2 [⟨![0, 5], -1, 1⟩, ⟨![3, 4], -1, 1⟩, ⟨![2, 1], 1, 1⟩, ⟨![1, 0], 1, (1 : ℚ)⟩] = .ok T ∧ T = .node 1 (5 / 2) (.leaf (-1)) (.leaf 1) ∧
      T.NoTies [⟨![0, 5], -1, 1⟩, ⟨![3, 4], -1, 1⟩, ⟨![2, 1], 1, 1⟩, ⟨![1, 0], 1, (1 : ℚ)⟩]) ∧
    (∃ s, stumpGenerate [(![0, 5], -1), (![3, 4], -1), (![2, 1], 1), (![1, (0 : ℚ)], 1)] = some s ∧ s = ⟨1, 5 / 2, .gte⟩ ∧
      s.NoTies [(![0, 5], -1), (![3, 4], -1), (![2, 1], 1), (![1, (0 : ℚ)], 1)]) := by
  refine ⟨⟨_, ?_, rfl, ?_, trivial, trivial⟩, ⟨_, ?_, rfl, ?_⟩⟩
  · decide +kernel
  · decide +kernel
  · decide +kernel
  · intro b hb t ht md
    have hm : md ∈ [Mode.gte, Mode.le] := by cases md <;> simp
    revert b t md
    decide +kernel


end CML.Small

namespace CML.Ada

variable {X X' : Type*} {n m : Nat}

theorem loop_alike_rounds (φ : X → X') {learn : (Fin n → ℝ) → Except PyErr (X → Int)} {learn' : (Fin n → ℝ) → Except PyErr (X' → Int)} (x : Fin n → X) (y : Fin n → Int) (k : Nat) :
    ∀ (D : Option (Fin n → ℝ)) (rs : List (Round X n)), loop learn x y k D = .ok rs →
      (∀ r ∈ rs, ∀ f, learn r.dist = .ok f → ∃ f', learn' r.dist = .ok f' ∧ ∀ q, f' (φ q) = f q) →
      ∃ rs', loop learn' (fun i => φ (x i)) y k D = .ok rs' ∧ SameRounds φ rs rs' := by
  induction k with
  | zero =>
    intro D rs h _
    have : rs = [] := by cases D <;> simp only [loop, Except.ok.injEq] at h <;> exact h.symm
    subst this
    exact ⟨[], by cases D <;> rfl, List.Forall₂.nil⟩
  | succ k ih =>
    intro D rs h hl
    cases D with
    | none => simp [loop] at h
    | some D =>
      simp only [loop] at h ⊢
      cases hf : learn D with
      | error e => rw [hf] at h; simp at h
      | ok f =>
        rw [hf] at h
        dsimp only at h
        by_cases hc : errorOf D (fun i => f (x i)) y > 1 / 2 ∨ errorOf D (fun i => f (x i)) y < EPS
        · rw [if_pos hc] at h
          simp only [Except.ok.injEq] at h
          subst h
          obtain ⟨f', h2, h3⟩ := hl _ (List.mem_cons_self ..) f hf
          have hp : (fun i => f' (φ (x i))) = fun i => f (x i) := funext fun i => h3 (x i)
          dsimp only at h2
          rw [h2]
          dsimp only
          rw [hp, if_pos hc]
          exact ⟨_, rfl, .cons ⟨rfl, rfl, rfl, h3⟩ .nil⟩
        · rw [if_neg hc] at h
          cases hr : loop learn x y k (reweight D (fun i => f (x i)) y (alphaOf (errorOf D (fun i => f (x i)) y))) with
          | error e => rw [hr] at h; simp at h
          | ok rs₁ =>
            rw [hr] at h
            simp only [Except.ok.injEq] at h
            subst h
            obtain ⟨f', h2, h3⟩ := hl _ (List.mem_cons_self ..) f hf
            have hp : (fun i => f' (φ (x i))) = fun i => f (x i) := funext fun i => h3 (x i)
            obtain ⟨rs', g1, g2⟩ := ih _ _ hr fun r hr' => hl r (by simp [hr'])
            dsimp only at h2
            rw [h2]
            dsimp only
            rw [hp, if_neg hc, g1]
            exact ⟨_, rfl, .cons ⟨rfl, rfl, rfl, h3⟩ g2⟩

/-- The samples of a round with their weights. -/
def samples (x : Fin n → (Fin m → ℝ)) (y : Fin n → Int) (D : Fin n → ℝ) : List (Small.Sample ℝ m) := List.ofFn fun i => ⟨x i, y i, D i⟩

/-- **C343** (AdaBoost with its default learner): if in no round a question of the round's tree is tied with a question about another attribute, then training on the same samples with the
attributes in any other order gives the same distributions, errors and coefficients, and the same predictions. Missing: trainings with ties (`C343_violated`). -/
theorem C343_adaboost_partial (e : Equiv.Perm (Fin m)) (x : Fin n → (Fin m → ℝ)) (y : Fin n → Int) (k : Nat) (rs : List (Round (Fin m → ℝ) n)) (h : fit (treeLearner x y) x y k = .ok rs)
    (hn : ∀ r ∈ rs, ∀ T, Small.fit2 (samples x y r.dist) = .ok T → T.NoTies (samples x y r.dist)) :
    ∃ rs', fit (treeLearner (fun i j => x i (e j)) y) (fun i j => x i (e j)) y k = .ok rs' ∧
      rs'.map Round.dist = rs.map Round.dist ∧ rs'.map Round.err = rs.map Round.err ∧ rs'.map Round.alpha = rs.map Round.alpha ∧
      ∀ q : Fin m → ℝ, predictRow (rs'.map Round.h) (rs'.map Round.alpha) (fun j => q (e j)) = predictRow (rs.map Round.h) (rs.map Round.alpha) q := by
  obtain ⟨rs', h1, h2⟩ := loop_alike_rounds (fun (r : Fin m → ℝ) j => r (e j)) (learn' := treeLearner (fun i j => x i (e j)) y) x y k _ rs h (by
    intro r hr f hf
    unfold treeLearner at hf
    cases hT : Small.fit2 (samples x y r.dist) with
    | error e => rw [samples] at hT; rw [hT] at hf; simp at hf
    | ok T =>
      obtain ⟨T', g1, -, g3⟩ := Small.C343_two_levels_partial e _ T hT (hn r hr T hT)
      rw [samples] at hT
      rw [hT] at hf
      simp only [Except.ok.injEq] at hf
      subst hf
      refine ⟨fun q => T'.predict q, ?_, g3⟩
      have hm : (List.ofFn fun i => (⟨fun j => x i (e j), y i, r.dist i⟩ : Small.Sample ℝ m)) = (samples x y r.dist).map fun s => ⟨fun j => s.x (e j), s.y, s.w⟩ := by
        rw [samples, List.map_ofFn]; rfl
      unfold treeLearner
      rw [hm, g1])
  refine ⟨rs', h1, ?_, ?_, ?_, predictRow_same h2⟩
  all_goals
    clear h h1 hn
    induction h2 with
    | nil => rfl
    | cons a _ ih => simp only [List.map_cons, ih, a.1, a.2.1, a.2.2.1]

/-- Three rows whose second column alone separates the labels: the tree asks about it without a tie. -/
theorem three_rows : ∃ T, Small.fit2 (samples ![![0, 5], ![2, 4], ![1, (0 : ℝ)]] ![-1, -1, 1] fun _ => 1 / 3) = .ok T ∧ T = .node 1 2 (.leaf (-1)) (.leaf 1) ∧
    T.NoTies (samples ![![0, 5], ![2, 4], ![1, (0 : ℝ)]] ![-1, -1, 1] fun _ => 1 / 3) := by
  have hs : samples ![![0, 5], ![2, 4], ![1, (0 : ℝ)]] ![-1, -1, 1] (fun _ => 1 / 3) = [⟨![0, 5], -1, 1 / 3⟩, ⟨![2, 4], -1, 1 / 3⟩, ⟨![1, 0], 1, 1 / 3⟩] := by
    simp [samples, List.ofFn_succ]
  rw [hs]
  refine ⟨.node 1 2 (.leaf (-1)) (.leaf 1), ?_, rfl, ?_, trivial, trivial⟩
  · norm_num [Small.fit2, Small.gen2, Small.chooseFeature, Small.chooseLoop, Small.wValue, Small.candidatePoints, DTree.midpoints, DTree.contBest, Small.wCost, Small.weight, Small.wgini,
      pyUnique, Small.leafCat, List.finRange_succ, List.insertionSort, List.orderedInsert]
  · intro b hb
    have : b = 0 := by fin_cases b <;> simp_all
    subst this
    norm_num [Small.candidatePoints, DTree.midpoints, List.insertionSort, List.orderedInsert, Small.giniSplit, Small.giniIndex, Small.weightWhere]

/-- The training on these rows has a round and meets the hypothesis. -/
example : ∃ rs, fit (treeLearner ![![0, 5], ![2, 4], ![1, (0 : ℝ)]] ![-1, -1, 1]) ![![0, 5], ![2, 4], ![1, (0 : ℝ)]] ![-1, -1, 1] 1 = .ok rs ∧ rs ≠ [] ∧
    ∀ r ∈ rs, ∀ T, Small.fit2 (samples ![![0, 5], ![2, 4], ![1, (0 : ℝ)]] ![-1, -1, 1] r.dist) = .ok T →
      T.NoTies (samples ![![0, 5], ![2, 4], ![1, (0 : ℝ)]] ![-1, -1, 1] r.dist) := by
  obtain ⟨T, h1, -, h3⟩ := three_rows
  have hl : treeLearner ![![0, 5], ![2, 4], ![1, (0 : ℝ)]] ![-1, -1, 1] (fun _ => 1 / ((3 : ℕ) : ℝ)) = .ok fun r => T.predict r := by
    unfold treeLearner
    have h2 : Small.fit2 (List.ofFn fun i => (⟨![![0, 5], ![2, 4], ![1, (0 : ℝ)]] i, ![-1, -1, 1] i, 1 / ((3 : ℕ) : ℝ)⟩ : Small.Sample ℝ 2)) = .ok T := by
      simpa [samples] using h1
    rw [h2]
  have hz : ∀ D, loop (treeLearner ![![0, 5], ![2, 4], ![1, (0 : ℝ)]] ![-1, -1, 1]) ![![0, 5], ![2, 4], ![1, (0 : ℝ)]] ![-1, -1, 1] 0 D = .ok [] := fun D => by cases D <;> rfl
  refine ⟨[⟨fun _ => 1 / ((3 : ℕ) : ℝ), fun r => T.predict r, errorOf (fun _ => 1 / ((3 : ℕ) : ℝ)) (fun i => T.predict (![![0, 5], ![2, 4], ![1, (0 : ℝ)]] i)) ![-1, -1, 1],
      alphaOf (errorOf (fun _ => 1 / ((3 : ℕ) : ℝ)) (fun i => T.predict (![![0, 5], ![2, 4], ![1, (0 : ℝ)]] i)) ![-1, -1, 1])⟩], ?_, ?_, ?_⟩
  · rw [fit, loop, hl]
    dsimp only
    split
    · rfl
    · rw [hz]
  · simp
  · intro r hr T' hT'
    simp only [List.mem_singleton] at hr
    subst hr
    have h4 : T' = T := by
      have : (fun _ : Fin 3 => 1 / ((3 : ℕ) : ℝ)) = fun _ => 1 / 3 := by norm_num
      dsimp only at hT'
      rw [this, h1] at hT'
      simp only [Except.ok.injEq] at hT'
      exact hT'.symm
    subst h4
    simpa using h3

end CML.Ada
